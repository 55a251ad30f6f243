import Verif.Proof.Config

/-!
# C80: the daemon does what its configuration file says

Options are read as `irmd.conf.in` documents them, loading a file makes exactly the calls its sections mean, in order, and ends at the first failure.
-/

namespace Ouro.Config

/-! ## Options -/

/-- C80: an option is read from its own key, if no key is there twice; the parser refuses files with such keys. -/
theorem C80_keys (t : Table) (h : (t.map fun x => x.1).Nodup) (k : String) (v : Val) : get t k = some v ↔ (k.toList, v) ∈ t := by
  unfold get
  rw [Option.map_eq_some_iff]
  constructor
  · rintro ⟨x, hx, rfl⟩
    have hk := List.find?_some hx
    have hm := List.mem_of_find?_eq_some hx
    simp only [decide_eq_true_eq] at hk
    rw [← hk]
    exact hm
  · intro hm
    induction t with
    | nil => cases hm
    | cons y t ih =>
      simp only [List.map_cons, List.nodup_cons] at h
      rcases List.mem_cons.1 hm with rfl | hm
      · exact ⟨(k.toList, v), by simp, rfl⟩
      · have hy : y.1 ≠ k.toList := fun e => h.1 (by rw [e]; exact List.mem_map.2 ⟨_, hm, rfl⟩)
        obtain ⟨x, hx, hv⟩ := ih h.2 hm
        exact ⟨x, by rw [List.find?_cons_of_neg (by simpa using hy)]; exact hx, hv⟩

example : (([("dev".toList, .str "lo".toList), ("hash".toList, .str "SHA3_224".toList)] : Table).map fun x => x.1).Nodup := by decide +kernel

/-- C80: `hash`, `routing` and `lb` are read as documented, whatever the default of the hash; a word that is not documented is refused. -/
theorem C80_words (d : Hash) (w : Option Str) :
    hashOf d w = reads hashWords d w ∧ routingOf w = reads routingWords .linkState w ∧ lbOf w = reads lbWords .spill w :=
  ⟨hash_reads d w, routing_reads w, lb_reads w⟩

example : hashOf .sha256 (some "SHA3_384".toList) = some .sha384 ∧ hashOf .sha256 (some "MD5".toList) = none := by decide +kernel

/-- C80, violated: `congestion="mb-ecn"` is documented and refused; `congestion="lfa"` is not documented and means it. -/
theorem C80_congestion_violated : reads caWords .mbEcn (some "mb-ecn".toList) = some .mbEcn ∧ caOf (some "mb-ecn".toList) = none ∧
    reads caWords .mbEcn (some "lfa".toList) = none ∧ caOf (some "lfa".toList) = some .mbEcn := by decide +kernel

/-- C80: a unicast IPCP is configured with exactly the options given, if the numbers fit, and the documented defaults for the others. -/
theorem C80_unicast_partial (e : Env) (t : Table) (layer : Str) (a b m : Option Nat) (ha : int t "addr_size" = a.map (fun n : Nat => (n : Int)))
    (hb : int t "eid_size" = b.map (fun n : Nat => (n : Int))) (hm : int t "max_ttl" = m.map (fun n : Nat => (n : Int))) (la : ∀ n ∈ a, n ≤ 255) (lb : ∀ n ∈ b, n ≤ 255)
    (lm : ∀ n ∈ m, n ≤ 255) (h : Hash) (r : Routing) (hh : reads hashWords .sha256 (str t "hash") = some h)
    (hr : reads routingWords .linkState (str t "routing") = some r) (hau : str t "addr-auth" = none ∨ str t "addr-auth" = some "flat".toList)
    (c : Ca) (hc : str t "congestion" = none ∧ c = .mbEcn ∨ str t "congestion" = some "none".toList ∧ c = .none) :
    confOf e .unicast t layer = some ⟨layer, h, .unicast, .uni (a.getD 4) (b.getD 8) (m.getD 60) r c⟩ := by
  have num : ∀ (d : Nat) (o : Option Nat), (∀ n ∈ o, n ≤ 255) → numOf d (o.map (fun n : Nat => (n : Int))) = o.getD d := by
    intro d o ho
    cases o with
    | none => rfl
    | some n =>
      have := ho n rfl
      simp only [Option.map_some, numOf, u8, Option.getD_some]
      omega
  have hca : caOf (str t "congestion") = some c := by
    rcases hc with ⟨hc, rfl⟩ | ⟨hc, rfl⟩ <;> rw [hc] <;> decide +kernel
  have hauth : authOf (str t "addr-auth") = some () := by
    rcases hau with hc | hc <;> rw [hc] <;> decide +kernel
  have hu : uniOf t = some (.uni (a.getD 4) (b.getD 8) (m.getD 60) r c) := by
    unfold uniOf
    simp only [routing_reads, hr, hauth, hca, ha, hb, hm, num 4 a la, num 8 b lb, num 60 m lm]
  have h2 := (hash_reads .sha256 (str t "hash")).trans hh
  simp only [confOf, h2, hu]

example : confOf ⟨fun _ _ => 0, fun _ => 1, fun _ => none, fun _ => none⟩ .unicast
    [("routing".toList, .str "lfa".toList), ("max_ttl".toList, .int 30), ("congestion".toList, .str "none".toList)] "LAN".toList =
      some ⟨"LAN".toList, .sha256, .unicast, .uni 4 8 30 .lfa .none⟩ := by decide +kernel

/-- C80, violated: a number that does not fit is not refused, but cut: `max_ttl=256` is a TTL of 0, and whatever is a multiple of 256 more is the same. -/
theorem C80_cut_violated (d : Nat) (i k : Int) : numOf d (some (i + 256 * k)) = numOf d (some i) ∧ numOf 60 (some 256) = 0 := by
  constructor
  · simp only [numOf, u8]
    omega
  · decide

/-- C80: an Ethernet type that fits is accepted exactly if it is one; without one, it is 0xA000. -/
theorem C80_ethertype_partial (n : Nat) (h : n < 65536) :
    ethertypeOf (some n) = (if 0x0600 ≤ n ∧ n ≠ 0xFFFF then some n else none) ∧ ethertypeOf none = some 0xA000 := by
  have hu : u16 (n : Int) = n := by unfold u16; omega
  refine ⟨?_, by decide⟩
  simp only [ethertypeOf, hu]
  split <;> split <;> first | rfl | (exfalso; omega)

example : ethertypeOf (some 0xA007) = some 0xA007 ∧ ethertypeOf (some 0x0800) = some 0x0800 := by decide

/-- C80, violated: one that does not fit is cut, and accepted if the rest is one. -/
theorem C80_ethertype_violated : ethertypeOf (some 0x1A007) = some 0xA007 ∧ ethertypeOf (some (-24576)) = some 0xA000 := by decide

/-- C80: a UDP IPCP needs an address; with one, and a port that fits, it is configured with them. -/
theorem C80_udp_partial (e : Env) (t : Table) (layer : Str) (p : Option Nat) (hp : int t "port" = p.map (fun n : Nat => (n : Int))) (lp : ∀ n ∈ p, n < 65536) :
    (∀ c, confOf e .udp t layer = some c → ∃ s a, str t "ip" = some s ∧ e.pton s = some a) ∧
      ∀ s a, str t "ip" = some s → e.pton s = some a → (∀ d ∈ str t "dns", e.pton d ≠ none) →
        ∃ c dns, confOf e .udp t layer = some c ∧ c.layer = layer ∧ c.type = .udp ∧ c.sub = .udp a dns (p.getD 3435) ∧
          (∀ d ∈ str t "dns", e.pton d = some dns) ∧ (str t "dns" = none → dns = 0) := by
  constructor
  · intro c h
    simp only [confOf, Option.map_eq_some_iff] at h
    obtain ⟨u, h, _⟩ := h
    unfold udpOf at h
    cases hs : str t "ip" with
    | none => rw [hs] at h; cases h
    | some s =>
      rw [hs] at h
      simp only at h
      cases ha : e.pton s with
      | none => rw [ha] at h; cases h
      | some a => exact ⟨s, a, rfl, ha⟩
  · intro s a hs ha hd
    refine ⟨⟨layer, .sha224, .udp, .udp a (((str t "dns").bind e.pton).getD 0) (p.getD 3435)⟩, ((str t "dns").bind e.pton).getD 0, ?_, rfl, rfl, rfl, ?_, ?_⟩
    · simp only [confOf, hs, udpOf, ha, hp, Option.map_some]
      cases p with
      | none => rfl
      | some n =>
        have := lp n rfl
        have hu : u16 (n : Int) = n := by unfold u16; omega
        simp [hu]
    · intro d hdn
      have hdn' : str t "dns" = some d := hdn
      rw [hdn']
      simp only [Option.bind_some]
      cases hx : e.pton d with
      | none => exact absurd hx (hd d hdn)
      | some x => rfl
    · intro h
      rw [h]
      rfl

example : confOf ⟨fun _ _ => 0, fun _ => 1, fun _ => none, fun _ => some 7⟩ .udp [("ip".toList, .str "127.0.0.1".toList)] "udp".toList =
    some ⟨"udp".toList, .sha224, .udp, .udp 7 0 3435⟩ := by decide +kernel

/-- C80, violated: a DNS server that is no address is not refused: the IPCP is configured as if there were none. -/
theorem C80_dns_violated (e : Env) (ip d : Str) (port : Option Int) (h : e.pton d = none) : udpOf e (some ip) port (some d) = udpOf e (some ip) port none := by
  simp [udpOf, h]

example : (⟨fun _ _ => 0, fun _ => 1, fun _ => none, fun _ => none⟩ : Env).pton "ns1".toList = none := rfl

/-- C80, violated: the default hash is documented as SHA3_256; an IPCP over UDP and a broadcast IPCP have SHA3_224, whatever the file says. -/
theorem C80_hash_violated (e : Env) (t : Table) (layer : Str) :
    (∀ c, confOf e .udp t layer = some c → c.hash = .sha224) ∧ ∀ c, confOf e .broadcast t layer = some c → c.hash = .sha224 := by
  constructor <;> intro c h
  · simp only [confOf, Option.map_eq_some_iff] at h
    obtain ⟨u, _, rfl⟩ := h
    rfl
  · simp only [confOf, Option.some.injEq] at h
    rw [← h]

/-- C80: local and Ethernet IPCPs are configured with the hash and device given. -/
theorem C80_others (e : Env) (t : Table) (layer : Str) (h : Hash) (hh : reads hashWords .sha256 (str t "hash") = some h) :
    confOf e .local_ t layer = some ⟨layer, h, .local_, .none⟩ ∧
      (∀ d, str t "dev" = some d → d.length ≤ 255 → confOf e .llc t layer = some ⟨layer, h, .llc, .eth d 0⟩) ∧
      (∀ d y, str t "dev" = some d → d.length ≤ 255 → ethertypeOf (int t "ethertype") = some y → confOf e .dix t layer = some ⟨layer, h, .dix, .eth d y⟩) ∧
      (str t "dev" = none → confOf e .llc t layer = none ∧ confOf e .dix t layer = none) := by
  have h2 := (hash_reads .sha256 (str t "hash")).trans hh
  have hd : ∀ d : Str, d.length ≤ 255 → devOf (some d) = some d := fun d hd => by rw [devOf, if_neg (by omega)]
  refine ⟨by simp [confOf, h2], fun d h3 h4 => ?_, fun d y h3 h4 h5 => ?_, fun h3 => ?_⟩
  · simp only [confOf, h2, h3, hd d h4]
  · simp only [confOf, h2, h3, hd d h4, h5]
  · simp only [confOf, h2, h3, devOf, and_self]

example : reads hashWords .sha256 (str [("dev".toList, .str "lo".toList)] "hash") = some .sha256 := by decide +kernel

/-! ## The arguments of programs -/

/-- C80: the arguments of a program are the words of the string, in an array with a null pointer after them, and nothing is written outside it. -/
theorem C80_argv (p s : Str) (ws : List Str) (h : Split s ws) :
    argsToArgv p (some s) = .ok (((p :: ws).map some) ++ [none], ws.length + 1) ∧ argsToArgv p none = .ok ([some p, none], 1) := by
  constructor
  · rw [argv_eq]
    have : argWords (some s) = ws := wordsOf_split h _ (Nat.lt_succ_self _)
    rw [this]
    rfl
  · rw [argv_eq]
    rfl

/-- C80: every string has words, and only one list of them. -/
theorem C80_split (s : Str) : ∃ ws, Split s ws ∧ ∀ ws', Split s ws' → ws' = ws :=
  ⟨_, split_wordsOf (s.length + 1) s (Nat.lt_succ_self _), fun _ h => (wordsOf_split h _ (Nat.lt_succ_self _)).symm⟩

example : argsToArgv "oping".toList (some "  --listen  -q ".toList) = .ok ([some "oping".toList, some "--listen".toList, some "-q".toList, none], 3) := by
  decide +kernel

/-! ## Loading -/

/-- C80: if every call succeeds, loading a file makes exactly the calls its sections mean, in their order, and returns 0. -/
theorem C80_load_partial (e : Env) (hok : ∀ h c, 0 ≤ e.res h c) (hl : ∀ p, e.layer p ≠ none) (t : Table) (cfg : List Section_)
    (h : List.Forall₂ (SectionSays e) t cfg) : load e t = .ok (cfg.flatMap (sectionCalls e), 0) := by
  have hp : plain (cfg.flatMap (sectionCalls e)) (t.flatMap (toplevel e)) := by
    refine plain_forall₂ _ _ h fun x s hs => ?_
    cases hs with
    | ipcps ty l t h =>
      rw [toplevel_key]
      exact plain_forall₂ _ _ h fun x i ⟨t, hi⟩ => plain_ipcp hi hl
    | names l t h =>
      rw [toplevel_name]
      exact plain_forall₂ _ _ h fun x n ⟨t, hn⟩ => plain_name hn
  unfold load
  rw [exec_plain e hok hp]
  simp

/-- An environment in which everything succeeds. -/
private def good : Env := ⟨fun _ _ => 0, fun n => n.length, fun _ => some "LAN".toList, fun _ => some 1⟩

/-- The example of irmd.conf.in, shortened. -/
private def file : Table :=
  [("name".toList, .tab [("oping".toList, .tab [("prog".toList, .arr [.str "/usr/bin/oping".toList]), ("args".toList, .arr [.str "--listen".toList]),
      ("lb".toList, .str "round-robin".toList)])]),
    ("local".toList, .tab [("l1".toList, .tab [("bootstrap".toList, .str "L".toList), ("reg".toList, .arr [.str "bc1".toList])])]),
    ("unicast".toList, .tab [("lan2".toList, .tab [("enrol".toList, .str "LAN".toList), ("conn".toList, .arr [.str "lan1".toList]),
      ("autobind".toList, .bool true)])])]

/-- What it means. -/
private def meaning : List Section_ :=
  [.names [⟨"oping".toList, .rr, [("/usr/bin/oping".toList, some ["--listen".toList])]⟩],
    .ipcps .local_ [⟨"l1".toList, some (.inr ⟨"L".toList, .sha256, .local_, .none⟩), false, ["bc1".toList], []⟩],
    .ipcps .unicast [⟨"lan2".toList, some (.inl "LAN".toList), true, [], ["lan1".toList]⟩]]

example : List.Forall₂ (SectionSays good) file meaning := by
  refine .cons (.names _ _ (.cons ⟨_, rfl, by decide +kernel, by decide +kernel, ?_⟩ .nil)) (.cons (.ipcps .local_ _ _ (.cons ?_ .nil))
    (.cons (.ipcps .unicast _ _ (.cons ?_ .nil)) .nil))
  · refine ⟨[("/usr/bin/oping".toList, "--listen".toList, ["--listen".toList])], [], ?_, rfl, .inl rfl, .inl rfl⟩
    intro a ha
    rw [List.mem_singleton] at ha
    subst ha
    exact Split.word "--listen".toList [] [] (by decide +kernel) (by decide +kernel) (.inl rfl) .nil
  · exact ⟨_, { val := rfl, len := by decide +kernel, start := ⟨rfl, rfl, by decide +kernel, by decide +kernel, rfl⟩, bind := rfl, reg := .inl rfl,
                short := by decide +kernel, conn := .inr ⟨rfl, rfl⟩ }⟩
  · exact ⟨_, { val := rfl, len := by decide +kernel, start := rfl, bind := rfl, reg := .inr ⟨rfl, rfl⟩, short := by decide +kernel, conn := .inl rfl }⟩

/-- C80: nothing is done after a call that failed, and then the daemon is told; creating a name may fail with -ENAME. -/
theorem C80_stop (e : Env) (t : Table) (calls : List Call) (r : Int) (h : load e t = .ok (calls, r)) :
    (r = 0 ∨ r = -1) ∧ ∀ a c b, calls = a ++ c :: b → b ≠ [] ∨ r = 0 → 0 ≤ e.res a c ∨ ((∃ n lb, c = .createName n lb) ∧ e.res a c = -ENAME) := by
  obtain ⟨hr, post, hc, hp⟩ := exec_stop e _ [] calls r (tol_flatMap fun x _ => tol_toplevel e x) h
  rw [List.nil_append] at hc
  subst hc
  refine ⟨hr, fun a c b hs hb => ?_⟩
  have := hp a c b hs hb
  simpa using this

/-- C80: a failing call only ends the loading: the calls are a prefix of those made if every call succeeds, and all of them if 0 is returned. -/
theorem C80_prefix (e : Env) (t : Table) (calls calls' : List Call) (r r' : Int) (h : load e t = .ok (calls, r))
    (h' : load { e with res := fun _ _ => 0 } t = .ok (calls', r')) : calls <+: calls' ∧ (r = 0 → calls = calls' ∧ r' = 0) := by
  have eq : toplevel { e with res := fun _ _ => 0 } = toplevel e := rfl
  unfold load at h h'
  rw [eq] at h'
  exact exec_prefix e { e with res := fun _ _ => 0 } (fun _ _ => Int.le_refl 0) _ _ _ _ _ _ h h'

example : load { good with res := fun h _ => if h.length = 2 then -1 else 0 } file = .ok ([.createName "oping".toList .rr,
    .bindProgram ["/usr/bin/oping".toList, "--listen".toList] "oping".toList true, .create .local_ "l1".toList], -1) := by decide +kernel

/-- C80: no file whose sections are tables of tables and whose names are short leads to undefined behaviour, whatever the keys and values. -/
theorem C80_safe_partial (e : Env) (t : Table) (h : Shaped t) : load e t ≠ .ub := by
  refine exec_safe e _ _ (safe_flatMap fun x hx => ?_)
  obtain ⟨s, hs, hy⟩ := h x hx
  exact safe_toplevel e x s hs hy

example : Shaped [("local".toList, .tab [("x".toList, .tab [("bootstrap".toList, .int 3)])])] := by
  intro x hx
  rw [List.mem_singleton] at hx
  subst hx
  refine ⟨_, rfl, fun y hy => ?_⟩
  rw [List.mem_singleton] at hy
  subst hy
  refine ⟨by decide +kernel, _, rfl, fun l hl => ?_⟩
  simp [get] at hl

/-- C80, violated: a section, an IPCP or a name that is not a table is the null pointer, which is read. -/
theorem C80_null_violated (e : Env) (hok : ∀ h c, 0 ≤ e.res h c) (ty : Ty) (n : Str) (hn : n.length ≤ 255) (i : Int) (rest : Table) :
    load e (((key ty).toList, .int i) :: rest) = .ub ∧ load e (((key ty).toList, .tab [(n, .int i)]) :: rest) = .ub ∧
      load e (("name".toList, .tab [(n, .int i)]) :: rest) = .ub := by
  unfold load
  refine ⟨?_, ?_, ?_⟩
  · rw [List.flatMap_cons, toplevel_key]
    rfl
  · rw [List.flatMap_cons, toplevel_key]
    have : ipcpList e ty (table (.tab [(n, .int i)])) = [.call (.create ty n) false, .crash] := by
      simp only [ipcpList, table, List.flatMap_cons, List.flatMap_nil, List.append_nil, ipcp]
      rw [if_neg (by omega)]
    rw [this]
    simp only [List.cons_append, exec, if_pos (Or.inl (hok [] (.create ty n)) : 0 ≤ e.res [] (.create ty n) ∨ _)]
  · rw [List.flatMap_cons, toplevel_name]
    rfl

/-- C80, violated: a name of more than 255 characters is written outside its array, in `reg` as in a section of its own. -/
theorem C80_long_violated (e : Env) (n : Str) (h : 255 < n.length) (t : Table) (hlb : reads lbWords .spill (str t "lb") ≠ none) (pid : Nat) (l : List Val) :
    name (n, .tab t) = [.crash] ∧ (get t "reg" = some (.arr (.str n :: l)) → .crash ∈ register t pid) ∧ ∀ h', exec e h' [.crash] = .ub := by
  refine ⟨?_, fun hr => ?_, fun _ => rfl⟩
  · unfold name
    simp only [table]
    rw [lb_reads]
    cases hx : reads lbWords .spill (str t "lb") with
    | none => exact absurd hx hlb
    | some lb => exact if_pos h
  · simp [register, arr, hr, strs, regOne, h]

example : reads lbWords .spill (str [("reg".toList, .arr [])] "lb") ≠ none := by decide +kernel

/-- C80, violated: `autobind=false` binds like `autobind=true`. -/
theorem C80_autobind_violated (t t' : Table) (h : get t "autobind" = some (.bool false)) (h' : get t' "autobind" = some (.bool true)) (pid : Nat) (n l : Str) :
    autobind t pid n l = autobind t' pid n l ∧ autobind t pid n l = [.call (.bindProcess pid n) false, .call (.bindProcess pid l) false] := by
  simp [autobind, bool, h, h']

example : get [("autobind".toList, .bool false)] "autobind" = some (.bool false) := rfl

/-- C80, violated: the neighbours of an IPCP that is bootstrapped are ignored: no call connects it, and 0 is returned. -/
theorem C80_conn_violated : load good [("unicast".toList, .tab [("lan1".toList, .tab [("bootstrap".toList, .str "LAN".toList),
    ("conn".toList, .arr [.str "lan2".toList])])])] =
      .ok ([.create .unicast "lan1".toList, .bootstrap 4 ⟨"LAN".toList, .sha256, .unicast, .uni 4 8 60 .linkState .mbEcn⟩], 0) := by decide +kernel

/-- C80: a section with another name is refused, and nothing that comes after it is done. -/
theorem C80_unknown (e : Env) (k : Str) (v : Val) (rest : Table) (h : ∀ ty, k ≠ (key ty).toList) (hn : k ≠ "name".toList) :
    load e ((k, v) :: rest) = .ok ([], -1) := by
  have h1 : k ≠ "local".toList := h .local_
  have h2 : k ≠ "eth-dix".toList := h .dix
  have h3 : k ≠ "eth-llc".toList := h .llc
  have h4 : k ≠ "udp".toList := h .udp
  have h5 : k ≠ "broadcast".toList := h .broadcast
  have h6 : k ≠ "unicast".toList := h .unicast
  have ht : toplevel e (k, v) = [.fail] := by
    unfold toplevel
    dsimp only
    rw [if_neg h1, if_neg h2, if_neg h3, if_neg h4, if_neg h5, if_neg h6, if_neg hn]
  unfold load
  rw [List.flatMap_cons, ht]
  rfl

/-- C80, violated: the section of IPCPs over UDP is documented as `eth-udp`, which is refused. -/
theorem C80_udp_violated (e : Env) (t : Table) (rest : Table) : load e (("eth-udp".toList, .tab t) :: rest) = .ok ([], -1) :=
  C80_unknown e _ _ rest (fun ty => by cases ty <;> decide +kernel) (by decide +kernel)

/-- C80, violated: the policy of a name that an IPCP earlier in the file registers is ignored, and 0 is returned. -/
theorem C80_policy_violated : ∃ calls, load good [("local".toList, .tab [("l1".toList, .tab [("bootstrap".toList, .str "L".toList),
    ("reg".toList, .arr [.str "oping".toList])])]), ("name".toList, .tab [("oping".toList, .tab [("lb".toList, .str "round-robin".toList)])])] = .ok (calls, 0) ∧
      policy calls "oping".toList = some .spill :=
  ⟨[.create .local_ "l1".toList, .bootstrap 2 ⟨"L".toList, .sha256, .local_, .none⟩, .createName "oping".toList .spill, .reg "oping".toList 2,
    .createName "oping".toList .rr], by decide +kernel, by decide +kernel⟩

end Ouro.Config
