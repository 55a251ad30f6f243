import Verif.Proof.DhtStore

/-!
# C42: local storage of the directory
-/

namespace Ouro.DhtStore

/-! ## Concrete histories -/

/-- A key. -/
def kA : Key := [1, 2]

/-- Another key. -/
def kB : Key := [3, 4]

/-- Two addresses under a key and one under another; the first again, for longer; a pass; the own address (7) unregistered. -/
def demo : List Op := [.store 100 50 kA 7, .store 100 200 kA 9, .store 110 30 kB 7, .store 120 60 kA 7, .pass 160, .unreg kA]

example : (match run (init 2 7 0) demo with | .ok s => some (s.entries.map (fun e => (e.key, e.n, e.vals.map (fun v => (v.addr, v.exp))))) | .ub => none) = some [(kB, 1, []), (kA, 1, [(9, 300)])] := by decide +kernel

example : (match run (init 2 7 0) demo with | .ok s => some (retrieve s kA, getAddr s kA) | .ub => none) = some (.ok [9], 9) := by decide +kernel

/-! ## What is stored -/

/-- C42: for all histories of stores, unregistrations and passes, a node holds an address for a key until a time just if the history says so: it was stored, has the latest of the times it was stored
for, was not unregistered since and had not expired at a pass since. -/
theorem C42_refines {b self : Nat} {r : Int} {ops : List Op} {s : St} (h : run (init b self r) ops = .ok s) (k : Key) (a : Nat) (t : Int) : holds s k a t ↔ spec b self ops k a = some t := by
  obtain ⟨h1, h2⟩ := run_spec ops h
  rw [holds_iff h1, h2]

/-- C42: no key has two entries and no entry has an address twice. -/
theorem C42_no_duplicates {b self : Nat} {r : Int} {ops : List Op} {s : St} (h : run (init b self r) ops = .ok s) : (s.entries.map (·.key)).Nodup ∧ ∀ e ∈ s.entries, (e.vals.map (·.addr)).Nodup :=
  ⟨(run_spec ops h).1.keys, (run_spec ops h).1.addrs⟩

/-- C42: histories in which every stored key has at least the length of the keys of the directory have a result. -/
theorem C42_total (b self : Nat) (r : Int) (ops : List Op) (h : ∀ op ∈ ops, match op with | .store _ _ id _ => b ≤ id.length | _ => True) : ∃ s, run (init b self r) ops = .ok s := by
  induction ops using List.reverseRecOn with
  | nil => exact ⟨_, rfl⟩
  | append_singleton ops op ih =>
    obtain ⟨s, hs⟩ := ih (fun o ho => h o (List.mem_append_left _ ho))
    rw [run_snoc, hs]
    have hop := h op (List.mem_append_right _ List.mem_cons_self)
    cases op with
    | store now exp id addr =>
      have hb := (run_spec ops hs).1.hb
      show ∃ s', step s (.store now exp id addr) = .ok s'
      simp only [step, kadAdd_one, addOne]
      rw [if_neg (by simp only at hop; omega)]
      split <;> exact ⟨_, rfl⟩
    | unreg k => exact ⟨_, rfl⟩
    | pass now => exact ⟨_, rfl⟩

/-! ## Lookups -/

/-- C42, partial (missing: that the answer to a request for the value is initialised, `C42_retrieve_violated`): if the answer is an address, it is stored for the key; if the answer is none, no address is
stored; and if an address is stored, the answer is an address. -/
theorem C42_retrieve_partial {b self : Nat} {r : Int} {ops : List Op} {s : St} (h : run (init b self r) ops = .ok s) (k : Key) :
    (∀ l, retrieve s k = .ok l → ∀ a ∈ l, ∃ t, spec b self ops k a = some t) ∧
    (retrieve s k = .ok [] → ∀ a, spec b self ops k a = none) ∧
    ((∃ a t, spec b self ops k a = some t) → ∃ a, retrieve s k = .ok [a]) := by
  obtain ⟨h1, h2⟩ := run_spec ops h
  have h2 : spec b self ops k = absOf s k := by funext a; exact (h2 k a).symm
  rw [h2]
  unfold retrieve absOf
  cases hf : findEntry s.entries k with
  | none =>
    refine ⟨fun l hl a ha => ?_, fun _ _ => rfl, fun ⟨a, t, h⟩ => by cases h⟩
    injection hl with hl
    subst hl
    cases ha
  | some e =>
    have hc := h1.cnt e (findEntry_mem hf).1
    have hn := h1.addrs e (findEntry_mem hf).1
    simp only [Option.bind_some]
    rw [if_neg (by omega)]
    cases hv : e.vals with
    | nil => exact ⟨fun l hl => (by cases hl), fun hl => (by cases hl), fun ⟨a, t, h⟩ => (by cases h)⟩
    | cons v vs =>
      refine ⟨fun l hl a ha => ?_, fun hl => (by cases hl), fun _ => ⟨v.addr, rfl⟩⟩
      injection hl with hl
      subst hl
      rw [List.mem_singleton] at ha
      subst ha
      exact ⟨v.exp, by rw [look_cons, if_pos rfl]⟩

/-- C42: a lookup of the node in its own storage gives an address of another node that is stored for the key, and none (0) just if there is none, if 0 is not stored as an address. -/
theorem C42_query {b self : Nat} {r : Int} {ops : List Op} {s : St} (h : run (init b self r) ops = .ok s) (k : Key) :
    (getAddr s k ≠ 0 → getAddr s k ≠ self ∧ ∃ t, spec b self ops k (getAddr s k) = some t) ∧
    (spec b self ops k 0 = none → (getAddr s k = 0 ↔ ∀ a, a ≠ self → spec b self ops k a = none)) := by
  obtain ⟨h1, h2⟩ := run_spec ops h
  have h2 : spec b self ops k = absOf s k := by funext a; exact (h2 k a).symm
  rw [h2]
  have hs := h1.hs
  unfold getAddr absOf
  cases hf : findEntry s.entries k with
  | none => exact ⟨fun hh => absurd rfl hh, fun _ => ⟨fun _ _ _ => rfl, fun _ => rfl⟩⟩
  | some e =>
    have hn := h1.addrs e (findEntry_mem hf).1
    simp only [Option.bind_some]
    cases hv : e.vals.find? (fun v => v.addr ≠ s.self) with
    | none =>
      refine ⟨fun hh => absurd rfl hh, fun _ => ⟨fun _ a ha => ?_, fun _ => rfl⟩⟩
      rw [List.find?_eq_none] at hv
      cases hl : look e.vals a with
      | none => rfl
      | some t =>
        obtain ⟨v, hm, h3, _⟩ := (look_mem hn a t).1 hl
        have := hv v hm
        rw [hs] at this
        simp only [ne_eq, decide_not, Bool.not_eq_true', decide_eq_false_iff_not, not_not] at this
        exact absurd (h3.symm.trans this) ha
    | some v =>
      have hm := List.mem_of_find?_eq_some hv
      have hp := List.find?_some hv
      rw [hs] at hp
      simp only [ne_eq, decide_not, Bool.not_eq_true', decide_eq_false_iff_not] at hp
      refine ⟨fun _ => ⟨hp, v.exp, (look_mem hn _ _).2 ⟨v, hm, rfl, rfl⟩⟩, fun hz => ⟨fun h0 => ?_, fun hall => ?_⟩⟩
      · exfalso
        have := (look_mem hn v.addr v.exp).2 ⟨v, hm, rfl, rfl⟩
        simp only at h0
        rw [h0, hz] at this
        cases this
      · have := (look_mem hn v.addr v.exp).2 ⟨v, hm, rfl, rfl⟩
        rw [hall v.addr hp] at this
        cases this

/-! ## Unregistration and expiry -/

/-- C42: unregistering a key removes the own address for that key, and nothing else. -/
theorem C42_unreg {b self : Nat} {r : Int} {ops : List Op} {s s' : St} (h : run (init b self r) ops = .ok s) (key : Key) (h' : run (init b self r) (ops ++ [.unreg key]) = .ok s') (k : Key) (a : Nat) (t : Int) :
    holds s' k a t ↔ holds s k a t ∧ ¬ (k = key ∧ a = self) := by
  rw [C42_refines h', C42_refines h, spec_snoc]
  simp only [specStep]
  split
  · next hh => simp [hh]
  · next hh => simp [hh]

example : (match run (init 2 7 0) [.store 0 9 kA 7, .store 0 9 kA 8, .unreg kA] with | .ok s => some (retrieve s kA) | .ub => none) = some (.ok [8]) := by decide +kernel

/-- C42: after a pass, what is held is what was held and has not expired. -/
theorem C42_pass {b self : Nat} {r : Int} {ops : List Op} {s s' : St} (h : run (init b self r) ops = .ok s) (now : Int) (h' : run (init b self r) (ops ++ [.pass now]) = .ok s') (k : Key) (a : Nat) (t : Int) :
    holds s' k a t ↔ holds s k a t ∧ now ≤ t := by
  rw [C42_refines h', C42_refines h, spec_snoc]
  simp only [specStep, Option.filter_eq_some_iff, decide_eq_true_eq]

/-- C42: storing an address for a key makes it held at least until the new time, and changes no other. -/
theorem C42_store {b self : Nat} {r : Int} {ops : List Op} {s s' : St} (h : run (init b self r) ops = .ok s) (now exp : Int) (id : Key) (addr : Nat) (h' : run (init b self r) (ops ++ [.store now exp id addr]) = .ok s') :
    (∃ t, now + exp ≤ t ∧ holds s' (id.take b) addr t) ∧ ∀ k a t, ¬ (k = id.take b ∧ a = addr) → (holds s' k a t ↔ holds s k a t) := by
  constructor
  · refine ⟨_, ?_, (C42_refines h' _ _ _).2 (by rw [spec_snoc]; simp only [specStep, true_and, if_true]; rfl)⟩
    split <;> simp
  · intro k a t hne
    rw [C42_refines h', C42_refines h, spec_snoc]
    simp only [specStep, if_neg hne]

/-! ## What does not hold -/

/-- C42 is violated: when a stored address expires, the entry stays with its count of one and an empty list, and the answer to a request for the value is memory that was never written. -/
theorem C42_retrieve_violated : ∃ (ops : List Op) (s : St), run (init 2 7 0) ops = .ok s ∧ (∀ a, spec 2 7 ops kA a = none) ∧ retrieve s kA = .ub := by
  refine ⟨[.store 0 10 kA 9, .pass 100], _, rfl, fun a => ?_, by decide +kernel⟩
  simp only [spec, List.foldl_cons, List.foldl_nil, specStep]
  by_cases h : a = 9
  · subst h; decide +kernel
  · simp [h]

/-- C42 is violated: an entry without addresses stays, and no unregistration and no pass removes it. -/
theorem C42_leak_violated (b self : Nat) (e : Entry) (s : St) (hs : s.self = self) (he : e ∈ s.entries) (hv : e.vals = []) (hn : 0 < e.n) (op : Op) (hop : ∀ now exp id a, op ≠ .store now exp id a) :
    ∃ s', step s op = .ok s' ∧ ∃ e' ∈ s'.entries, e'.key = e.key ∧ e'.n = e.n ∧ e'.vals = [] := by
  cases op with
  | store now exp id a => exact absurd rfl (hop now exp id a)
  | unreg k =>
    refine ⟨_, rfl, e, ?_, rfl, rfl, hv⟩
    show e ∈ onFirst k (delAddr s.self) s.entries
    have hd : delAddr s.self e = some e := by
      unfold delAddr
      simp only [hv, List.filter_nil, List.length_nil, Nat.sub_zero]
      rw [if_neg (by omega)]
      cases e
      simp_all
    clear hop
    generalize s.entries = es at he
    induction es with
    | nil => cases he
    | cons x xs ih =>
      unfold onFirst
      rcases List.mem_cons.1 he with rfl | he
      · split
        · rw [hd]; exact List.mem_cons_self
        · exact List.mem_cons_self
      · split
        · split
          · exact List.mem_cons_of_mem _ he
          · exact he
        · exact List.mem_cons_of_mem _ (ih he)
  | pass now =>
    refine ⟨_, rfl, { e with vals := passVals now s.replic e.vals }, List.mem_map.2 ⟨e, he, rfl⟩, rfl, rfl, ?_⟩
    show passVals now s.replic e.vals = []
    rw [hv]
    rfl

example : (⟨kA, 1, []⟩ : Entry) ∈ (match run (init 2 7 0) [.store 0 10 kA 9, .pass 100] with | .ok s => s.entries | .ub => []) := by decide +kernel

/-- C42 is violated: a lookup does not look at the time, so an address is returned after it expired, until the next pass. -/
theorem C42_expired_violated : ∃ (ops : List Op) (s : St) (now t : Int), (∀ op ∈ ops, ∃ n e id a, op = .store n e id a ∧ n ≤ now) ∧ run (init 2 7 0) ops = .ok s ∧ spec 2 7 ops kA 9 = some t ∧ t < now ∧ retrieve s kA = .ok [9] :=
  ⟨[.store 0 10 kA 9], _, 1000, 10, fun op hop => ⟨0, 10, kA, 9, by simpa using hop, by decide⟩, rfl, by decide +kernel, by decide, by decide +kernel⟩

/-- C42 is violated: when a value is due for replication it is published to live for as many seconds as the clock shows (instead of the configured time), and that becomes the time for all later publications. -/
theorem C42_lifetime_violated : ∃ (s : St) (now : Int), run (init 2 7 900) [.store 1700000000 86400 kA 9] = .ok s ∧ s.tExpire = 86400 ∧ (pass now s).2 = [(kA, 9, now)] ∧ (pass now s).1.tExpire = now ∧ now = 1700000901 :=
  ⟨_, 1700000901, rfl, rfl, by decide +kernel, by decide +kernel, rfl⟩

/-- In every state, what a pass publishes has the time of the pass as its time to live. -/
theorem C42_lifetime_always (now : Int) (s : St) : (∀ p ∈ (pass now s).2, p.2.2 = now) ∧ ((pass now s).2 ≠ [] → (pass now s).1.tExpire = now) := by
  constructor
  · intro p hp
    simp only [pass, passOut, List.mem_flatMap, List.mem_map] at hp
    obtain ⟨e, _, v, _, rfl⟩ := hp
    rfl
  · intro h
    show (if passOut now s.entries = [] then s.tExpire else now) = now
    exact if_neg h

/-- C42: what a pass publishes is held, has not expired and is due. -/
theorem C42_published (now : Int) (s : St) (k : Key) (a : Nat) (t : Int) : (k, a, t) ∈ (pass now s).2 ↔ t = now ∧ ∃ e ∈ s.entries, e.key = k ∧ ∃ v ∈ e.vals, v.addr = a ∧ now ≤ v.exp ∧ v.rep < now := by
  simp only [pass, passOut, List.mem_flatMap, List.mem_map, List.mem_filter, decide_eq_true_eq, not_lt, gt_iff_lt, Prod.mk.injEq]
  constructor
  · rintro ⟨e, he, v, ⟨⟨hv, h1⟩, h2⟩, h3, h4, h5⟩
    exact ⟨h5.symm, e, he, h3, v, hv, h4, h1, h2⟩
  · rintro ⟨rfl, e, he, h3, v, hv, h4, h1, h2⟩
    exact ⟨e, he, v, ⟨⟨hv, h1⟩, h2⟩, h3, h4, rfl⟩

/-- C42 is violated: a message that stores two contacts reads past the first of them, and one with a short key reads past the key. -/
theorem C42_message_violated (now exp : Int) (s : St) (c d : List UInt8 × Nat) (cs : List (List UInt8 × Nat)) : storeMsg now s (c :: d :: cs) (some exp) = .ub ∧ (c.1.length < s.b → storeMsg now s [c] (some exp) = .ub) := by
  refine ⟨rfl, fun h => ?_⟩
  show kadAdd now exp s [c] = .ub
  rw [kadAdd_one, addOne, if_pos h]

/-- C42: a message without contacts or without a time stores nothing, and one with one contact stores it. -/
theorem C42_message (now : Int) (s : St) : (∀ exp, storeMsg now s [] exp = .ok s) ∧ (∀ cs, storeMsg now s cs none = .ok s) ∧ ∀ exp id a, storeMsg now s [(id, a)] (some exp) = step s (.store now exp id a) := by
  refine ⟨fun exp => rfl, fun cs => ?_, fun exp id a => rfl⟩
  cases cs <;> rfl

end Ouro.DhtStore
