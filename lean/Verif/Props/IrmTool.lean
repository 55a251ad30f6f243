import Verif.Proof.IrmTool

/-!
# C79: the `irm` tool does what its command line says

Patterns match as documented, abbreviations are resolved, and a command acts on exactly the IPCPs its words mean.
-/

namespace Ouro.IrmTool

/-! ## Patterns -/

/-- C79: what is matched is meant by the pattern, for all patterns and strings. -/
theorem C79_pattern_sound (p s : Str) (h : wild p s = true) : Glob p s := wild_sound p s h

example : wild "a*c*".toList "abcbd".toList = true := by decide +kernel

/-- C79: and what is meant is matched, for patterns without two `*` in a row. -/
theorem C79_pattern_partial (p s : Str) (h : NoDouble p) : wild p s = true ↔ Glob p s := ⟨wild_sound p s, wild_complete p s h⟩

example : NoDouble "net*.ipcp*".toList := by unfold NoDouble; decide +kernel

/-- C79, violated: two `*` in a row at the end do not match nothing, whatever comes before them. -/
theorem C79_pattern_violated (p : Str) (h : Plain p) : Glob (p ++ ['*', '*']) p ∧ wild (p ++ ['*', '*']) p = false := by
  constructor
  · clear h
    have base : Glob ['*', '*'] [] := .star _ [] [] (.star _ [] [] .nil)
    induction p with
    | nil => exact base
    | cons c p ih =>
      by_cases hc : c = '*'
      · subst hc
        exact .star _ ['*'] p ih
      · exact .lit c _ _ hc ih
  · induction p with
    | nil => decide
    | cons c p ih =>
      have hc : c ≠ '*' := fun e => h (by simp [e])
      rw [List.cons_append, wild_cons, if_neg hc]
      simp [ih (fun e => h (List.mem_cons_of_mem _ e))]

example : Plain "ipcp.".toList := by unfold Plain; decide +kernel

/-! ## Abbreviations -/

/-- C79: an abbreviation means the first command it is a prefix of; it is unknown if there is none. -/
theorem C79_abbreviation (table : List Str) (a : Str) :
    (∀ k, resolve table a = some k → k ∈ table ∧ a <+: k) ∧ (resolve table a = none ↔ ∀ k ∈ table, ¬ a <+: k) ∧
      ∀ k ∈ table, a <+: k → (∀ k' ∈ table, a <+: k' → k' = k) → resolve table a = some k := by
  have h1 : ∀ k, resolve table a = some k → k ∈ table ∧ a <+: k := fun k h =>
    ⟨List.mem_of_find?_eq_some h, (matches_iff a k).1 (by simpa using List.find?_some h)⟩
  have h2 : resolve table a = none ↔ ∀ k ∈ table, ¬ a <+: k := by
    unfold resolve
    rw [List.find?_eq_none]
    constructor <;> intro h k hk
    · rw [← matches_iff]; exact h k hk
    · rw [matches_iff]; exact h k hk
  refine ⟨h1, h2, fun k hk ha hu => ?_⟩
  cases hr : resolve table a with
  | none => exact absurd ha (h2.1 hr k hk)
  | some k' => rw [hu k' (h1 k' hr).1 (h1 k' hr).2]

/-- C79: in every table of the tool, a command or option written out means itself. -/
theorem C79_full : ∀ t ∈ [irmCmds, ipcpCmds, nameCmds, bindCmds, bootOpts], ∀ k ∈ t, resolve t k = some k := by decide +kernel

/-- C79, violated: an abbreviation of several is not refused: `irm ipcp d` destroys though it may mean `disconnect`. -/
theorem C79_ambiguous_violated : resolve ipcpCmds "d".toList = some "destroy".toList ∧ "d".toList <+: "disconnect".toList ∧
    "disconnect".toList ∈ ipcpCmds ∧ resolve ipcpCmds [] = some "create".toList := by decide +kernel

/-! ## Lists -/

/-- C79, violated: a list in which an IPCP has a name of 255 characters, which creating one allows, is written outside its memory. -/
theorem C79_list_violated (i : Ipcp) (l : List Ipcp) (hi : i ∈ l) (h : i.name.length = 255 ∨ i.layer.length = 255) : listIpcps l = .ub := by
  unfold listIpcps
  rw [if_neg]
  rw [List.all_eq_true]
  intro ha
  have := ha i hi
  simp only [Bool.and_eq_true, decide_eq_true_eq] at this
  omega

example : (⟨1, List.replicate 255 'a', []⟩ : Ipcp).name.length = 255 := by decide +kernel

/-! ## Registering -/

/-- C79: registering creates the name if it does not exist, and registers it with exactly the IPCPs that one of the patterns means, if every call
succeeds. -/
theorem C79_register_partial (e : Env) (name : Str) (l : List (Bool × Str)) (is : List Ipcp) (ns : List Str) (hl : l ≠ [])
    (h1 : (l.filter (·.1)).length ≤ 128) (h2 : (l.filter (!·.1)).length ≤ 128) (hd : ∀ x ∈ l, NoDouble x.2) (hi : e.ipcps = some is) (hs : Short is)
    (hn : e.names = some ns) (hok : ∀ n c, e.ok n c = true) :
    ∃ calls, doReg e (name :: words l) = .ok (calls, 0) ∧ (∀ n p, .reg n p ∈ calls ↔ n = name ∧ ∃ i ∈ is, i.pid = p ∧ Meant l i) ∧
      (.createName name ∈ calls ↔ name ∉ ns) ∧ ∀ c ∈ calls, c = .createName name ∨ ∃ p, c = .reg name p := by
  have mem : ∀ c, c ∈ is.flatMap (regCalls name l) ↔ ∃ i ∈ is, c = .reg name i.pid ∧ Meant l i := by
    intro c
    rw [List.mem_flatMap]
    constructor <;> rintro ⟨i, him, h⟩
    · rw [mem_regCalls] at h
      obtain ⟨hc, x, hx, hw⟩ := h
      exact ⟨i, him, hc, x, hx, wild_sound _ _ hw⟩
    · obtain ⟨hc, x, hx, hg⟩ := h
      exact ⟨i, him, (mem_regCalls _ _ _ _).2 ⟨hc, x, hx, wild_complete _ _ (hd x hx) hg⟩⟩
  have reg : ∀ n p, Call.reg n p ∈ is.flatMap (regCalls name l) ↔ n = name ∧ ∃ i ∈ is, i.pid = p ∧ Meant l i := by
    intro n p
    rw [mem]
    constructor
    · rintro ⟨i, him, hc, hm⟩
      cases hc
      exact ⟨rfl, i, him, rfl, hm⟩
    · rintro ⟨rfl, i, him, rfl, hm⟩
      exact ⟨i, him, rfl, hm⟩
  have eq := doReg_eq e name l is ns hl h1 h2 hi hs hn
  rw [exec_all _ hok, exec_all _ hok, if_pos (hok _ _)] at eq
  by_cases hc : ns.contains name = true
  · rw [if_pos hc] at eq
    refine ⟨_, eq, reg, ?_, ?_⟩
    · constructor
      · intro h
        obtain ⟨i, _, h, _⟩ := (mem _).1 h
        cases h
      · intro h
        exact absurd (by simpa using hc) h
    · intro c h
      obtain ⟨i, _, h, _⟩ := (mem _).1 h
      exact .inr ⟨_, h⟩
  · rw [if_neg hc] at eq
    refine ⟨_, eq, ?_, ?_, ?_⟩
    · intro n p
      rw [List.mem_cons, ← reg]
      simp
    · simpa using hc
    · intro c h
      rcases List.mem_cons.1 h with rfl | h
      · exact .inl rfl
      · obtain ⟨i, _, h, _⟩ := (mem _).1 h
        exact .inr ⟨_, h⟩

example : doReg ⟨some [⟨7, "i1".toList, "net".toList⟩, ⟨8, "i2".toList, "other".toList⟩], some [], fun _ _ => true⟩
    ("web".toList :: words [(true, "n*".toList), (false, "*2".toList)]) =
      .ok ([.createName "web".toList, .reg "web".toList 7, .reg "web".toList 8], 0) := by decide +kernel

/-- C79: whatever calls fail, whatever the patterns: no other name is registered, and it is registered with no IPCP that no pattern means. -/
theorem C79_register_only (e : Env) (name : Str) (l : List (Bool × Str)) (is : List Ipcp) (ns : List Str) (hl : l ≠ [])
    (h1 : (l.filter (·.1)).length ≤ 128) (h2 : (l.filter (!·.1)).length ≤ 128) (hi : e.ipcps = some is) (hs : Short is) (hn : e.names = some ns)
    (calls : List Call) (r : Int) (h : doReg e (name :: words l) = .ok (calls, r)) :
    ∀ c ∈ calls, c = .createName name ∧ name ∉ ns ∨ ∃ i ∈ is, c = .reg name i.pid ∧ Meant l i := by
  have mem : ∀ c, Step.call c ∈ (is.flatMap (regCalls name l)).map Step.call → ∃ i ∈ is, c = .reg name i.pid ∧ Meant l i := by
    intro c hc
    rw [List.mem_map] at hc
    obtain ⟨c', hc', e'⟩ := hc
    cases e'
    rw [List.mem_flatMap] at hc'
    obtain ⟨i, him, h⟩ := hc'
    rw [mem_regCalls] at h
    obtain ⟨hc, x, hx, hw⟩ := h
    exact ⟨i, him, hc, x, hx, wild_sound _ _ hw⟩
  rw [doReg_eq e name l is ns hl h1 h2 hi hs hn] at h
  split at h
  · cases he : exec e.ok 0 ((is.flatMap (regCalls name l)).map .call) with
    | ub => rw [he] at h; cases h
    | ok q =>
      rw [he] at h
      obtain ⟨q1, q2⟩ := q
      simp only [finish, Outcome.ok.injEq, Prod.mk.injEq] at h
      intro c hc
      rw [← h.1] at hc
      exact .inr (mem c (exec_sub _ _ _ _ he c hc))
  · rename_i hc0
    split at h
    · cases he : exec e.ok 1 ((is.flatMap (regCalls name l)).map .call) with
      | ub => rw [he] at h; cases h
      | ok q =>
        rw [he] at h
        obtain ⟨q1, q2⟩ := q
        simp only [finish, Outcome.ok.injEq, Prod.mk.injEq] at h
        intro c hc
        rw [← h.1] at hc
        rcases List.mem_cons.1 hc with rfl | hc
        · exact .inl ⟨rfl, by simpa using hc0⟩
        · exact .inr (mem c (exec_sub _ _ _ _ he c hc))
    · cases h

example : doReg ⟨some [⟨7, "i1".toList, "net".toList⟩, ⟨8, "i2".toList, "net".toList⟩], some ["web".toList], fun n _ => n = 0⟩
    ("web".toList :: words [(true, "net".toList)]) = .ok ([.reg "web".toList 7, .reg "web".toList 8], -1) := by decide +kernel

/-- C79, violated: an IPCP that is meant by two of the patterns is registered with twice. -/
theorem C79_twice_violated : doReg ⟨some [⟨7, "i1".toList, "net".toList⟩], some ["web".toList], fun _ _ => true⟩
    ("web".toList :: words [(true, "net".toList), (false, "i1".toList)]) = .ok ([.reg "web".toList 7, .reg "web".toList 7], 0) := by decide +kernel

/-- C79, violated: more than 128 layers are not refused: the 129th is stored outside the array, whatever it is and whatever else is given. -/
theorem C79_many_violated (e : Env) (name : Str) (l : List (Bool × Str)) (h : 128 < (l.filter (·.1)).length) :
    doReg e (name :: words l) = .ub ∧ doUnreg e (name :: words l) = .ub := by
  have ha : regArgs (words l) [] [] = .ub := by
    rw [regArgs_words, if_neg]
    rw [List.length_nil]
    omega
  simp [doReg, doUnreg, ha]

example : 128 < ((List.replicate 129 (true, "x".toList)).filter (·.1)).length := by decide +kernel

/-- C79, violated: if the name cannot be created, the tool frees its own argument. -/
theorem C79_free_violated (e : Env) (name : Str) (l : List (Bool × Str)) (is : List Ipcp) (ns : List Str) (hl : l ≠ [])
    (h1 : (l.filter (·.1)).length ≤ 128) (h2 : (l.filter (!·.1)).length ≤ 128) (hi : e.ipcps = some is) (hs : Short is) (hn : e.names = some ns)
    (hnew : name ∉ ns) (hf : e.ok 0 (.createName name) = false) : doReg e (name :: words l) = .ub := by
  rw [doReg_eq e name l is ns hl h1 h2 hi hs hn, if_neg (by simpa using hnew), if_neg (by simp [hf])]

example : doReg ⟨some [], some [], fun _ _ => false⟩ ("web".toList :: words [(true, "net".toList)]) = .ub := by decide +kernel

/-- C79, violated: an option without its word is the null pointer, used as a pattern. -/
theorem C79_missing_violated : doReg ⟨some [⟨7, "i1".toList, "net".toList⟩], some ["web".toList], fun _ _ => true⟩ ["web".toList, "layer".toList] = .ub ∧
    doCreateName ⟨some [], some [], fun _ _ => true⟩ ["web".toList, "lb".toList] = .ub := by decide +kernel

/-! ## Unregistering -/

/-- C79: unregistering with plain words from IPCPs and layers with plain names: exactly from those named, if every call succeeds. -/
theorem C79_unregister_partial (e : Env) (name : Str) (l : List (Bool × Str)) (is : List Ipcp) (hl : l ≠ [])
    (h1 : (l.filter (·.1)).length ≤ 128) (h2 : (l.filter (!·.1)).length ≤ 128) (hp : ∀ i ∈ is, Plain i.name ∧ Plain i.layer)
    (hi : e.ipcps = some is) (hs : Short is) (hok : ∀ n c, e.ok n c = true) :
    ∃ calls, doUnreg e (name :: words l) = .ok (calls, 0) ∧ ∀ c, c ∈ calls ↔ ∃ i ∈ is, c = .unreg name i.pid ∧ Named l i := by
  have eq := doUnreg_eq e name l is hl h1 h2 hi hs
  rw [exec_all _ hok] at eq
  refine ⟨_, eq, fun c => ?_⟩
  rw [List.mem_flatMap]
  have key : ∀ i ∈ is, (c ∈ (if (l.filter (·.1)).any (fun x => wild i.layer x.2) then [Call.unreg name i.pid] else []) ++
      (if (l.filter (!·.1)).any (fun x => wild i.name x.2) then [Call.unreg name i.pid] else [])) ↔ c = .unreg name i.pid ∧ Named l i := by
    intro i him
    obtain ⟨hpn, hpl⟩ := hp i him
    have a1 : (l.filter (·.1)).any (fun x => wild i.layer x.2) = true ↔ ∃ x ∈ l, x.1 = true ∧ i.layer = x.2 := by
      rw [List.any_eq_true]
      constructor
      · rintro ⟨x, hx, hw⟩
        rw [List.mem_filter] at hx
        exact ⟨x, hx.1, hx.2, (wild_plain _ _ hpl).1 hw⟩
      · rintro ⟨x, hx, hb, hw⟩
        exact ⟨x, List.mem_filter.2 ⟨hx, hb⟩, (wild_plain _ _ hpl).2 hw⟩
    have a2 : (l.filter (!·.1)).any (fun x => wild i.name x.2) = true ↔ ∃ x ∈ l, x.1 = false ∧ i.name = x.2 := by
      rw [List.any_eq_true]
      constructor
      · rintro ⟨x, hx, hw⟩
        rw [List.mem_filter] at hx
        exact ⟨x, hx.1, by simpa using hx.2, (wild_plain _ _ hpn).1 hw⟩
      · rintro ⟨x, hx, hb, hw⟩
        exact ⟨x, List.mem_filter.2 ⟨hx, by simp [hb]⟩, (wild_plain _ _ hpn).2 hw⟩
    rw [List.mem_append]
    have m : ∀ b : Bool, (c ∈ if b = true then [Call.unreg name i.pid] else []) ↔ b = true ∧ c = .unreg name i.pid := by
      intro b; cases b <;> simp
    rw [m, m, a1, a2]
    constructor
    · rintro (⟨⟨x, hx, hb, hw⟩, hc⟩ | ⟨⟨x, hx, hb, hw⟩, hc⟩)
      · exact ⟨hc, x, hx, by rw [if_pos hb]; exact hw.symm⟩
      · exact ⟨hc, x, hx, by rw [if_neg (by simp [hb])]; exact hw.symm⟩
    · rintro ⟨hc, x, hx, hw⟩
      cases hb : x.1 with
      | true => rw [if_pos hb] at hw; exact .inl ⟨⟨x, hx, hb, hw.symm⟩, hc⟩
      | false => rw [if_neg (by simp [hb])] at hw; exact .inr ⟨⟨x, hx, hb, hw.symm⟩, hc⟩
  constructor
  · rintro ⟨i, him, h⟩; exact ⟨i, him, (key i him).1 h⟩
  · rintro ⟨i, him, h⟩; exact ⟨i, him, (key i him).2 h⟩

example : doUnreg ⟨some [⟨7, "i1".toList, "net".toList⟩, ⟨8, "i2".toList, "other".toList⟩], some [], fun _ _ => true⟩
    ("web".toList :: words [(true, "net".toList), (false, "i3".toList)]) = .ok ([.unreg "web".toList 7], 0) := by decide +kernel

/-- C79, violated: patterns do not work when unregistering, as pattern and name are swapped: what was registered with `*` stays registered, and the tool
reports success. -/
theorem C79_unregister_violated (e : Env) (name : Str) (is : List Ipcp) (hp : ∀ i ∈ is, Plain i.name) (hi : e.ipcps = some is) (hs : Short is)
    (hok : ∀ n c, e.ok n c = true) : doUnreg e (name :: words [(false, ['*'])]) = .ok ([], 0) ∧ ∀ i ∈ is, Meant [(false, ['*'])] i := by
  constructor
  · rw [doUnreg_eq e name _ is (by simp) (by simp) (by simp) hi hs, exec_all _ hok]
    have : (is.flatMap fun i => (if (([(false, ['*'])] : List (Bool × Str)).filter (·.1)).any (fun x => wild i.layer x.2) then [Call.unreg name i.pid] else []) ++
        (if (([(false, ['*'])] : List (Bool × Str)).filter (!·.1)).any (fun x => wild i.name x.2) then [Call.unreg name i.pid] else [])) = [] := by
      rw [List.flatMap_eq_nil_iff]
      intro i him
      have hw : wild i.name ['*'] = false := by
        rw [Bool.eq_false_iff]
        intro hw
        have := (wild_plain _ _ (hp i him)).1 hw
        exact hp i him (by rw [this]; simp)
      simp [hw]
    rw [this]
    rfl
  · intro i _
    refine ⟨_, List.mem_singleton.2 rfl, ?_⟩
    have := Glob.star [] i.name [] .nil
    simpa using this

example : Plain "i1".toList := by unfold Plain; decide +kernel

/-! ## One IPCP -/

/-- C79: destroying: the first IPCP of exactly that name and no other; the result is that of the call. -/
theorem C79_destroy_partial (e : Env) (n : Str) (is a b : List Ipcp) (i : Ipcp) (hi : e.ipcps = some is) (hs : Short is) (hm : is = a ++ i :: b)
    (hn : i.name = n) (ha : ∀ j ∈ a, j.name ≠ n) :
    doDestroy e ["name".toList, n] = .ok ([.destroyIpcp i.pid], if e.ok 0 (.destroyIpcp i.pid) then 0 else -1) := by
  have ho : opts ["name".toList] ["name".toList, n] = some [("name".toList, some n)] := rfl
  have hv : value [("name".toList, some n)] "name".toList none = some n := rfl
  have hf : is.find? (fun i => i.name = n) = some i := by
    rw [hm, List.find?_append, List.find?_eq_none.2 (by simpa using ha)]
    simp [hn]
  have hne : is ≠ [] := by rw [hm]; simp
  simp only [doDestroy, ho, hv, hi, listIpcps_short is hs, if_neg hne, hf, exec]
  split <;> rfl

example : doDestroy ⟨some [⟨7, "i1".toList, "net".toList⟩, ⟨8, "i2".toList, "net".toList⟩], none, fun _ _ => true⟩ ["name".toList, "i2".toList] =
    .ok ([.destroyIpcp 8], 0) := by decide +kernel

/-- C79, violated: if there is no IPCP of that name, but another, nothing is done and success reported, destroying as binding. -/
theorem C79_nobody_violated (e : Env) (n m : Str) (is : List Ipcp) (hi : e.ipcps = some is) (hs : Short is) (hne : is ≠ []) (hn : ∀ i ∈ is, i.name ≠ n) :
    doDestroy e ["name".toList, n] = .ok ([], 0) ∧ doBindIpcp e ["ipcp".toList, n, "name".toList, m] = .ok ([], 0) := by
  have hf : is.find? (fun i => i.name = n) = none := List.find?_eq_none.2 (by simpa using hn)
  constructor
  · have ho : opts ["name".toList] ["name".toList, n] = some [("name".toList, some n)] := rfl
    have hv : value [("name".toList, some n)] "name".toList none = some n := rfl
    simp only [doDestroy, ho, hv, hi, listIpcps_short is hs, if_neg hne, hf]
  · have ho : opts ["name".toList, "ipcp".toList] ["ipcp".toList, n, "name".toList, m] = some [("ipcp".toList, some n), ("name".toList, some m)] := rfl
    have hv : value [("ipcp".toList, some n), ("name".toList, some m)] "name".toList none = some m := rfl
    have hv' : value [("ipcp".toList, some n), ("name".toList, some m)] "ipcp".toList none = some n := rfl
    simp only [doBindIpcp, ho, hv, hv', hi, listIpcps_short is hs, hf]

example : ∃ i ∈ [(⟨7, "i1".toList, "net".toList⟩ : Ipcp)], i.name ≠ "i2".toList := by decide +kernel

/-- C79: binding: the process of the first IPCP of exactly that name to that name, in whatever order the two are given. -/
theorem C79_bind_partial (e : Env) (n m : Str) (is a b : List Ipcp) (i : Ipcp) (hi : e.ipcps = some is) (hs : Short is) (hm : is = a ++ i :: b)
    (hn : i.name = n) (ha : ∀ j ∈ a, j.name ≠ n) (args : List Str)
    (hargs : args = ["ipcp".toList, n, "name".toList, m] ∨ args = ["name".toList, m, "ipcp".toList, n]) :
    doBindIpcp e args = .ok ([.bindProcess i.pid m], if e.ok 0 (.bindProcess i.pid m) then 0 else -1) := by
  have hf : is.find? (fun i => i.name = n) = some i := by
    rw [hm, List.find?_append, List.find?_eq_none.2 (by simpa using ha)]
    simp [hn]
  rcases hargs with rfl | rfl
  · have ho : opts ["name".toList, "ipcp".toList] ["ipcp".toList, n, "name".toList, m] = some [("ipcp".toList, some n), ("name".toList, some m)] := rfl
    have hv : value [("ipcp".toList, some n), ("name".toList, some m)] "name".toList none = some m := rfl
    have hv' : value [("ipcp".toList, some n), ("name".toList, some m)] "ipcp".toList none = some n := rfl
    simp only [doBindIpcp, ho, hv, hv', hi, listIpcps_short is hs, hf, exec]
    split <;> rfl
  · have ho : opts ["name".toList, "ipcp".toList] ["name".toList, m, "ipcp".toList, n] = some [("name".toList, some m), ("ipcp".toList, some n)] := rfl
    have hv : value [("name".toList, some m), ("ipcp".toList, some n)] "name".toList none = some m := rfl
    have hv' : value [("name".toList, some m), ("ipcp".toList, some n)] "ipcp".toList none = some n := rfl
    simp only [doBindIpcp, ho, hv, hv', hi, listIpcps_short is hs, hf, exec]
    split <;> rfl

example : doBindIpcp ⟨some [⟨7, "i1".toList, "net".toList⟩], none, fun _ _ => true⟩ ["n".toList, "x".toList, "i".toList, "i1".toList] =
    .ok ([.bindProcess 7 "x".toList], 0) := by decide +kernel

/-- C79: connecting and disconnecting: exactly the components the pattern means, of the one IPCP of that name, with the destination given. -/
theorem C79_connect_partial (e : Env) (n d c : Str) (is : List Ipcp) (i : Ipcp) (hi : e.ipcps = some is) (hs : Short is)
    (hu : is.filter (fun j => j.name = n) = [i]) (hd : NoDouble c) (hok : ∀ n c, e.ok n c = true) :
    (∃ calls, doConnect e ["name".toList, n, "dst".toList, d, "component".toList, c] = .ok (calls, 0) ∧
      ∀ x, x ∈ calls ↔ x = .connect i.pid d "Management".toList ∧ Glob c "mgmt".toList ∨ x = .connect i.pid d "Data Transfer".toList ∧ Glob c "dt".toList) ∧
    ∃ calls, doDisconnect e ["name".toList, n, "dst".toList, d, "component".toList, c] = .ok (calls, 0) ∧
      ∀ x, x ∈ calls ↔ x = .disconnect i.pid d "Management".toList ∧ Glob c "mgmt".toList ∨
        x = .disconnect i.pid d "Data Transfer".toList ∧ Glob c "dt".toList := by
  have v1 : value [("name".toList, some n), ("dst".toList, some d), ("component".toList, some c)] "name".toList none = some n := rfl
  have v2 : value [("name".toList, some n), ("dst".toList, some d), ("component".toList, some c)] "dst".toList none = some d := rfl
  have v3 : value [("name".toList, some n), ("dst".toList, some d), ("component".toList, some c)] "component".toList (some "*".toList) = some c := rfl
  have hm := C79_pattern_partial c "mgmt".toList hd
  have ht := C79_pattern_partial c "dt".toList hd
  constructor
  · have ho : opts ["name".toList, "dst".toList, "component".toList, "qos".toList] ["name".toList, n, "dst".toList, d, "component".toList, c] =
        some [("name".toList, some n), ("dst".toList, some d), ("component".toList, some c)] := rfl
    have eq : doConnect e ["name".toList, n, "dst".toList, d, "component".toList, c] =
        finish (exec e.ok 0 (((select c [mgmt, dt]).map fun k => Call.connect i.pid d k).map .call)) := by
      simp only [doConnect, ho, v1, v2, v3, hi, listIpcps_short is hs, hu, List.getLast?_singleton, List.map_map, Function.comp_def]
    rw [exec_all _ hok] at eq
    refine ⟨_, eq, fun x => ?_⟩
    rw [← hm, ← ht]
    simp only [select, mgmt, dt, List.filter_cons, List.filter_nil]
    cases wild c "mgmt".toList <;> cases wild c "dt".toList <;> simp
  · have ho : opts ["name".toList, "dst".toList, "component".toList] ["name".toList, n, "dst".toList, d, "component".toList, c] =
        some [("name".toList, some n), ("dst".toList, some d), ("component".toList, some c)] := rfl
    have eq : doDisconnect e ["name".toList, n, "dst".toList, d, "component".toList, c] =
        finish (exec e.ok 0 (((select c [dt, mgmt]).map fun k => Call.disconnect i.pid d k).map .call)) := by
      simp only [doDisconnect, ho, v1, v2, v3, hi, listIpcps_short is hs, hu, List.getLast?_singleton, List.map_map, Function.comp_def]
    rw [exec_all _ hok] at eq
    refine ⟨_, eq, fun x => ?_⟩
    rw [← hm, ← ht]
    simp only [select, mgmt, dt, List.filter_cons, List.filter_nil]
    cases wild c "mgmt".toList <;> cases wild c "dt".toList <;> simp <;> exact or_comm

example : doConnect ⟨some [⟨7, "i1".toList, "net".toList⟩], none, fun _ _ => true⟩ ["name".toList, "i1".toList, "dst".toList, "i2".toList] =
    .ok ([.connect 7 "i2".toList "Management".toList, .connect 7 "i2".toList "Data Transfer".toList], 0) := by decide +kernel

/-- C79, violated: a word after `list` shows the names it begins with, not those that begin with it. -/
theorem C79_filter_violated : shown (some "web".toList) ["web.example".toList, "w".toList, "web".toList] = ["w".toList, "web".toList] := by decide +kernel

end Ouro.IrmTool
