import Verif.Spec.IrmTool
import Verif.Proof.Tac

/-! Lemmas for C79. -/

namespace Ouro.IrmTool

theorem matches_iff (a k : Str) : matches_ a k = true ↔ a <+: k := by
  unfold matches_
  rw [List.prefix_iff_eq_take]
  split
  · rename_i h
    constructor
    · simp
    · intro e
      have := congrArg List.length e
      rw [List.length_take] at this
      omega
  · simp only [beq_iff_eq]
    exact eq_comm

theorem wild_cons (c : Char) (p s : Str) : wild (c :: p) s = if c = '*' then (if p.isEmpty then true else (List.range s.length).any fun k => wild p (s.drop k))
    else match s with
      | [] => false
      | d :: s' => c = d && wild p s' := by
  cases s <;> rfl

theorem wild_sound : ∀ (p s : Str), wild p s = true → Glob p s := by
  intro p
  induction p with
  | nil =>
    intro s h
    rw [wild, List.isEmpty_iff] at h
    subst h
    exact .nil
  | cons c p ih =>
    intro s h
    rw [wild_cons] at h
    split at h
    · rename_i hc
      subst hc
      split at h
      · rename_i hp
        rw [List.isEmpty_iff] at hp
        subst hp
        have := Glob.star [] s [] .nil
        rwa [List.append_nil] at this
      · rw [List.any_eq_true] at h
        obtain ⟨k, -, hk⟩ := h
        have := Glob.star p (s.take k) (s.drop k) (ih _ hk)
        rwa [List.take_append_drop] at this
    · rename_i hc
      split at h
      · cases h
      · rename_i d s'
        rw [Bool.and_eq_true, decide_eq_true_eq] at h
        obtain ⟨rfl, h⟩ := h
        exact .lit _ _ _ hc (ih _ h)

theorem noDouble_tail (c : Char) (p : Str) (h : NoDouble (c :: p)) : NoDouble p :=
  fun hi => h (hi.trans (List.suffix_cons c p).isInfix)

theorem glob_nil : ∀ (p : Str), Glob p [] → p = [] ∨ ∃ q, p = '*' :: q := by
  intro p h
  cases p with
  | nil => exact .inl rfl
  | cons c q =>
    right
    generalize hs : ([] : Str) = s at h
    cases h with
    | lit => cases hs
    | star => exact ⟨_, rfl⟩

theorem wild_complete : ∀ (p s : Str), NoDouble p → Glob p s → wild p s = true := by
  intro p
  induction p with
  | nil =>
    intro s _ h
    cases h
    rfl
  | cons c p ih =>
    intro s hd h
    have hd' := noDouble_tail c p hd
    cases h with
    | lit _ _ s hc h =>
      rw [wild_cons, if_neg hc]
      simp [ih s hd' h]
    | star _ u s h =>
      rw [wild_cons, if_pos rfl]
      split
      · rfl
      · rename_i hp
        rw [List.any_eq_true]
        refine ⟨u.length, ?_, ?_⟩
        · rw [List.mem_range, List.length_append]
          cases s with
          | nil =>
            exfalso
            rcases glob_nil p h with rfl | ⟨q, rfl⟩
            · simp at hp
            · exact hd ⟨[], q, by simp⟩
          | cons a s => simp
        · rw [List.drop_left]
          exact ih s hd' h

theorem glob_plain (p s : Str) (h : Plain p) : Glob p s ↔ p = s := by
  induction p generalizing s with
  | nil =>
    constructor
    · intro h; cases h; rfl
    · rintro rfl; exact .nil
  | cons c p ih =>
    have hc : c ≠ '*' := fun e => h (by simp [e])
    have hp : Plain p := fun e => h (List.mem_cons_of_mem _ e)
    constructor
    · intro g
      cases g with
      | lit _ _ s _ g => rw [(ih s hp).1 g]
      | star => exact absurd rfl hc
    · rintro rfl
      exact .lit _ _ _ hc ((ih p hp).2 rfl)

theorem plain_noDouble (p : Str) (h : Plain p) : NoDouble p := by
  rintro ⟨a, b, rfl⟩
  exact h (by simp)

theorem wild_plain (p s : Str) (h : Plain p) : wild p s = true ↔ p = s :=
  ⟨fun w => (glob_plain p s h).1 (wild_sound p s w), fun e => wild_complete p s (plain_noDouble p h) ((glob_plain p s h).2 e)⟩

/-! ## Options -/

theorem regArgs_words (l : List (Bool × Str)) : ∀ (ls ps : List (Option Str)),
    regArgs (words l) ls ps =
      if ls.length + (l.filter (·.1)).length ≤ max 128 ls.length ∧ ps.length + (l.filter (!·.1)).length ≤ max 128 ps.length then
        .ok (some (ls ++ (l.filter (·.1)).map (fun x => some x.2), ps ++ (l.filter (!·.1)).map (fun x => some x.2)))
      else .ub := by
  induction l with
  | nil => intro ls ps; simp [words, regArgs]
  | cons x l ih =>
    intro ls ps
    obtain ⟨b, v⟩ := x
    have e : words ((b, v) :: l) = (if b then "layer".toList else "ipcp".toList) :: v :: words l := rfl
    rw [e, regArgs]
    have h1 : matches_ "layer".toList "layer".toList = true := by decide
    have h2 : matches_ "ipcp".toList "layer".toList = false := by decide
    have h3 : matches_ "ipcp".toList "ipcp".toList = true := by decide
    cases b with
    | true =>
      have f1 : List.filter (fun x : Bool × Str => x.1) ((true, v) :: l) = (true, v) :: l.filter (·.1) := rfl
      have f2 : List.filter (fun x : Bool × Str => !x.1) ((true, v) :: l) = l.filter (!·.1) := rfl
      simp only [if_true, h1, f1, f2, List.length_cons]
      by_cases hl : ls.length < 128
      · rw [if_pos hl, ih, List.length_append]
        simp only [List.length_singleton]
        split_ifs with a b b
        · simp
        · exfalso; omega
        · exfalso; omega
        · rfl
      · rw [if_neg hl, if_neg]
        omega
    | false =>
      have f1 : List.filter (fun x : Bool × Str => x.1) ((false, v) :: l) = l.filter (·.1) := rfl
      have f2 : List.filter (fun x : Bool × Str => !x.1) ((false, v) :: l) = (false, v) :: l.filter (!·.1) := rfl
      simp only [Bool.false_eq_true, if_false, h2, h3, if_true, f1, f2, List.length_cons]
      by_cases hl : ps.length < 128
      · rw [if_pos hl, ih, List.length_append]
        simp only [List.length_singleton]
        split_ifs with a b b
        · simp
        · exfalso; omega
        · exfalso; omega
        · rfl
      · rw [if_neg hl, if_neg]
        omega

/-! ## Loops -/

theorem exec_all (ok : Nat → Call → Bool) (h : ∀ n c, ok n c = true) (l : List Call) : ∀ n, exec ok n (l.map .call) = .ok (l, true) := by
  induction l with
  | nil => intro n; rfl
  | cons c l ih => intro n; simp [exec, h, ih]

theorem exec_sub (ok : Nat → Call → Bool) (l : List Step) : ∀ n r, exec ok n l = .ok r → ∀ c ∈ r.1, Step.call c ∈ l := by
  induction l with
  | nil => intro n r h; cases h; simp
  | cons x l ih =>
    intro n r h
    cases x with
    | crash => cases h
    | call c =>
      rw [exec] at h
      split at h
      · split at h
        · cases h
        · rename_i r' hr
          cases h
          intro d hd
          rcases List.mem_cons.1 hd with rfl | hd
          · simp
          · exact List.mem_cons_of_mem _ (ih _ _ hr d hd)
      · cases h
        simp

/-- Registering, as calls. -/
theorem regSteps_words (name : Str) (l : List (Bool × Str)) (i : Ipcp) :
    regSteps name ((l.filter (·.1)).map fun x => some x.2) ((l.filter (!·.1)).map fun x => some x.2) i =
      (((l.filter (·.1)).filter (fun x => wild x.2 i.layer)).map (fun _ => Call.reg name i.pid) ++
        ((l.filter (!·.1)).filter (fun x => wild x.2 i.name)).map (fun _ => Call.reg name i.pid)).map .call := by
  have key : ∀ (m : List (Bool × Str)) (s : Str), (m.map fun x => some x.2).filterMap (regStep (.reg name i.pid) s) =
      ((m.filter fun x => wild x.2 s).map fun _ => Call.reg name i.pid).map .call := by
    intro m s
    induction m with
    | nil => rfl
    | cons x m ih =>
      simp only [List.map_cons, List.filterMap_cons, List.filter_cons, regStep]
      by_cases hw : wild x.2 s = true
      · simp only [hw, if_true, List.map_cons, ih]
      · simp only [hw, if_false, ih]; simp
  rw [regSteps, key, key, List.map_append]

/-- Unregistering, as calls. -/
theorem unregFirst_words (c : Call) (s : Str) (m : List (Bool × Str)) :
    unregFirst c s (m.map fun x => some x.2) = (if m.any (fun x => wild s x.2) then [c] else []).map .call := by
  induction m with
  | nil => simp [unregFirst]
  | cons x m ih =>
    rw [List.map_cons, unregFirst]
    by_cases hw : wild s x.2 = true
    · rw [if_pos hw, if_pos (by rw [List.any_cons, hw]; rfl)]; rfl
    · rw [if_neg hw, ih, List.any_cons, Bool.eq_false_iff.2 hw]; rfl

theorem listIpcps_short (is : List Ipcp) (h : Short is) : listIpcps is = .ok is := by
  unfold listIpcps
  rw [if_pos]
  rw [List.all_eq_true]
  intro i hi
  simpa using h i hi

theorem map_flatMap {α : Type} (is : List α) (f : α → List Step) (g : α → List Call) (h : ∀ i, f i = (g i).map .call) :
    is.flatMap f = (is.flatMap g).map .call := by
  induction is with
  | nil => rfl
  | cons i is ih => simp [h, ih]

/-- The calls of registering. -/
def regCalls (name : Str) (l : List (Bool × Str)) (i : Ipcp) : List Call :=
  ((l.filter (·.1)).filter (fun x => wild x.2 i.layer)).map (fun _ => Call.reg name i.pid) ++
    ((l.filter (!·.1)).filter (fun x => wild x.2 i.name)).map (fun _ => Call.reg name i.pid)

theorem mem_regCalls (name : Str) (l : List (Bool × Str)) (i : Ipcp) (c : Call) :
    c ∈ regCalls name l i ↔ c = .reg name i.pid ∧ ∃ x ∈ l, wild x.2 (if x.1 then i.layer else i.name) = true := by
  simp only [regCalls, List.mem_append, List.mem_map, List.mem_filter]
  constructor
  · rintro (⟨x, ⟨⟨hx, hb⟩, hw⟩, rfl⟩ | ⟨x, ⟨⟨hx, hb⟩, hw⟩, rfl⟩)
    · exact ⟨rfl, x, hx, by rw [if_pos hb]; exact hw⟩
    · exact ⟨rfl, x, hx, by rw [if_neg (by simpa using hb)]; exact hw⟩
  · rintro ⟨rfl, x, hx, hw⟩
    by_cases hb : x.1 = true
    · rw [if_pos hb] at hw
      exact .inl ⟨x, ⟨⟨hx, hb⟩, hw⟩, rfl⟩
    · rw [if_neg hb] at hw
      exact .inr ⟨x, ⟨⟨hx, by simpa using hb⟩, hw⟩, rfl⟩

theorem doReg_eq (e : Env) (name : Str) (l : List (Bool × Str)) (is : List Ipcp) (ns : List Str) (hl : l ≠ []) (h1 : (l.filter (·.1)).length ≤ 128)
    (h2 : (l.filter (!·.1)).length ≤ 128) (hi : e.ipcps = some is) (hs : Short is) (hn : e.names = some ns) :
    doReg e (name :: words l) =
      if ns.contains name then finish (exec e.ok 0 ((is.flatMap (regCalls name l)).map .call))
      else if e.ok 0 (.createName name) then
        match exec e.ok 1 ((is.flatMap (regCalls name l)).map .call) with
        | .ub => .ub
        | .ok r => finish (.ok (.createName name :: r.1, r.2))
      else .ub := by
  have ha : regArgs (words l) [] [] = .ok (some ((l.filter (·.1)).map (fun x => some x.2), (l.filter (!·.1)).map (fun x => some x.2))) := by
    rw [regArgs_words, if_pos ⟨by rw [List.length_nil]; omega, by rw [List.length_nil]; omega⟩]
    simp
  have hne : ¬ (((l.filter (·.1)).map (fun x => some x.2)).length < 1 ∧ ((l.filter (!·.1)).map (fun x => some x.2)).length < 1) := by
    rintro ⟨a, b⟩
    rw [List.length_map] at a b
    have a' : (l.filter (·.1)).length = 0 := by omega
    have b' : (l.filter (!·.1)).length = 0 := by omega
    rw [List.length_eq_zero_iff, List.filter_eq_nil_iff] at a' b'
    cases l with
    | nil => exact hl rfl
    | cons x l =>
      have := a' x (by simp)
      have := b' x (by simp)
      simp_all
  simp only [doReg, ha, hi, hn, listIpcps_short is hs]
  rw [if_neg hne, map_flatMap is _ (regCalls name l) (fun i => regSteps_words name l i)]
  rfl

theorem doUnreg_eq (e : Env) (name : Str) (l : List (Bool × Str)) (is : List Ipcp) (hl : l ≠ []) (h1 : (l.filter (·.1)).length ≤ 128)
    (h2 : (l.filter (!·.1)).length ≤ 128) (hi : e.ipcps = some is) (hs : Short is) :
    doUnreg e (name :: words l) = finish (exec e.ok 0 ((is.flatMap fun i =>
      (if (l.filter (·.1)).any (fun x => wild i.layer x.2) then [Call.unreg name i.pid] else []) ++
        (if (l.filter (!·.1)).any (fun x => wild i.name x.2) then [Call.unreg name i.pid] else [])).map .call)) := by
  have ha : regArgs (words l) [] [] = .ok (some ((l.filter (·.1)).map (fun x => some x.2), (l.filter (!·.1)).map (fun x => some x.2))) := by
    rw [regArgs_words, if_pos ⟨by rw [List.length_nil]; omega, by rw [List.length_nil]; omega⟩]
    simp
  have hne : ¬ (((l.filter (·.1)).map (fun x => some x.2)).length < 1 ∧ ((l.filter (!·.1)).map (fun x => some x.2)).length < 1) := by
    rintro ⟨a, b⟩
    rw [List.length_map] at a b
    have a' : (l.filter (·.1)).length = 0 := by omega
    have b' : (l.filter (!·.1)).length = 0 := by omega
    rw [List.length_eq_zero_iff, List.filter_eq_nil_iff] at a' b'
    cases l with
    | nil => exact hl rfl
    | cons x l =>
      have := a' x (by simp)
      have := b' x (by simp)
      simp_all
  simp only [doUnreg, ha, hi, listIpcps_short is hs]
  rw [if_neg hne, map_flatMap is _ _ (fun i => by
    rw [unregSteps, unregFirst_words, unregFirst_words, List.map_append])]

end Ouro.IrmTool
