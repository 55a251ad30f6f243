import Verif.Spec.Rib
import Verif.Proof.Tac

/-!
# The resource information base: proofs
-/

namespace Ouro.Rib

theorem strcmp_eq (a b : Path) : strcmp a b = .eq ↔ a = b := by
  induction a generalizing b with
  | nil => cases b <;> simp [strcmp]
  | cons x xs ih =>
    cases b with
    | nil => simp [strcmp]
    | cons y ys =>
      simp only [strcmp]
      split
      · rename_i h; simp; intro e; omega
      · split
        · rename_i h; simp; intro e; omega
        · rename_i h1 h2
          have : x = y := by omega
          simp [ih, this]

theorem strcmp_lt (a b : Path) : strcmp a b = .lt ↔ a < b := by
  induction a generalizing b with
  | nil => cases b <;> simp [strcmp]
  | cons x xs ih =>
    cases b with
    | nil => simp [strcmp]
    | cons y ys =>
      simp only [strcmp, List.cons_lt_cons_iff]
      split
      · rename_i h; simp [h]
      · split
        · rename_i h1 h2; simp; omega
        · rename_i h1 h2
          have : x = y := by omega
          simp [ih, this]

theorem strcmp_gt (a b : Path) : strcmp a b = .gt ↔ b < a := by
  induction a generalizing b with
  | nil => cases b <;> simp [strcmp]
  | cons x xs ih =>
    cases b with
    | nil => simp [strcmp]
    | cons y ys =>
      simp only [strcmp, List.cons_lt_cons_iff]
      split
      · rename_i h; simp; omega
      · split
        · rename_i h1 h2; simp [h2]
        · rename_i h1 h2
          have : x = y := by omega
          simp [ih, this]

theorem path_irrefl (a : Path) : ¬ a < a := List.lt_irrefl a
theorem path_trans {a b c : Path} (h : a < b) (h' : b < c) : a < c := List.lt_trans h h'

/-- The list is in strict order. -/
def Sorted (cs : List Comp) : Prop := cs.Pairwise (fun a b => a.path < b.path)

/-- What a list of components gives for a name. -/
def look (cs : List Comp) (p : Path) : Option Nat := (find p cs).map (·.ops)

theorem find_nil (p : Path) : find p [] = none := rfl

theorem find_cons (p : Path) (c : Comp) (cs : List Comp) :
    find p (c :: cs) = if p = c.path then some c else find p cs := by
  unfold find
  rw [List.find?_cons]
  by_cases h : p = c.path
  · simp [h, (strcmp_eq c.path c.path).2 rfl]
  · have : strcmp p c.path ≠ .eq := fun e => h ((strcmp_eq _ _).1 e)
    rw [if_neg h, beq_eq_false_iff_ne.2 this]

theorem look_nil (p : Path) : look [] p = none := rfl

theorem look_cons (p : Path) (c : Comp) (cs : List Comp) :
    look (c :: cs) p = if p = c.path then some c.ops else look cs p := by
  unfold look
  rw [find_cons]
  split <;> simp

theorem look_none {cs : List Comp} {p : Path} (h : ∀ c ∈ cs, c.path ≠ p) : look cs p = none := by
  induction cs with
  | nil => rfl
  | cons c cs ih =>
    rw [look_cons, if_neg (fun e => h c (by simp) e.symm), ih (fun c hc => h c (by simp [hc]))]

theorem look_some {cs : List Comp} {p : Path} : look cs p ≠ none ↔ ∃ c ∈ cs, c.path = p := by
  induction cs with
  | nil => simp [look_nil]
  | cons c cs ih =>
    rw [look_cons]
    by_cases h : p = c.path
    · simp [h]
    · rw [if_neg h, ih]
      simp only [List.mem_cons, exists_eq_or_imp]
      constructor
      · exact fun h => Or.inr h
      · rintro (e | e)
        · exact absurd e.symm h
        · exact e

theorem insert_none {r : Comp} {cs : List Comp} (hs : Sorted cs) :
    insert r cs = none ↔ look cs r.path ≠ none := by
  induction cs with
  | nil => simp [insert, look_nil]
  | cons c cs ih =>
    have hs' : Sorted cs := (List.pairwise_cons.1 hs).2
    have hlt := (List.pairwise_cons.1 hs).1
    simp only [insert]
    cases hc : strcmp c.path r.path with
    | eq =>
      have := (strcmp_eq _ _).1 hc
      simp [look_cons, this]
    | gt =>
      have hgt := (strcmp_gt _ _).1 hc
      simp only [reduceCtorEq, false_iff, not_not]
      apply look_none
      intro d hd e
      rcases List.mem_cons.1 hd with rfl | hd
      · rw [e] at hgt; exact absurd hgt (path_irrefl _)
      · have := hlt d hd
        rw [e] at this
        exact absurd (path_trans hgt this) (path_irrefl _)
    | lt =>
      have hlt' := (strcmp_lt _ _).1 hc
      rw [Option.map_eq_none_iff, ih hs', look_cons, if_neg]
      intro e
      rw [e] at hlt'
      exact absurd hlt' (path_irrefl _)

theorem insert_some {r : Comp} {cs cs' : List Comp} (hs : Sorted cs) (h : insert r cs = some cs') :
    Sorted cs' ∧ (∀ c, c ∈ cs' ↔ c = r ∨ c ∈ cs) ∧
      ∀ p, look cs' p = if p = r.path then some r.ops else look cs p := by
  induction cs generalizing cs' with
  | nil =>
    simp only [insert, Option.some.injEq] at h
    subst h
    refine ⟨List.pairwise_singleton _ _, by simp, fun p => look_cons p r []⟩
  | cons c cs ih =>
    have hs' : Sorted cs := (List.pairwise_cons.1 hs).2
    have hlt := (List.pairwise_cons.1 hs).1
    simp only [insert] at h
    cases hc : strcmp c.path r.path with
    | eq => rw [hc] at h; simp at h
    | gt =>
      rw [hc] at h
      simp only [Option.some.injEq] at h
      subst h
      have hgt := (strcmp_gt _ _).1 hc
      refine ⟨List.pairwise_cons.2 ⟨?_, hs⟩, by simp, fun p => look_cons p r _⟩
      intro d hd
      rcases List.mem_cons.1 hd with rfl | hd
      · exact hgt
      · exact path_trans hgt (hlt d hd)
    | lt =>
      rw [hc] at h
      simp only [Option.map_eq_some_iff] at h
      obtain ⟨t, ht, rfl⟩ := h
      have hlt' := (strcmp_lt _ _).1 hc
      obtain ⟨h1, h2, h3⟩ := ih hs' ht
      refine ⟨List.pairwise_cons.2 ⟨?_, h1⟩, ?_, ?_⟩
      · intro d hd
        rcases (h2 d).1 hd with rfl | hd
        · exact hlt'
        · exact hlt d hd
      · intro d
        simp only [List.mem_cons, h2]
        tauto
      · intro p
        rw [look_cons, h3, look_cons]
        by_cases hp : p = c.path
        · rw [if_pos hp, if_pos hp, if_neg]
          intro e
          rw [← hp, e] at hlt'
          exact absurd hlt' (path_irrefl _)
        · rw [if_neg hp, if_neg hp]

theorem remove_sorted {path : Path} {cs : List Comp} (hs : Sorted cs) :
    Sorted (remove path cs) ∧ (∀ c ∈ remove path cs, c ∈ cs) ∧
      ∀ p, look (remove path cs) p = if p = path then none else look cs p := by
  induction cs with
  | nil => exact ⟨hs, by simp [remove], fun p => by simp [remove, look_nil]⟩
  | cons c cs ih =>
    have hs' : Sorted cs := (List.pairwise_cons.1 hs).2
    have hlt := (List.pairwise_cons.1 hs).1
    obtain ⟨h1, h2, h3⟩ := ih hs'
    simp only [remove]
    split
    · rename_i he
      have he := (strcmp_eq _ _).1 he
      refine ⟨hs', fun d hd => by simp [hd], fun p => ?_⟩
      by_cases hp : p = path
      · rw [if_pos hp]
        apply look_none
        intro d hd e
        have := hlt d hd
        rw [e, hp, ← he] at this
        exact absurd this (path_irrefl _)
      · rw [if_neg hp, look_cons, if_neg]
        rw [he]; exact hp
    · rename_i he
      have hne : c.path ≠ path := fun e => he ((strcmp_eq _ _).2 e)
      refine ⟨List.pairwise_cons.2 ⟨fun d hd => hlt d (h2 d hd), h1⟩, ?_, fun p => ?_⟩
      · intro d hd
        rcases List.mem_cons.1 hd with rfl | hd
        · simp
        · simp [h2 d hd]
      · rw [look_cons, h3, look_cons]
        by_cases hp : p = c.path
        · rw [if_pos hp, if_pos hp, if_neg]
          rw [hp]; exact hne
        · rw [if_neg hp, if_neg hp]

/-- The list stands for the abstract tree. -/
structure Rel (s : St) (t : Tree) : Prop where
  mounted : s.mounted = t.mounted
  sorted : Sorted s.comps
  look : ∀ p, look s.comps p = t.at_ p
  short : ∀ c ∈ s.comps, c.path.length ≤ 300

theorem rel_empty : Rel empty Tree.empty :=
  ⟨rfl, List.Pairwise.nil, fun _ => rfl, by simp [empty]⟩

theorem step_rel {s : St} {t : Tree} (h : Rel s t) (o : Op) :
    Rel (step s o).1 (t.step o).1 ∧ (step s o).2 = (t.step o).2 := by
  cases o with
  | init ok =>
    cases ok with
    | true => exact ⟨⟨rfl, List.Pairwise.nil, fun _ => rfl, by simp [step, init]⟩, rfl⟩
    | false => exact ⟨⟨rfl, h.sorted, h.look, h.short⟩, rfl⟩
  | fini =>
    simp only [step, fini, Tree.step, ← h.mounted]
    cases hm : s.mounted with
    | true => exact ⟨⟨rfl, List.Pairwise.nil, fun _ => rfl, by simp⟩, trivial⟩
    | false => exact ⟨h, trivial⟩
  | unreg path =>
    simp only [step, unreg, Tree.step, ← h.mounted]
    cases hm : s.mounted with
    | false => exact ⟨h, trivial⟩
    | true =>
      obtain ⟨h1, h2, h3⟩ := remove_sorted (path := path) h.sorted
      refine ⟨⟨rfl, h1, fun p => ?_, fun c hc => h.short c (h2 c hc)⟩, trivial⟩
      show look (remove path s.comps) p = (if p = path then none else t.at_ p)
      rw [h3, h.look]
  | reg path ops mem =>
    simp only [step, reg, Tree.step, ← h.mounted]
    cases hm : s.mounted with
    | false => exact ⟨h, rfl⟩
    | true =>
      simp only [Bool.not_true, Bool.false_eq_true, if_false, reduceCtorEq]
      cases hi : insert ⟨path, ops⟩ s.comps with
      | none =>
        have := (insert_none h.sorted).1 hi
        rw [h.look] at this
        rw [if_pos this]
        exact ⟨h, rfl⟩
      | some cs =>
        have hno : t.at_ path = none := by
          by_contra hc
          rw [← h.look] at hc
          rw [(insert_none (r := ⟨path, ops⟩) h.sorted).2 hc] at hi
          exact absurd hi (by simp)
        rw [if_neg (by simp [hno])]
        cases mem with
        | false => exact ⟨h, rfl⟩
        | true =>
          simp only [Bool.not_true, Bool.false_eq_true, if_false, reduceCtorEq]
          by_cases hl : 300 < path.length
          · rw [if_pos hl, if_pos (show path.length > RIB_PATH_LEN from hl)]; exact ⟨h, rfl⟩
          · rw [if_neg hl, if_neg (show ¬ path.length > RIB_PATH_LEN from hl)]
            obtain ⟨h1, h2, h3⟩ := insert_some h.sorted hi
            refine ⟨⟨rfl, h1, fun p => ?_, fun c hc => ?_⟩, rfl⟩
            · rw [h3, h.look]
            · rcases (h2 c).1 hc with rfl | hc
              · exact Nat.le_of_not_lt hl
              · exact h.short c hc

theorem run_rel {s : St} {t : Tree} (h : Rel s t) (l : List Op) : Rel (run s l) (t.run l) := by
  induction l generalizing s t with
  | nil => exact h
  | cons o l ih => exact ih (step_rel h o).1

theorem find_of_look {cs : List Comp} {p : Path} {n : Nat} (h : look cs p = some n) :
    ∃ c, find p cs = some c ∧ c.ops = n := by
  simpa [look] using h

theorem find_of_look_none {cs : List Comp} {p : Path} (h : look cs p = none) : find p cs = none := by
  simpa [look] using h

theorem compOf_file {name file : Path} (hn : 47 ∉ name) : compOf (filePath name file).tail = name := by
  have key : ∀ l : Path, 47 ∉ l → (l ++ 47 :: file).takeWhile (· ≠ SEP) = l := by
    intro l
    induction l with
    | nil => intro _; simp [SEP]
    | cons a l ih =>
      intro h
      simp only [List.mem_cons, not_or] at h
      have ha : a ≠ SEP := fun e => h.1 (by rw [e]; rfl)
      simp only [List.cons_append, List.takeWhile_cons, ne_eq, ha, not_false_eq_true, decide_true, if_true]
      rw [show (l ++ 47 :: file).takeWhile (fun x => decide (¬x = SEP)) = l from ih h.2]
  exact key name hn

theorem compOf_name {name : Path} (hn : 47 ∉ name) : compOf name = name := by
  unfold compOf
  induction name with
  | nil => rfl
  | cons a l ih =>
    simp only [List.mem_cons, not_or] at hn
    have ha : a ≠ SEP := fun e => hn.1 (by rw [e]; rfl)
    rw [List.takeWhile_cons, if_pos (by simpa using ha), ih hn.2]

end Ouro.Rib
