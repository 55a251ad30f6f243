import Verif.Model.Utils

/-!
# C48 — command line and path helpers
-/

namespace Ouro.Utils

theorem nDigitsLoop_spec (i : Nat) : ∀ n, ∃ m, nDigitsLoop n i = n + m ∧ i < 10 ^ (m + 1) ∧ (m ≠ 0 → 10 ^ m ≤ i) := by
  induction i using Nat.strongRecOn with
  | _ i ih =>
    intro n
    rw [nDigitsLoop]
    split
    · next h =>
      obtain ⟨m, h1, h2, h3⟩ := ih (i / 10) (by omega) (n + 1)
      refine ⟨m + 1, by omega, ?_, fun _ => ?_⟩
      · rw [Nat.pow_succ]; omega
      · rw [Nat.pow_succ]
        by_cases hm : m = 0
        · subst hm; simp; omega
        · have := h3 hm; omega
    · exact ⟨0, rfl, by omega, fun h => absurd rfl h⟩

/-- C48. `n_digits i` is the number of decimal digits: the unique `n ≥ 1` with `i < 10^n`, and `10^(n-1) ≤ i` unless `n = 1`. -/
theorem C48_n_digits (i : Nat) :
    1 ≤ nDigits i ∧ i < 10 ^ nDigits i ∧ (nDigits i ≠ 1 → 10 ^ (nDigits i - 1) ≤ i) := by
  obtain ⟨m, h1, h2, h3⟩ := nDigitsLoop_spec i 1
  unfold nDigits
  rw [h1]
  refine ⟨by omega, by rw [Nat.add_comm]; exact h2, fun h => ?_⟩
  rw [Nat.add_sub_cancel_left]
  exact h3 (by omega)

/-- Non-vacuity. -/
example : nDigits 0 = 1 ∧ nDigits 9 = 1 ∧ nDigits 10 = 2 ∧ nDigits 4294967295 = 10 := by decide +kernel

theorem stripLoop_spec (s : List Char) : ∀ d, stripLoop s d ≤ d ∧
    (∀ i, stripLoop s d < i → i ≤ d → charAt s i ≠ '/') ∧ (stripLoop s d ≠ 0 → charAt s (stripLoop s d) = '/') := by
  intro d
  induction d with
  | zero => exact ⟨Nat.le_refl _, fun i h1 h2 => absurd h1 (by simp [stripLoop]; omega), fun h => absurd rfl h⟩
  | succ d ih =>
    simp only [stripLoop]
    split
    · next h =>
      refine ⟨by omega, fun i h1 h2 => ?_, ih.2.2⟩
      by_cases e : i = d + 1
      · rw [e]; exact h
      · exact ih.2.1 i h1 (by omega)
    · next h =>
      refine ⟨Nat.le_refl _, fun i h1 h2 => by omega, fun _ => by simpa using h⟩

/-- C48. `path_strip` returns the part of the string after the last '/': the argument is some prefix followed by the result, the
result contains no '/', and the prefix is empty or ends in '/'. NULL gives NULL. -/
theorem C48_path_strip (s : List Char) :
    pathStrip none = none ∧
    ∃ p r, pathStrip (some s) = some r ∧ s = p ++ r ∧ '/' ∉ r ∧ (p = [] ∨ ∃ q, p = q ++ ['/']) := by
  refine ⟨rfl, s.take (stripOffset s), s.drop (stripOffset s), rfl, (List.take_append_drop _ _).symm, ?_, ?_⟩
  · intro hm
    obtain ⟨i, hi⟩ := List.mem_iff_getElem?.mp hm
    rw [List.getElem?_drop] at hi
    have hlt : stripOffset s + i < s.length := (List.getElem?_eq_some_iff.mp hi).1
    have hc : charAt s (stripOffset s + i) = '/' := by
      unfold charAt; rw [List.getD_eq_getElem?_getD, hi]; rfl
    obtain ⟨h1, h2, h3⟩ := stripLoop_spec s s.length
    unfold stripOffset at hc hlt
    simp only at hc hlt
    split at hc
    · next h =>
      rw [if_pos h] at hlt
      exact h2 _ (by omega) (by omega) hc
    · next h =>
      rw [if_neg h] at hlt
      by_cases hi0 : i = 0
      · subst hi0; exact h hc
      · exact h2 _ (by omega) (by omega) hc
  · obtain ⟨h1, h2, h3⟩ := stripLoop_spec s s.length
    unfold stripOffset
    simp only
    split
    · next h =>
      right
      have hlt : stripLoop s s.length < s.length := by
        apply Nat.lt_of_not_le
        intro hge
        unfold charAt at h
        rw [List.getD_eq_getElem?_getD, List.getElem?_eq_none hge] at h
        exact absurd h (by decide)
      refine ⟨s.take (stripLoop s s.length), ?_⟩
      rw [List.take_add_one]
      congr 1
      unfold charAt at h
      rw [List.getD_eq_getElem?_getD, List.getElem?_eq_getElem hlt] at h
      rw [List.getElem?_eq_getElem hlt]
      simpa using h
    · next h =>
      left
      have : stripLoop s s.length = 0 := by
        apply Classical.byContradiction
        intro h0
        exact h (h3 h0)
      rw [this]; rfl

/-- Non-vacuity: the edge cases. -/
example : pathStrip (some "/usr/bin/oping".toList) = some "oping".toList ∧ pathStrip (some "/".toList) = some [] ∧
    pathStrip (some "oping".toList) = some "oping".toList ∧ pathStrip (some []) = some [] := by decide +kernel

/-- All live block numbers are below the next one, and they are distinct. -/
def Heap.WF (h : Heap) : Prop := h.live.Nodup ∧ ∀ b ∈ h.live, b < h.next

theorem alloc_spec (h : Heap) (hw : h.WF) :
    (∃ b, (alloc h).2 = some b ∧ b = h.next ∧ (alloc h).1.live = b :: h.live ∧ (alloc h).1.next = h.next + 1 ∧ (alloc h).1.WF) ∨
    ((alloc h).2 = none ∧ (alloc h).1.live = h.live ∧ (alloc h).1.next = h.next) := by
  have wf : ∀ o, Heap.WF { live := h.next :: h.live, next := h.next + 1, oracle := o } := by
    intro o
    refine ⟨List.nodup_cons.mpr ⟨fun hm => absurd (hw.2 _ hm) (Nat.lt_irrefl _), hw.1⟩, ?_⟩
    intro b hb
    rcases List.mem_cons.mp hb with rfl | hb
    · exact Nat.lt_succ_self _
    · exact Nat.lt_succ_of_lt (hw.2 b hb)
  unfold alloc
  split
  · right; exact ⟨rfl, rfl, rfl⟩
  · left; exact ⟨_, rfl, rfl, rfl, rfl, wf _⟩
  · left; exact ⟨_, rfl, rfl, rfl, rfl, wf _⟩

theorem foldl_free (l : List (Nat × String)) : ∀ (h : Heap) (rest : List Nat), h.live = (l.map Prod.fst).reverse ++ rest →
    h.live.Nodup → (l.foldl (fun h (x : Nat × String) => free h x.1) h).live = rest := by
  induction l with
  | nil => intro h rest he _; simpa using he
  | cons x l ih =>
    intro h rest he hn
    rw [List.foldl_cons]
    apply ih
    · simp only [free, he, List.map_cons, List.reverse_cons, List.append_assoc]
      rw [he] at hn
      simp only [List.map_cons, List.reverse_cons, List.append_assoc, List.singleton_append] at hn
      rw [List.erase_append_right _ ?_]
      · simp
      · intro hm
        have := (List.nodup_append.mp hn).2.2 x.1 hm x.1 (by simp)
        exact this rfl
    · simp only [free]; exact hn.erase _

theorem argvfree_spec (h : Heap) (a : Argv) (rest : List Nat) (hl : h.live = (a.args.map Prod.fst).reverse ++ a.vec :: rest)
    (hn : h.live.Nodup) : (argvfree h a).live = rest := by
  unfold argvfree
  have := foldl_free a.args h (a.vec :: rest) hl hn
  simp only [free] at *
  rw [this]
  simp

theorem dupLoop_spec (ss : List String) : ∀ (h : Heap) (v : Nat) (done : List (Nat × String)) (rest : List Nat), h.WF →
    h.live = (done.map Prod.fst).reverse ++ v :: rest →
    (∃ a, (dupLoop h v done ss).2 = some a ∧ a.vec = v ∧ a.args.map Prod.snd = done.map Prod.snd ++ ss ∧
      (dupLoop h v done ss).1.live = (a.args.map Prod.fst).reverse ++ v :: rest ∧ (dupLoop h v done ss).1.WF) ∨
    ((dupLoop h v done ss).2 = none ∧ (dupLoop h v done ss).1.live = rest) := by
  induction ss with
  | nil =>
    intro h v done rest hw hl
    left
    exact ⟨⟨v, done⟩, rfl, rfl, by simp, hl, hw⟩
  | cons s ss ih =>
    intro h v done rest hw hl
    simp only [dupLoop]
    rcases alloc_spec h hw with ⟨b, h1, h2, h3, h4, h5⟩ | ⟨h1, h2, h3⟩
    · generalize hal : alloc h = p at *
      obtain ⟨h', r⟩ := p
      simp only at *
      subst h1
      simp only
      have := ih h' v (done ++ [(b, s)]) rest h5 (by rw [h3, hl]; simp)
      simpa using this
    · generalize hal : alloc h = p at *
      obtain ⟨h', r⟩ := p
      simp only at *
      subst h1
      right
      refine ⟨rfl, ?_⟩
      exact argvfree_spec h' ⟨v, done⟩ rest (by rw [h2, hl]) (by rw [h2]; exact hw.1)

/-- C48. `argvdup` either yields an equal vector made of newly allocated, pairwise different blocks, none of which was live before
(so it is independent of the original), with nothing else allocated or freed; or it fails and leaks nothing. This holds
whichever of the allocations fail. -/
theorem C48_argvdup (h : Heap) (hw : h.WF) (a : Argv) :
    (∃ b, (argvdup h a).2 = some b ∧ b.args.map Prod.snd = a.args.map Prod.snd ∧ argvlen b = argvlen a ∧
      (b.vec :: b.args.map Prod.fst).Nodup ∧ (∀ x ∈ b.vec :: b.args.map Prod.fst, x ∉ h.live) ∧
      (∀ x, x ∈ (argvdup h a).1.live ↔ x ∈ h.live ∨ x ∈ b.vec :: b.args.map Prod.fst)) ∨
    ((argvdup h a).2 = none ∧ (argvdup h a).1.live = h.live) := by
  unfold argvdup
  rcases alloc_spec h hw with ⟨b, h1, h2, h3, h4, h5⟩ | ⟨h1, h2, h3⟩
  · generalize hal : alloc h = p at *
    obtain ⟨h', r⟩ := p
    simp only at *
    subst h1
    simp only
    rcases dupLoop_spec (a.args.map Prod.snd) h' b [] h.live h5 (by simpa using h3) with ⟨c, g1, g2, g3, g4, g5⟩ | ⟨g1, g2⟩
    · left
      refine ⟨c, g1, by simpa using g3, ?_, ?_, ?_, ?_⟩
      · have := congrArg List.length g3
        simpa [argvlen] using this
      · have hn := g5.1
        rw [g4] at hn
        rw [List.nodup_append] at hn
        obtain ⟨n1, n2, n3⟩ := hn
        rw [g2]
        refine List.nodup_cons.mpr ⟨fun hm => n3 b (by simpa using hm) b (by simp) rfl, ?_⟩
        exact (List.reverse_perm _).nodup_iff.mp n1
      · intro x hx hlive
        have hn := g5.1
        rw [g4] at hn
        rw [List.nodup_append] at hn
        obtain ⟨n1, n2, n3⟩ := hn
        rw [g2] at hx
        rcases List.mem_cons.mp hx with rfl | hx
        · exact (List.nodup_cons.mp n2).1 hlive
        · exact n3 x (by simpa using hx) x (by simp [hlive]) rfl
      · intro x
        rw [g4, g2]
        simp only [List.mem_append, List.mem_reverse, List.mem_cons]
        constructor
        · rintro (h | h | h)
          · exact Or.inr (Or.inr h)
          · exact Or.inr (Or.inl h)
          · exact Or.inl h
        · rintro (h | h | h)
          · exact Or.inr (Or.inr h)
          · exact Or.inr (Or.inl h)
          · exact Or.inl h
    · right; exact ⟨g1, g2⟩
  · generalize hal : alloc h = p at *
    obtain ⟨h', r⟩ := p
    simp only at *
    subst h1
    right
    exact ⟨rfl, h2⟩

/-- C48. `argvfree` of a duplicate gives the heap back: nothing of it stays allocated. -/
theorem C48_argvfree (h : Heap) (hw : h.WF) (a b : Argv) (hd : (argvdup h a).2 = some b) :
    (argvfree (argvdup h a).1 b).live = h.live := by
  unfold argvdup at *
  rcases alloc_spec h hw with ⟨v, h1, h2, h3, h4, h5⟩ | ⟨h1, h2, h3⟩
  · generalize hal : alloc h = p at *
    obtain ⟨h', r⟩ := p
    simp only at *
    subst h1
    simp only at *
    rcases dupLoop_spec (a.args.map Prod.snd) h' v [] h.live h5 (by simpa using h3) with ⟨c, g1, g2, g3, g4, g5⟩ | ⟨g1, g2⟩
    · rw [g1] at hd
      cases hd
      apply argvfree_spec
      · rw [g4, g2]
      · exact g5.1
    · rw [g1] at hd; cases hd
  · generalize hal : alloc h = p at *
    obtain ⟨h', r⟩ := p
    simp only at *
    subst h1
    cases hd

/-- Non-vacuity: both outcomes occur. -/
example : (argvdup ⟨[2, 1, 0], 3, []⟩ ⟨0, [(1, "oping"), (2, "-l")]⟩) =
    (⟨[5, 4, 3, 2, 1, 0], 6, []⟩, some ⟨3, [(4, "oping"), (5, "-l")]⟩) ∧
    (argvdup ⟨[2, 1, 0], 3, [true, true, false]⟩ ⟨0, [(1, "oping"), (2, "-l")]⟩) = (⟨[2, 1, 0], 5, []⟩, none) := by
  decide +kernel

end Ouro.Utils
