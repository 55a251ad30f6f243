import Verif.Model.Bitmap
import Verif.Spec.IdPool

namespace Ouro.Bitmap

/-- Bit `i` of the word array. -/
def tst (ws : List (BitVec 64)) (i : Nat) : Bool := (ws[i / 64]?.getD 0#64).getLsbD (i % 64)

theorem getLsbD_one_shl (k j : Nat) (hk : k < 64) : (1#64 <<< k).getLsbD j = decide (j = k) := by
  rw [BitVec.getLsbD_shiftLeft, BitVec.getLsbD_one]
  by_cases h : j = k
  · subst h; simp [hk]
  · by_cases h2 : j < k
    · simp [h2, h]
    · have : j - k ≠ 0 := by omega
      simp [this, h]

theorem and_one_shl_ne_zero (w : BitVec 64) (k : Nat) (hk : k < 64) :
    ((w &&& (1#64 <<< k)) != 0#64) = w.getLsbD k := by
  rw [← BitVec.twoPow_eq, BitVec.and_twoPow]
  by_cases h : w.getLsbD k = true
  · simp only [h, if_true]
    rw [bne_iff_ne]
    intro hc
    have := congrArg (fun x => x.getLsbD k) hc
    simp [hk] at this
  · simp [h]

theorem rd_ok {α : Type} (l : List α) (i : Nat) (h : i < l.length) : rd l i = .ok l[i] := by
  simp [rd, h]

theorem setBit_spec (ws : List (BitVec 64)) (i : Nat) (h : i / 64 < ws.length) :
    ∃ ws', setBit ws i = .ok ws' ∧ ws'.length = ws.length ∧ ∀ j, tst ws' j = (tst ws j || decide (j = i)) := by
  refine ⟨ws.set (i / 64) (ws[i / 64] ||| (1#64 <<< (i % 64))), ?_, by simp, ?_⟩
  · simp [setBit, rd_ok ws _ h, wr, h]
  · intro j
    unfold tst
    rw [List.getElem?_set]
    by_cases hw : i / 64 = j / 64
    · rw [if_pos hw, if_pos h]
      simp only [Option.getD_some, BitVec.getLsbD_or]
      rw [getLsbD_one_shl _ _ (Nat.mod_lt _ (by decide))]
      have e : ws[j / 64]? = some ws[i / 64] := by rw [← hw]; simp [h]
      rw [e]
      simp only [Option.getD_some]
      congr 1
      apply decide_eq_decide.mpr
      omega
    · rw [if_neg hw]
      have : j ≠ i := by intro hc; subst hc; exact hw rfl
      simp [this]

theorem clearBit_spec (ws : List (BitVec 64)) (i : Nat) (h : i / 64 < ws.length) :
    ∃ ws', clearBit ws i = .ok ws' ∧ ws'.length = ws.length ∧ ∀ j, tst ws' j = (tst ws j && !decide (j = i)) := by
  refine ⟨ws.set (i / 64) (ws[i / 64] &&& ~~~(1#64 <<< (i % 64))), ?_, by simp, ?_⟩
  · simp [clearBit, rd_ok ws _ h, wr, h]
  · intro j
    unfold tst
    rw [List.getElem?_set]
    by_cases hw : i / 64 = j / 64
    · rw [if_pos hw, if_pos h]
      simp only [Option.getD_some, BitVec.getLsbD_and, BitVec.getLsbD_not]
      rw [getLsbD_one_shl _ _ (Nat.mod_lt _ (by decide))]
      have e : ws[j / 64]? = some ws[i / 64] := by rw [← hw]; simp [h]
      rw [e]
      simp only [Option.getD_some]
      have h64 : j % 64 < 64 := Nat.mod_lt _ (by decide)
      simp only [h64, decide_true, Bool.true_and]
      congr 2
      apply decide_eq_decide.mpr
      omega
    · rw [if_neg hw]
      have : j ≠ i := by intro hc; subst hc; exact hw rfl
      simp [this]

theorem testBit_spec (ws : List (BitVec 64)) (i : Nat) (h : i / 64 < ws.length) :
    testBit ws i = .ok (tst ws i) := by
  simp [testBit, rd_ok ws _ h, tst, h, and_one_shl_ne_zero _ _ (Nat.mod_lt i (show 0 < 64 by decide))]

theorem findBit_spec (tmp : BitVec 64) (pos : Nat) (h : ∃ k, pos ≤ k ∧ k < 64 ∧ tmp.getLsbD k = true) :
    pos ≤ findBit tmp pos ∧ findBit tmp pos < 64 ∧ tmp.getLsbD (findBit tmp pos) = true ∧
      ∀ j, pos ≤ j → j < findBit tmp pos → tmp.getLsbD j = false := by
  fun_induction findBit tmp pos with
  | case1 pos hp => obtain ⟨k, h1, h2, _⟩ := h; omega
  | case2 pos hp hb => exact ⟨by omega, by omega, hb, by intro j; omega⟩
  | case3 pos hp hb ih =>
    have := ih (by
      obtain ⟨k, h1, h2, h3⟩ := h
      refine ⟨k, ?_, h2, h3⟩
      rcases Nat.lt_or_eq_of_le h1 with h | h
      · exact h
      · subst h; exact absurd h3 hb)
    refine ⟨by omega, this.2.1, this.2.2.1, ?_⟩
    intro j hj1 hj2
    rcases Nat.lt_or_eq_of_le hj1 with h | h
    · exact this.2.2.2 j h hj2
    · subst h; simpa using hb

theorem exists_bit (x : BitVec 64) (h : x ≠ 0#64) : ∃ k, 0 ≤ k ∧ k < 64 ∧ x.getLsbD k = true := by
  apply Classical.byContradiction
  intro hc
  apply h
  apply BitVec.eq_of_getLsbD_eq
  intro i hi
  rw [BitVec.getLsbD_zero]
  cases hb : x.getLsbD i
  · rfl
  · exact absurd ⟨i, Nat.zero_le _, hi, hb⟩ hc

theorem tst_cons_lt (w : BitVec 64) (ws : List (BitVec 64)) (k : Nat) (h : k < 64) :
    tst (w :: ws) k = w.getLsbD k := by
  have h1 : k / 64 = 0 := by omega
  have h2 : k % 64 = k := by omega
  simp [tst, h1, h2]

theorem tst_cons_ge (w : BitVec 64) (ws : List (BitVec 64)) (k : Nat) (h : 64 ≤ k) :
    tst (w :: ws) k = tst ws (k - 64) := by
  have h1 : k / 64 = (k - 64) / 64 + 1 := by omega
  have h2 : k % 64 = (k - 64) % 64 := by omega
  simp [tst, h1, h2]

theorem findZero_spec (nbits nw : Nat) (ws : List (BitVec 64)) (start : Nat) (hl : start + ws.length = nw)
    (hne : ws ≠ []) :
    (findZero nbits nw ws start = .ok nbits ∧ ∀ k, k < 64 * ws.length → tst ws k = true) ∨
    ∃ k, findZero nbits nw ws start = .ok (start * 64 + k) ∧ k < 64 * ws.length ∧ tst ws k = false ∧
      ∀ j, j < k → tst ws j = true := by
  induction ws generalizing start with
  | nil => exact absurd rfl hne
  | cons w ws ih =>
    unfold findZero
    by_cases hz : ~~~w = 0#64
    · have hones : ∀ k, k < 64 → w.getLsbD k = true := by
        intro k hk
        have := congrArg (fun x => x.getLsbD k) hz
        simpa [BitVec.getLsbD_not, hk] using this
      rw [if_pos hz]
      by_cases hs : start + 1 ≥ nw
      · rw [if_pos hs]
        left
        refine ⟨rfl, ?_⟩
        have : ws = [] := by
          have := List.length_cons (a := w) (as := ws)
          apply List.eq_nil_of_length_eq_zero; omega
        subst this
        intro k hk
        rw [tst_cons_lt _ _ _ (by simpa using hk)]
        exact hones k (by simpa using hk)
      · rw [if_neg hs]
        have hwne : ws ≠ [] := by
          intro hc; subst hc; simp at hl; omega
        rcases ih (start + 1) (by simp at hl; omega) hwne with ⟨h1, h2⟩ | ⟨k, h1, h2, h3, h4⟩
        · left
          refine ⟨h1, ?_⟩
          intro k hk
          by_cases hk64 : k < 64
          · rw [tst_cons_lt _ _ _ hk64]; exact hones k hk64
          · rw [tst_cons_ge _ _ _ (by omega)]
            apply h2; simp at hk; omega
        · right
          refine ⟨k + 64, ?_, by simp; omega, ?_, ?_⟩
          · rw [h1]; congr 1; omega
          · rw [tst_cons_ge _ _ _ (by omega)]; simpa using h3
          · intro j hj
            by_cases hk64 : j < 64
            · rw [tst_cons_lt _ _ _ hk64]; exact hones j hk64
            · rw [tst_cons_ge _ _ _ (by omega)]; apply h4; omega
    · rw [if_neg hz]
      right
      have hb := findBit_spec (~~~w) 0 (exists_bit _ hz)
      refine ⟨findBit (~~~w) 0, rfl, by simp; omega, ?_, ?_⟩
      · rw [tst_cons_lt _ _ _ hb.2.1]
        have := hb.2.2.1
        rw [BitVec.getLsbD_not] at this
        simpa [hb.2.1] using this
      · intro j hj
        rw [tst_cons_lt _ _ _ (by omega)]
        have := hb.2.2.2 j (by omega) hj
        rw [BitVec.getLsbD_not] at this
        have h64 : j < 64 := by omega
        simpa [h64] using this

/-- Representation invariant of the allocator. -/
structure Inv (b : Bmp) : Prop where
  pos : 0 < b.size
  small : b.size < 2 ^ 63
  len : b.words.length = nWords b.size

/-- The ids held according to the word array. -/
def held (b : Bmp) (j : Int) : Prop :=
  Spec.IdPool.InRange b.offset b.size j ∧ tst b.words (j - b.offset).toNat = true

theorem word_lt {b : Bmp} (h : Inv b) {i : Nat} (hi : i < b.size) : i / 64 < b.words.length := by
  rw [h.len]; unfold nWords; omega

theorem create_inv {bits : Nat} {off : Int} {b : Bmp} (hb : bits < 2 ^ 63) (h : create bits off = .ok b) :
    Inv b ∧ b.offset = off ∧ b.size = bits ∧ ∀ j, ¬ held b j := by
  unfold create at h
  split at h
  · cases h
  · cases h
    refine ⟨⟨by simp; omega, hb, by simp⟩, rfl, rfl, ?_⟩
    rintro j ⟨_, ht⟩
    simp only [tst] at ht
    rw [List.getElem?_replicate] at ht
    split at ht <;> simp at ht

theorem toSizeT_eq {x : Int} {n : Nat} (h0 : 0 ≤ x) (h1 : x < n) (h2 : n < 2 ^ 63) : toSizeT x = x.toNat := by
  unfold toSizeT
  rw [Int.emod_eq_of_lt h0]
  omega

/-- Translation of calls to the specification's calls. -/
def toCall : Op → Spec.IdPool.Call
  | .allocate => .allocate
  | .release i => .release i
  | .isUsed i => .isUsed i

theorem allocate_spec (b : Bmp) (hi : Inv b) :
    ∃ b' r, allocate b = .ok (b', r) ∧ Inv b' ∧ b'.offset = b.offset ∧ b'.size = b.size ∧
      Spec.IdPool.Step b.offset b.size (held b) .allocate r (held b') := by
  have hne : b.words ≠ [] := by
    intro hc
    have h1 := hi.len
    have h2 := hi.pos
    rw [hc] at h1; unfold nWords at h1; simp at h1; omega
  have hfull : (∀ k, k < b.size → tst b.words k = true) →
      Spec.IdPool.Step b.offset b.size (held b) .allocate (b.offset - 1) (held b) := by
    intro hk
    refine Spec.IdPool.Step.full _ _ ?_ (fun _ => Iff.rfl)
    intro j hj
    refine ⟨hj, hk _ ?_⟩
    have := hj.1; have := hj.2
    omega
  have hsz : b.size ≤ 64 * b.words.length := by
    have := hi.len
    unfold nWords at this; omega
  rcases findZero_spec b.size (nWords b.size) b.words 0 (by rw [hi.len]; omega) hne with ⟨h1, h2⟩ | ⟨k, h1, h2, h3, h4⟩
  · refine ⟨b, b.offset - 1, ?_, hi, rfl, rfl, ?_⟩
    · unfold allocate; rw [h1]; simp
    · apply hfull
      intro k hk
      exact h2 k (by omega)
  · simp only [Nat.zero_mul, Nat.zero_add] at h1
    by_cases hk : k ≥ b.size
    · refine ⟨b, b.offset - 1, ?_, hi, rfl, rfl, ?_⟩
      · unfold allocate; rw [h1]; simp [hk]
      · apply hfull
        intro j hj
        exact h4 j (by omega)
    · obtain ⟨ws', e1, e2, e3⟩ := setBit_spec b.words k (word_lt hi (by omega))
      refine ⟨{ b with words := ws' }, k + b.offset, ?_, ⟨hi.pos, hi.small, by simp [e2, hi.len]⟩, rfl, rfl, ?_⟩
      · unfold allocate; rw [h1]; simp [hk, e1]
      · refine Spec.IdPool.Step.alloc _ _ _ ⟨by omega, by omega⟩ ?_ ?_ ?_
        · rintro ⟨_, ht⟩
          rw [show ((k : Int) + b.offset - b.offset).toNat = k by omega] at ht
          rw [h3] at ht; cases ht
        · intro j hj1 hj2
          refine ⟨⟨hj1, by omega⟩, ?_⟩
          apply h4
          omega
        · intro j
          unfold held
          simp only [e3, Bool.or_eq_true, decide_eq_true_eq]
          constructor
          · rintro ⟨hr, h | h⟩
            · exact Or.inl ⟨hr, h⟩
            · right
              have := hr.1
              omega
          · rintro (⟨hr, h⟩ | h)
            · exact ⟨hr, Or.inl h⟩
            · subst h
              refine ⟨⟨by omega, by omega⟩, Or.inr ?_⟩
              omega

theorem release_spec (b : Bmp) (hi : Inv b) (id : Int) (hid : id ≠ b.offset + b.size) :
    ∃ b' r, release b id = .ok (b', r) ∧ Inv b' ∧ b'.offset = b.offset ∧ b'.size = b.size ∧
      Spec.IdPool.Step b.offset b.size (held b) (.release id) r (held b') := by
  by_cases hr : Spec.IdPool.InRange b.offset b.size id
  · have hv : isIdValid b id = true := by
      have := hr.1; have := hr.2
      simp [isIdValid]; omega
    have ht := toSizeT_eq (x := id - b.offset) (n := b.size) (by have := hr.1; omega) (by have := hr.2; omega) hi.small
    obtain ⟨ws', e1, e2, e3⟩ := clearBit_spec b.words (id - b.offset).toNat (word_lt hi (by have := hr.1; have := hr.2; omega))
    refine ⟨{ b with words := ws' }, 0, ?_, ⟨hi.pos, hi.small, by simp [e2, hi.len]⟩, rfl, rfl, ?_⟩
    · unfold release; simp [hv, ht, e1]
    · refine Spec.IdPool.Step.release _ _ _ hr ?_
      intro j
      unfold held
      simp only [e3, Bool.and_eq_true, Bool.not_eq_true', decide_eq_false_iff_not]
      constructor
      · rintro ⟨h1, h2, h3⟩
        refine ⟨⟨h1, h2⟩, ?_⟩
        rintro rfl; exact h3 rfl
      · rintro ⟨⟨h1, h2⟩, h3⟩
        refine ⟨h1, h2, ?_⟩
        intro hc
        apply h3
        have := h1.1; have := hr.1
        omega
  · have hv : isIdValid b id = false := by
      simp only [Spec.IdPool.InRange, Classical.not_and_iff_not_or_not] at hr
      simp [isIdValid]; omega
    exact ⟨b, -1, by unfold release; simp [hv], hi, rfl, rfl,
      Spec.IdPool.Step.badRelease _ _ _ hr (fun _ => Iff.rfl)⟩

theorem isUsed_spec (b : Bmp) (hi : Inv b) (id : Int) (hr : Spec.IdPool.InRange b.offset b.size id) :
    ∃ b' r, step b (.isUsed id) = .ok (b', r) ∧ Inv b' ∧ b'.offset = b.offset ∧ b'.size = b.size ∧
      Spec.IdPool.Step b.offset b.size (held b) (.isUsed id) r (held b') := by
  have ht := toSizeT_eq (x := id - b.offset) (n := b.size) (by have := hr.1; omega) (by have := hr.2; omega) hi.small
  have hw := testBit_spec b.words (id - b.offset).toNat (word_lt hi (by have := hr.1; have := hr.2; omega))
  refine ⟨b, if tst b.words (id - b.offset).toNat then 1 else 0, ?_, hi, rfl, rfl, ?_⟩
  · simp [step, isIdUsed, ht, hw]
  · by_cases hu : tst b.words (id - b.offset).toNat = true
    · rw [if_pos hu]
      exact Spec.IdPool.Step.used _ _ _ ⟨hr, hu⟩ (fun _ => Iff.rfl)
    · rw [if_neg hu]
      exact Spec.IdPool.Step.unused _ _ _ (fun h => hu h.2) (fun _ => Iff.rfl)

/-- What the callers must respect: no release of exactly `lo + n`, queries only for ids of the pool. -/
def Safe (lo : Int) (n : Nat) : Op → Prop
  | .allocate => True
  | .release i => i ≠ lo + n
  | .isUsed i => Spec.IdPool.InRange lo n i

theorem step_spec (b : Bmp) (hi : Inv b) (op : Op) (hs : Safe b.offset b.size op) :
    ∃ b' r, step b op = .ok (b', r) ∧ Inv b' ∧ b'.offset = b.offset ∧ b'.size = b.size ∧
      Spec.IdPool.Step b.offset b.size (held b) (toCall op) r (held b') := by
  cases op with
  | allocate => exact allocate_spec b hi
  | release id => exact release_spec b hi id hs
  | isUsed id => exact isUsed_spec b hi id hs

theorem run_spec (b : Bmp) (hi : Inv b) (ops : List Op) (hs : ∀ op ∈ ops, Safe b.offset b.size op) :
    ∃ b' rs, run b ops = .ok (b', rs) ∧ Inv b' ∧
      Spec.IdPool.Trace b.offset b.size (held b) (ops.map toCall) rs (held b') := by
  induction ops generalizing b with
  | nil => exact ⟨b, [], rfl, hi, .nil _⟩
  | cons op ops ih =>
    obtain ⟨b1, r, h1, h2, h3, h4, h5⟩ := step_spec b hi op (hs op (by simp))
    obtain ⟨b2, rs, g1, g2, g3⟩ := ih b1 h2 (by
      intro o ho; rw [h3, h4]; exact hs o (by simp [ho]))
    refine ⟨b2, r :: rs, ?_, g2, ?_⟩
    · simp [run, h1, g1]
    · rw [h3, h4] at g3
      exact .cons h5 g3

end Ouro.Bitmap
