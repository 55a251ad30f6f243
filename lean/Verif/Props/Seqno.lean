import Verif.Model.Seqno

/-!
# C10 — sequence numbers compare correctly across wrap-around

Full property: `before a b` exactly when `b` is ahead of `a` by less than half the space. At the antipode (distance exactly
`2^31`) the code answers `true` both ways, so asymmetry fails there and only there; this is refuted and the remaining claims
are proved for all pairs.
-/

namespace Ouro.Seqno

/-- How far `b` is ahead of `a` in the circular space, `0 ≤ dist < 2^32`. -/
def dist (a b : BitVec 32) : Nat := (b.toNat + 2 ^ 32 - a.toNat) % 2 ^ 32

theorem dist_lt (a b : BitVec 32) : dist a b < 2 ^ 32 := Nat.mod_lt _ (by decide)

theorem toNat_sub' (a b : BitVec 32) : (b - a).toNat = dist a b := by
  rw [BitVec.toNat_sub, dist]; congr 1; have := a.isLt; omega

theorem before_iff (a b : BitVec 32) : before a b = true ↔ 0 < dist a b ∧ dist a b ≤ 2 ^ 31 := by
  have h : (a - b).toNat = dist b a := toNat_sub' b a
  unfold before
  rw [decide_eq_true_eq, BitVec.toInt_eq_toNat_cond, h]
  have h1 := dist_lt b a
  have h2 := dist_lt a b
  have ha := a.isLt
  have hb := b.isLt
  unfold dist at *
  split <;> omega

/-- C10. `before a b` holds exactly if `b` is ahead of `a` by less than half the space, or by exactly half. -/
theorem C10_before_characterised (a b : BitVec 32) : before a b = true ↔ 0 < dist a b ∧ dist a b ≤ 2 ^ 31 := before_iff a b

/-- C10 (partial: pairs exactly half the space apart left out). The property as stated. -/
theorem C10_before_partial (a b : BitVec 32) (h : dist a b ≠ 2 ^ 31) :
    before a b = true ↔ 0 < dist a b ∧ dist a b < 2 ^ 31 := by
  rw [before_iff]; omega

/-- C10. `after` is `before` with the arguments exchanged. -/
theorem C10_after (a b : BitVec 32) : after a b = before b a := rfl

/-- C10. Irreflexive. -/
theorem C10_irreflexive (a : BitVec 32) : before a a = false := by
  cases h : before a a with
  | false => rfl
  | true => rw [before_iff] at h; unfold dist at h; omega

/-- C10 (partial). Asymmetric and total away from the antipode. -/
theorem C10_trichotomy_partial (a b : BitVec 32) (h : dist a b ≠ 2 ^ 31) (hne : a ≠ b) :
    (before a b = true ∧ before b a = false) ∨ (before a b = false ∧ before b a = true) := by
  have h1 := before_iff a b
  have h2 := before_iff b a
  have hd : dist a b ≠ 0 := by
    intro h0
    apply hne
    apply BitVec.eq_of_toNat_eq
    have := a.isLt
    have := b.isLt
    unfold dist at h0
    omega
  have hs : dist b a = 2 ^ 32 - dist a b := by
    have := a.isLt
    have := b.isLt
    unfold dist at *
    omega
  have hlt := dist_lt a b
  cases ha : before a b <;> cases hb : before b a <;> simp [ha, hb] at h1 h2 ⊢ <;> omega

/-- At the antipode asymmetry is violated: each is before the other, for every `a`. -/
theorem C10_antipode_violated (a : BitVec 32) : before a (a + 0x80000000#32) = true ∧ before (a + 0x80000000#32) a = true := by
  have h1 : dist a (a + 0x80000000#32) = 2 ^ 31 := by
    rw [← toNat_sub', BitVec.add_comm, BitVec.add_sub_cancel]; rfl
  have h2 : dist (a + 0x80000000#32) a = 2 ^ 31 := by
    have := a.isLt
    have := (a + 0x80000000#32).isLt
    unfold dist at *
    omega
  rw [before_iff, before_iff, h1, h2]
  omega

/-- C10. Shift invariant: only the distance matters. -/
theorem C10_shift_invariant (a b c : BitVec 32) : before (a + c) (b + c) = before a b := by
  unfold before
  have : a + c - (b + c) = a - b := by
    apply BitVec.eq_of_toNat_eq
    simp only [BitVec.toNat_sub, BitVec.toNat_add]
    have := a.isLt
    have := b.isLt
    have := c.isLt
    omega
  rw [this]

/-- C10. Transitive as long as the three numbers lie within half the space. -/
theorem C10_transitive_in_window (a b c : BitVec 32) (h1 : before a b = true) (h2 : before b c = true)
    (hw : dist a b + dist b c ≤ 2 ^ 31) : before a c = true := by
  rw [before_iff] at *
  have : dist a c = dist a b + dist b c := by
    have := a.isLt
    have := b.isLt
    have := c.isLt
    unfold dist at *
    omega
  omega

/-- C10. The successor is ahead, also at the wrap. -/
theorem C10_succ (a : BitVec 32) : before a (a + 1#32) = true := by
  have : dist a (a + 1#32) = 1 := by rw [← toNat_sub', BitVec.add_comm, BitVec.add_sub_cancel]; rfl
  rw [before_iff, this]; omega

/-- Non-vacuity: a wrap-around triple meeting the hypotheses of transitivity. -/
example : before 0xfffffff0#32 0xffffffff#32 = true ∧ before 0xffffffff#32 0x10#32 = true ∧
    dist 0xfffffff0#32 0xffffffff#32 + dist 0xffffffff#32 0x10#32 ≤ 2 ^ 31 := by decide

end Ouro.Seqno
