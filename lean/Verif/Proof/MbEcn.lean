import Verif.Model.MbEcn
import Verif.Spec.Ecn
import Verif.Proof.Tac

namespace Ouro.MbEcn

theorem rcv_next (c : Rx) (ecn : BitVec 8) (h : c.ece.toNat ≤ 8191) :
    (updateRcv c ecn).1.ece.toNat = Spec.Ecn.next c.ece.toNat ecn.toNat ∧ (updateRcv c ecn).1.ece.toNat ≤ 8191 := by
  have hw : (ecn.setWidth 16).toNat = ecn.toNat := by
    rw [BitVec.toNat_setWidth]; exact Nat.mod_eq_of_lt (by have := ecn.isLt; omega)
  have hlt := ecn.isLt
  unfold updateRcv Spec.Ecn.next
  split
  · rename_i h0
    have h1 : c.ece.toNat ||| ecn.toNat = 0 := by
      have := congrArg BitVec.toNat h0
      rwa [BitVec.toNat_or, hw] at this
    rw [Nat.or_eq_zero_iff] at h1
    simp [h1.1, h1.2]
  · split
    · rename_i h0
      have e0 : ecn.toNat = 0 := by rw [h0]; rfl
      rw [if_pos e0]
      simp only [BitVec.toNat_ushiftRight, Nat.shiftRight_eq_div_pow]
      exact ⟨trivial, by omega⟩
    · rename_i h0
      have e0 : ecn.toNat ≠ 0 := fun hh => h0 (BitVec.eq_of_toNat_eq (by simpa using hh))
      rw [if_neg e0]
      split
      · rename_i hz
        have : c.ece.toNat = 0 := by rw [hz]; rfl
        simp only [hw, this]
        omega
      · simp only [BitVec.toNat_add, BitVec.toNat_sub, BitVec.toNat_ushiftRight, Nat.shiftRight_eq_div_pow, hw]
        have hm : (2 ^ 16 - c.ece.toNat / 2 ^ 5 + c.ece.toNat) % 2 ^ 16 = c.ece.toNat - c.ece.toNat / 32 := by
          have : c.ece.toNat / 32 ≤ c.ece.toNat := Nat.div_le_self _ _
          rw [show 2 ^ 16 - c.ece.toNat / 2 ^ 5 + c.ece.toNat = (c.ece.toNat - c.ece.toNat / 32) + 2 ^ 16 by omega,
            Nat.add_mod_right, Nat.mod_eq_of_lt (by omega)]
        have hb : c.ece.toNat - c.ece.toNat / 32 + ecn.toNat ≤ 8191 := by omega
        rw [hm, Nat.mod_eq_of_lt (by omega)]
        exact ⟨rfl, hb⟩

/-- As `Outcome.bind_ok`, but not by computation: the kernel should not evaluate the comparisons with large numbers. -/
theorem bind_ok' {α β : Type} (a : α) (f : α → Outcome β) : (Outcome.ok a >>= f) = f a := (rfl)

theorem u64_of_lt {x : Nat} (h : x < 2 ^ 64) : u64 x = x := Nat.mod_eq_of_lt h

theorem loopUp_spec {w : Nat} (h1 : 1 ≤ w) (h8 : w < 8) : ∃ f, loopUp 65 w 0 = .ok f ∧ 1 ≤ f ∧ f ≤ 3 ∧ 8 ≤ w * 2 ^ f ∧ w * 2 ^ f < 16 := by
  have : w = 1 ∨ w = 2 ∨ w = 3 ∨ w = 4 ∨ w = 5 ∨ w = 6 ∨ w = 7 := by omega
  rcases this with h | h | h | h | h | h | h <;> subst h
  · exact ⟨3, by decide, by decide⟩
  · exact ⟨2, by decide, by decide⟩
  · exact ⟨2, by decide, by decide⟩
  · exact ⟨1, by decide, by decide⟩
  · exact ⟨1, by decide, by decide⟩
  · exact ⟨1, by decide, by decide⟩
  · exact ⟨1, by decide, by decide⟩

theorem loopDown_aux : ∀ fuel p f, p < 2 ^ (fuel + 5) → ∃ k, loopDown (fuel + 1) p f = .ok (f + k) ∧ p / 2 ^ k ≤ 64 ∧
    (k = 0 ∨ 64 < p / 2 ^ (k - 1)) := by
  intro fuel
  induction fuel with
  | zero =>
    intro p f h
    refine ⟨0, ?_, by omega, Or.inl rfl⟩
    have : ¬ 64 < p := by omega
    simp [loopDown, this]
  | succ n ih =>
    intro p f h
    by_cases hp : 64 < p
    · obtain ⟨k, hk, h1, h2⟩ := ih (p / 2) (f + 1) (by
        have : 2 ^ (n + 1 + 5) = 2 * 2 ^ (n + 5) := by rw [show n + 1 + 5 = (n + 5) + 1 by omega, Nat.pow_succ]; omega
        omega)
      refine ⟨k + 1, ?_, ?_, Or.inr ?_⟩
      · rw [loopDown, if_pos hp, hk]; congr 1; omega
      · rw [Nat.pow_succ, Nat.mul_comm, ← Nat.div_div_eq_div_mul]; exact h1
      · rcases h2 with rfl | h2
        · simpa using hp
        · by_cases hk0 : k = 0
          · subst hk0; simpa using hp
          · rw [Nat.add_sub_cancel, show k = (k - 1) + 1 by omega, Nat.pow_succ, Nat.mul_comm, ← Nat.div_div_eq_div_mul]
            exact h2
    · refine ⟨0, ?_, by simp; omega, Or.inl rfl⟩
      rw [loopDown, if_neg hp]; rfl

theorem loopDown_spec {w : Nat} (hw : 64 < w) (h : w < 2 ^ 64) :
    ∃ k, loopDown 65 w 0 = .ok k ∧ 1 ≤ k ∧ 64 * 2 ^ (k - 1) < w := by
  obtain ⟨k, hk, h1, h2⟩ := loopDown_aux 64 w 0 (by omega)
  rw [Nat.zero_add] at hk
  have hk0 : k ≠ 0 := by rintro rfl; simp at h1; omega
  refine ⟨k, hk, by omega, ?_⟩
  rcases h2 with h2 | h2
  · omega
  · have := Nat.div_mul_le_self w (2 ^ (k - 1))
    have h3 : 65 * 2 ^ (k - 1) ≤ w / 2 ^ (k - 1) * 2 ^ (k - 1) := Nat.mul_le_mul_right _ h2
    have : 0 < 2 ^ (k - 1) := Nat.pos_of_ne_zero (by positivity)
    omega

theorem slotAfter_iff {new old : Nat} (h1 : new < 2 ^ 63) (h2 : old < 2 ^ 63) : slotAfter new old = true ↔ old < new := by
  unfold slotAfter sub u64
  rw [decide_eq_true_iff]
  omega

/-- The multiplicative decrease, for levels a correct receiver can report. -/
theorem decrease_le {wbl ece : Nat} (h : wbl < 2 ^ 64) (he : ece ≤ 8191) : u64 (wbl * ece) / 2 ^ 13 ≤ wbl ∧
    (wbl ≠ 0 → u64 (wbl * ece) / 2 ^ 13 < wbl) := by
  unfold u64
  have h1 : wbl * ece ≤ wbl * 8191 := Nat.mul_le_mul_left _ he
  omega

/-- Holds after every call when calls are at least 16 ns apart; `T` is the time of the last one. -/
structure Inv (c : Tx) (T : Nat) : Prop where
  lo : 8 ≤ c.mul
  hi : c.mul ≤ 61
  inc : c.inc = 2 ^ (c.mul - 8)
  cnt : 16 * c.wpc + c.slot * 2 ^ c.mul ≤ T + 2 ^ c.mul + 112
  open_ : c.wpc = 0 ∨ T < (c.slot + 1) * 2 ^ c.mul
  cur : c.slot * 2 ^ c.mul ≤ T + 2 ^ c.mul
  wbl : c.wbl < 2 ^ 64

theorem shr_ok {a b : Nat} (h : b < 64) : shr a b = .ok (a / 2 ^ b) := by simp [shr, h]
theorem shl_ok {a b : Nat} (h : b < 64) (h2 : a * 2 ^ b < 2 ^ 64) : shl a b = .ok (a * 2 ^ b) := by simp [shl, h, u64_of_lt h2]
theorem shl_ok' {a b : Nat} (h : b < 64) : shl a b = .ok (u64 (a * 2 ^ b)) := by simp [shl, h]
theorem u64_lt (a : Nat) : u64 a < 2 ^ 64 := Nat.mod_lt _ (by decide)
theorem u64_le (a : Nat) : u64 a ≤ a := Nat.mod_le _ _

theorem limit_lt {c : Tx} (h : c.wbl < 2 ^ 64) : limit c < 2 ^ 64 := by
  unfold limit sub
  split
  · split
    · exact u64_lt _
    · exact h
  · split
    · exact u64_lt _
    · exact u64_lt _

/-- What scaling does, given a count of packets that fits the slot. -/
theorem scale_spec (c : Tx) (t : Nat) (h8 : 8 ≤ c.mul) (hm : 2 ^ c.mul ≤ t) (ht : t < 2 ^ 59) (hs : c.slot = t / 2 ^ c.mul)
    (hinc : c.inc = 2 ^ (c.mul - 8)) (hwbl : c.wbl < 2 ^ 64) (hw1 : 1 ≤ c.wpc) (hw2 : c.wpc ≤ 2 ^ (c.mul - 3) + 8) :
    ∃ c' carry, scale c c.slot = .ok (c', carry) ∧ 8 ≤ c'.mul ∧ c'.mul ≤ 61 ∧ c'.inc = 2 ^ (c'.mul - 8) ∧ c'.wbl < 2 ^ 64 ∧
      c'.wpc = c.wpc ∧ c'.wbc = c.wbc ∧ c'.slot * 2 ^ c'.mul ≤ t + 2 ^ c'.mul ∧
      (carry = true → t < (c'.slot + 1) * 2 ^ c'.mul ∧ c.wpc ≤ 7) ∧
      c'.wbl * 2 ^ c.mul ≤ c.wbl * 2 ^ c'.mul := by
  have hm58 : c.mul ≤ 58 := by
    by_contra hc
    have : 2 ^ 59 ≤ 2 ^ c.mul := Nat.pow_le_pow_right (by decide) (by omega)
    omega
  have hdm : t / 2 ^ c.mul * 2 ^ c.mul ≤ t := Nat.div_mul_le_self _ _
  unfold scale
  split
  · rename_i hlt
    obtain ⟨f, hf, f1, f3, f8, f16⟩ := loopUp_spec hw1 hlt
    have hinc2 : c.inc * 2 ^ f = 2 ^ (c.mul + f - 8) := by
      rw [hinc, ← Nat.pow_add]; congr 1; omega
    have hinc3 : 2 ^ (c.mul + f - 8) < 2 ^ 64 := Nat.pow_lt_pow_right (by decide) (by omega)
    have hsl : c.slot / 2 ^ f = t / 2 ^ (c.mul + f) := by rw [hs, Nat.div_div_eq_div_mul, ← Nat.pow_add]
    have hsb : t / 2 ^ (c.mul + f) < 2 ^ 59 := Nat.lt_of_le_of_lt (Nat.div_le_self _ _) ht
    have hmul : u64 (c.mul + f) = c.mul + f := u64_of_lt (by omega)
    have d1 := Nat.div_mul_le_self t (2 ^ (c.mul + f))
    have hpos : 0 < 2 ^ (c.mul + f) := Nat.pos_of_ne_zero (by positivity)
    have d2 : t < (t / 2 ^ (c.mul + f) + 1) * 2 ^ (c.mul + f) := by
      have := Nat.lt_div_mul_add (a := t) hpos
      rw [Nat.add_mul, Nat.one_mul]; exact this
    simp only [hf, Outcome.bind_ok, shr_ok (show f < 64 by omega), shl_ok' (show f < 64 by omega), Outcome.pure_eq, hinc2,
      u64_of_lt hinc3, hsl, hmul]
    refine ⟨_, _, rfl, ?_⟩
    have hrate : u64 (c.wbl * 2 ^ f) * 2 ^ c.mul ≤ c.wbl * 2 ^ (c.mul + f) := by
      calc u64 (c.wbl * 2 ^ f) * 2 ^ c.mul ≤ (c.wbl * 2 ^ f) * 2 ^ c.mul := Nat.mul_le_mul_right _ (u64_le _)
        _ = c.wbl * 2 ^ (c.mul + f) := by rw [Nat.pow_add]; ring
    refine ⟨by dsimp only; omega, by dsimp only; omega, rfl, u64_lt _, rfl, rfl, ?_, ?_, hrate⟩
    · dsimp only
      split
      · rw [u64_of_lt (by omega), Nat.add_mul, Nat.one_mul]; omega
      · omega
    · intro hc
      dsimp only
      rw [if_pos hc, u64_of_lt (by omega)]
      refine ⟨?_, by omega⟩
      have : (t / 2 ^ (c.mul + f) + 1 + 1) * 2 ^ (c.mul + f) = (t / 2 ^ (c.mul + f) + 1) * 2 ^ (c.mul + f) + 2 ^ (c.mul + f) := by ring
      omega
  · split
    · rename_i hge hgt
      have hpw : 2 ^ (c.mul - 3) ≤ 2 ^ 55 := Nat.pow_le_pow_right (by decide) (by omega)
      obtain ⟨f, hf, f1, f2⟩ := loopDown_spec hgt (by omega)
      have hfm : f + 8 ≤ c.mul := by
        by_contra hc
        have e1 : 2 ^ (c.mul - 8) ≤ 2 ^ (f - 1) := Nat.pow_le_pow_right (by decide) (by omega)
        have e2 : 2 ^ (c.mul - 3) = 32 * 2 ^ (c.mul - 8) := by
          rw [show c.mul - 3 = 5 + (c.mul - 8) by omega, Nat.pow_add]
        have : 1 ≤ 2 ^ (c.mul - 8) := Nat.one_le_two_pow
        omega
      have hmul : sub c.mul f = c.mul - f := by
        unfold sub u64
        omega
      have hP : 2 ^ c.mul = 2 ^ f * 2 ^ (c.mul - f) := by rw [← Nat.pow_add]; congr 1; omega
      have hsl : c.slot * 2 ^ f * 2 ^ (c.mul - f) ≤ t := by
        rw [Nat.mul_assoc, ← hP, hs]; exact hdm
      have hsb : c.slot * 2 ^ f < 2 ^ 64 := by
        have : c.slot * 2 ^ f ≤ c.slot * 2 ^ f * 2 ^ (c.mul - f) := Nat.le_mul_of_pos_right _ (Nat.pos_of_ne_zero (by positivity))
        omega
      have hinc2 : c.inc / 2 ^ f = 2 ^ (c.mul - f - 8) := by
        rw [hinc, Nat.pow_div (by omega) (by decide)]; congr 1; omega
      simp only [hf, Outcome.bind_ok, shr_ok (show f < 64 by omega), shl_ok (show f < 64 by omega) hsb, Outcome.pure_eq, hinc2, hmul]
      refine ⟨_, _, rfl, ?_⟩
      have hrate : c.wbl / 2 ^ f * 2 ^ c.mul ≤ c.wbl * 2 ^ (c.mul - f) := by
        rw [hP, ← Nat.mul_assoc]
        exact Nat.mul_le_mul_right _ (Nat.div_mul_le_self _ _)
      refine ⟨by dsimp only; omega, by dsimp only; omega, rfl, Nat.lt_of_le_of_lt (Nat.div_le_self _ _) hwbl, rfl, rfl, ?_, ?_, hrate⟩
      · exact le_trans hsl (Nat.le_add_right _ _)
      · intro hc; cases hc
    · refine ⟨_, _, rfl, ?_⟩
      refine ⟨h8, by dsimp only; omega, hinc, hwbl, rfl, rfl, ?_, by (intro hc; cases hc), le_refl _⟩
      dsimp only; rw [hs]; exact le_trans hdm (Nat.le_add_right _ _)

theorem count_spec (c : Tx) (len : Nat) (h : c.wpc + 1 < 2 ^ 64) :
    (count c len).wpc = c.wpc + 1 ∧ (count c len).wbl = c.wbl ∧ (count c len).mul = c.mul ∧ (count c len).inc = c.inc ∧
      (count c len).slot = c.slot ∧ (count c len).cav = c.cav ∧ (c.ctr < 32 → (count c len).ece = c.ece) := by
  refine ⟨u64_of_lt h, rfl, rfl, rfl, rfl, rfl, ?_⟩
  intro hh
  unfold count
  dsimp only
  rw [u64_of_lt (by omega), if_neg (by omega)]

theorem snd_spec {c : Tx} {T t : Nat} (len : Nat) (I : Inv c T) (hT : T + 16 ≤ t) (ht : t < 2 ^ 59) :
    ∃ c' w, updateSnd c t len = .ok (c', w) ∧ Inv c' t ∧ w ≤ 2 * 2 ^ c'.mul ∧
      (c.cav = true → c.ece ≠ 0 → c.ece ≤ 8191 → c.ctr < 32 → c'.wbl * 2 ^ c.mul ≤ c.wbl * 2 ^ c'.mul) := by
  obtain ⟨lo, hi, inc, cnt, op, cur, wbl⟩ := I
  have hPpos : 0 < 2 ^ c.mul := Nat.pos_of_ne_zero (by positivity)
  have hP61 : 2 ^ c.mul ≤ 2 ^ 61 := Nat.pow_le_pow_right (by decide) hi
  have hslot : c.slot < 2 ^ 63 := by
    have : c.slot ≤ c.slot * 2 ^ c.mul := Nat.le_mul_of_pos_right _ hPpos
    omega
  have hsl2 : t / 2 ^ c.mul < 2 ^ 63 := by
    have := Nat.div_le_self t (2 ^ c.mul); omega
  have hwpc : u64 (c.wpc + 1) = c.wpc + 1 := u64_of_lt (by omega)
  have hcs := count_spec c len (by omega)
  unfold updateSnd
  rw [shr_ok (show c.mul < 64 by omega), bind_ok']
  generalize count c len = c1 at hcs ⊢
  obtain ⟨k1, k2, k3, k4, k5, k6, k7⟩ := hcs
  have dpos : t < (t / 2 ^ c.mul + 1) * 2 ^ c.mul := by
    have := Nat.lt_div_mul_add (a := t) hPpos
    rw [Nat.add_mul, Nat.one_mul]; exact this
  -- how the last part goes
  have fin : ∀ c2 : Tx, Inv c2 t → (c2.wbl < c2.wbc → c2.wpc ≠ 0) →
      (c.cav = true → c.ece ≠ 0 → c.ece ≤ 8191 → c.ctr < 32 → c2.wbl * 2 ^ c.mul ≤ c.wbl * 2 ^ c2.mul) →
      ∃ c' w, (do
          let w ← waitFor c2 t
          Outcome.ok (c2, w)) = .ok (c', w) ∧ Inv c' t ∧ w ≤ 2 * 2 ^ c'.mul ∧
        (c.cav = true → c.ece ≠ 0 → c.ece ≤ 8191 → c.ctr < 32 → c'.wbl * 2 ^ c.mul ≤ c.wbl * 2 ^ c'.mul) := by
    intro c2 I2 hw hr
    unfold waitFor
    split
    · rename_i hlt
      have hopen : t < (c2.slot + 1) * 2 ^ c2.mul := by
        rcases I2.open_ with h | h
        · exact absurd h (hw hlt)
        · exact h
      have hP2 : 2 ^ c2.mul ≤ 2 ^ 61 := Nat.pow_le_pow_right (by decide) I2.hi
      have hcur := I2.cur
      have heq : (c2.slot + 1) * 2 ^ c2.mul = c2.slot * 2 ^ c2.mul + 2 ^ c2.mul := by rw [Nat.add_mul, Nat.one_mul]
      have hss : c2.slot ≤ c2.slot * 2 ^ c2.mul := Nat.le_mul_of_pos_right _ (Nat.pos_of_ne_zero (by positivity))
      rw [u64_of_lt (by omega), shl_ok (by have := I2.hi; omega) (by omega)]
      simp only [bind_ok', Outcome.pure_eq]
      refine ⟨c2, _, rfl, I2, ?_, hr⟩
      have : sub ((c2.slot + 1) * 2 ^ c2.mul) t = (c2.slot + 1) * 2 ^ c2.mul - t := by
        unfold sub
        rw [show (c2.slot + 1) * 2 ^ c2.mul + 2 ^ 64 - t = ((c2.slot + 1) * 2 ^ c2.mul - t) + 2 ^ 64 by omega]
        unfold u64
        rw [Nat.add_mod_right, Nat.mod_eq_of_lt (by omega)]
      rw [this]
      omega
    · exact ⟨c2, 0, rfl, I2, Nat.zero_le _, hr⟩
  by_cases hs : c.slot < t / 2 ^ c.mul
  · -- a new slot
    unfold advance
    rw [if_pos (by rw [k5]; exact (slotAfter_iff hsl2 hslot).2 hs)]
    have hge : 2 ^ c.mul ≤ t := by
      have h1 : 1 ≤ t / 2 ^ c.mul := by omega
      have := Nat.div_mul_le_self t (2 ^ c.mul)
      have h2 : 1 * 2 ^ c.mul ≤ t / 2 ^ c.mul * 2 ^ c.mul := Nat.mul_le_mul_right _ h1
      omega
    have hw2 : c.wpc + 1 ≤ 2 ^ (c.mul - 3) + 8 := by
      have e2 : 2 ^ c.mul = 8 * 2 ^ (c.mul - 3) := by
        rw [show c.mul = 3 + (c.mul - 3) by omega, Nat.pow_add]; simp
      rcases op with h | h
      · omega
      · rw [Nat.add_mul, Nat.one_mul] at h
        omega
    have hlim : limit c1 < 2 ^ 64 := limit_lt (by rw [k2]; exact wbl)
    obtain ⟨c', carry, hsc, m1, m2, m3, m4, m5, m6, m7, m8, m9⟩ :=
      scale_spec { c1 with slot := t / 2 ^ c.mul, wbl := limit c1 } t (by dsimp only; omega) (by dsimp only; rw [k3]; exact hge) ht
        (by dsimp only; rw [k3]) (by dsimp only; rw [k4, k3, inc]) hlim (by dsimp only; omega) (by dsimp only; rw [k1, k3]; exact hw2)
    dsimp only at m5 m6 m8 m9 hsc
    unfold turn
    rw [hsc]
    simp only [bind_ok', Outcome.pure_eq]
    have hrate : c.cav = true → c.ece ≠ 0 → c.ece ≤ 8191 → c.ctr < 32 → c'.wbl * 2 ^ c.mul ≤ c.wbl * 2 ^ c'.mul := by
      intro h1 h2 h3 h4
      have hle : limit c1 ≤ c.wbl := by
        unfold limit
        have := decrease_le wbl h3
        rw [k6, h1, k7 h4, k2]
        simp only [Bool.not_true, Bool.false_eq_true, if_false, h2, ne_eq, not_false_eq_true, if_true]
        unfold sub
        rw [show c.wbl + 2 ^ 64 - u64 (c.wbl * c.ece) / 2 ^ 13 = (c.wbl - u64 (c.wbl * c.ece) / 2 ^ 13) + 2 ^ 64 by omega]
        unfold u64
        rw [Nat.add_mod_right]
        exact le_trans (Nat.mod_le _ _) (Nat.sub_le _ _)
      rw [k3] at m9
      exact le_trans m9 (Nat.mul_le_mul_right _ hle)
    cases carry with
    | true =>
      simp only [if_true]
      refine fin c' ⟨m1, m2, m3, ?_, Or.inr (m8 rfl).1, m7, m4⟩ (fun _ => by omega) hrate
      have := (m8 rfl).2
      omega
    | false =>
      simp only [Bool.false_eq_true, if_false]
      refine fin { c' with wbc := 0, wpc := 0 } ⟨m1, m2, m3, ?_, Or.inl rfl, m7, m4⟩ (fun h => by (dsimp only at h; omega)) hrate
      dsimp only
      omega
  · unfold advance
    rw [if_neg (by rw [k5, slotAfter_iff hsl2 hslot]; exact hs)]
    simp only [bind_ok', Outcome.pure_eq]
    have hopen : t < (c.slot + 1) * 2 ^ c.mul := by
      have : (t / 2 ^ c.mul + 1) * 2 ^ c.mul ≤ (c.slot + 1) * 2 ^ c.mul := Nat.mul_le_mul_right _ (by omega)
      omega
    refine fin c1 ⟨by omega, by omega, by rw [k4, k3, inc], ?_, Or.inr (by rw [k5, k3]; exact hopen), by rw [k5, k3]; omega,
      by rw [k2]; exact wbl⟩ (fun _ => by omega) (fun _ _ _ _ => by rw [k2, k3])
    rw [k1, k5, k3]; omega

end Ouro.MbEcn
