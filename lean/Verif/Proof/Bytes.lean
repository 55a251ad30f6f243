import Verif.Model.Bytes
import Verif.Proof.Tac

namespace Ouro

@[simp] theorem length_leBytes (n v : Nat) : (leBytes n v).length = n := by
  induction n generalizing v with
  | zero => rfl
  | succ n ih => simp [leBytes, ih]

theorem leVal_lt (bs : List Byte) : leVal bs < 256 ^ bs.length := by
  induction bs with
  | nil => simp [leVal]
  | cons b bs ih =>
    have hb := b.isLt
    simp only [leVal, List.length_cons, Nat.pow_succ]
    omega

theorem leVal_leBytes (n v : Nat) : leVal (leBytes n v) = v % 256 ^ n := by
  induction n generalizing v with
  | zero => simp [leBytes, leVal, Nat.mod_one]
  | succ n ih =>
    have e : (256 : Nat) ^ (n + 1) = 256 * 256 ^ n := Nat.pow_succ'
    simp only [leBytes, leVal, ih, BitVec.toNat_ofNat]
    rw [e, Nat.mod_mul]

theorem leVal_leBytes_lt {n v : Nat} (h : v < 256 ^ n) : leVal (leBytes n v) = v := by
  rw [leVal_leBytes, Nat.mod_eq_of_lt h]

theorem leBytes_leVal (bs : List Byte) : leBytes bs.length (leVal bs) = bs := by
  induction bs with
  | nil => rfl
  | cons b bs ih =>
    have hb := b.isLt
    simp only [List.length_cons, leVal, leBytes]
    congr 1
    · apply BitVec.eq_of_toNat_eq
      simp only [BitVec.toNat_ofNat]
      omega
    · rw [show (b.toNat + 256 * leVal bs) / 256 = leVal bs by omega, ih]

theorem leBytes_leVal' {bs : List Byte} {n : Nat} (h : bs.length = n) : leBytes n (leVal bs) = bs := by
  subst h; exact leBytes_leVal bs

theorem patch_mid {pre mid post bs : List Byte} {off : Nat} (h1 : pre.length = off) (h2 : mid.length = bs.length) :
    patch (pre ++ (mid ++ post)) off bs = .ok (pre ++ (bs ++ post)) := by
  unfold patch
  rw [if_pos (by simp only [List.length_append]; omega)]
  subst h1
  have e : (pre ++ (mid ++ post)).drop (pre.length + bs.length) = post := by
    rw [← List.append_assoc, List.drop_append_of_le_length (by simp [h2])]
    simp [h2]
  rw [e]
  simp

theorem slice_mid {pre mid post : List Byte} {off n : Nat} (h1 : pre.length = off) (h2 : mid.length = n) :
    slice (pre ++ (mid ++ post)) off n = .ok mid := by
  unfold slice
  rw [if_pos (by simp only [List.length_append]; omega)]
  subst h1; subst h2
  simp

theorem slice_ub {buf : List Byte} {off n : Nat} (h : buf.length < off + n) : slice buf off n = .ub := by
  unfold slice
  rw [if_neg (by omega)]

theorem patch_length {buf bs r : List Byte} {off : Nat} (h : patch buf off bs = .ok r) : r.length = buf.length := by
  unfold patch at h
  split at h
  · cases h
    simp only [List.length_append, List.length_take, List.length_drop]
    omega
  · cases h

end Ouro
