import Verif.Model.Crc32
import Verif.Spec.Crc

/-! Linearity of the CRC register and the table lemma. -/

namespace Ouro.Crc32

open Spec.Crc

/-- the register step without input -/
def T (x : BitVec 32) : BitVec 32 := (x >>> 1) ^^^ (if x.getLsbD 0 then 0xEDB88320#32 else 0#32)

/-- a bit as a word -/
def bw (b : Bool) : BitVec 32 := if b then 1#32 else 0#32

theorem bw_ofNat (b : Bool) (i : Nat) : (bw b).getLsbD i = (decide (i = 0) && b) := by
  cases b
  · simp [bw]
  · simp only [bw, if_true, Bool.and_true]
    by_cases h : i = 0
    · subst h; decide
    · simp [h]

theorem shift_eq (r : BitVec 32) (b : Bool) : shift r b = T (r ^^^ bw b) := by
  have hs : (r ^^^ bw b) >>> 1 = r >>> 1 := by
    ext i hi
    simp [bw_ofNat]
  have h0 : (r ^^^ bw b).getLsbD 0 = (r.getLsbD 0 ^^ b) := by
    rw [BitVec.getLsbD_xor, bw_ofNat]; simp
  unfold shift T
  rw [hs, h0]
  split <;> simp

theorem T_xor (x y : BitVec 32) : T (x ^^^ y) = T x ^^^ T y := by
  unfold T
  rw [BitVec.ushiftRight_xor_distrib, BitVec.getLsbD_xor]
  generalize x >>> 1 = a
  generalize y >>> 1 = b
  generalize hp : 0xEDB88320#32 = p
  cases x.getLsbD 0 <;> cases y.getLsbD 0 <;> simp only [Bool.xor_self, Bool.false_xor, Bool.xor_false,
    if_true, if_false, Bool.false_eq_true, BitVec.xor_zero]
  · ac_rfl
  · ac_rfl
  · rw [show a ^^^ p ^^^ (b ^^^ p) = (a ^^^ b) ^^^ (p ^^^ p) by ac_rfl, BitVec.xor_self, BitVec.xor_zero]

theorem T_zero : T 0#32 = 0#32 := by decide

/-- the top bit of `T x` is the bit shifted out, so `T` is injective -/
theorem T_eq_zero {x : BitVec 32} (h : T x = 0#32) : x = 0#32 := by
  have h31 : (T x).getLsbD 31 = false := by rw [h]; simp
  have h0 : x.getLsbD 0 = false := by
    cases e : x.getLsbD 0 with
    | false => rfl
    | true =>
      unfold T at h31
      rw [e, BitVec.getLsbD_xor] at h31
      simp at h31
  unfold T at h
  rw [h0] at h
  simp only [Bool.false_eq_true, if_false, BitVec.xor_zero] at h
  ext i hi
  rw [← BitVec.getLsbD_eq_getElem]
  rcases Nat.eq_zero_or_pos i with rfl | hp
  · simpa using h0
  · have : (x >>> 1).getLsbD (i - 1) = false := by rw [h]; simp
    rw [BitVec.getLsbD_ushiftRight] at this
    rw [show 1 + (i - 1) = i by omega] at this
    simpa using this

/-- feeding bits into the register -/
def feed (r : BitVec 32) (bs : List Bool) : BitVec 32 := bs.foldl shift r

@[simp] theorem feed_nil (r : BitVec 32) : feed r [] = r := rfl
@[simp] theorem feed_cons (r : BitVec 32) (b : Bool) (bs : List Bool) : feed r (b :: bs) = feed (shift r b) bs := rfl
theorem feed_append (r : BitVec 32) (a b : List Bool) : feed r (a ++ b) = feed (feed r a) b := List.foldl_append

/-- `T` iterated -/
def Tn : Nat → BitVec 32 → BitVec 32
  | 0, x => x
  | n + 1, x => Tn n (T x)

theorem Tn_xor (n : Nat) : ∀ x y, Tn n (x ^^^ y) = Tn n x ^^^ Tn n y := by
  induction n with
  | zero => intro x y; rfl
  | succ n ih => intro x y; simp only [Tn, T_xor, ih]

theorem Tn_eq_zero (n : Nat) : ∀ {x}, Tn n x = 0#32 → x = 0#32 := by
  induction n with
  | zero => intro x h; exact h
  | succ n ih => intro x h; exact T_eq_zero (ih h)

/-- xor of two bit lists of the same length is fed from zero: linearity -/
theorem feed_xor (a : List Bool) : ∀ (b : List Bool) (r s : BitVec 32), a.length = b.length →
    feed r a ^^^ feed s b = feed (r ^^^ s) (List.zipWith (· ^^ ·) a b) := by
  induction a with
  | nil => intro b r s h; cases b <;> simp_all
  | cons x a ih =>
    intro b r s h
    cases b with
    | nil => simp at h
    | cons y b =>
      simp only [feed_cons, List.zipWith_cons_cons]
      rw [ih b _ _ (by simpa using h)]
      congr 1
      rw [shift_eq, shift_eq, shift_eq, ← T_xor]
      congr 1
      have : bw (x ^^ y) = bw x ^^^ bw y := by cases x <;> cases y <;> decide
      rw [this]
      ac_rfl

/-- bits packed in a word, first bit least significant -/
def pack : List Bool → BitVec 32
  | [] => 0#32
  | b :: bs => bw b ^^^ (pack bs <<< 1)

theorem pack_bit (bs : List Bool) : ∀ i, i < 32 → (pack bs).getLsbD i = bs.getD i false := by
  induction bs with
  | nil => intro i _; simp [pack]
  | cons b bs ih =>
    intro i hi
    simp only [pack, BitVec.getLsbD_xor, bw_ofNat, BitVec.getLsbD_shiftLeft]
    cases i with
    | zero => simp
    | succ i => simp [ih i (by omega), show i + 1 < 32 from hi]

theorem pack_high (bs : List Bool) (h : bs.length ≤ 31) : (pack bs).getLsbD 31 = false := by
  rw [pack_bit _ _ (by omega)]
  simp [List.getElem?_eq_none h]

theorem T_shl (x : BitVec 32) (h : x.getLsbD 31 = false) : T (x <<< 1) = x := by
  unfold T
  have h0 : (x <<< 1).getLsbD 0 = false := by simp
  rw [h0]
  simp only [Bool.false_eq_true, if_false, BitVec.xor_zero]
  ext i hi
  rw [← BitVec.getLsbD_eq_getElem, ← BitVec.getLsbD_eq_getElem, BitVec.getLsbD_ushiftRight, BitVec.getLsbD_shiftLeft]
  by_cases h1 : i = 31
  · subst h1; simpa using h.symm
  · have : 1 + i < 32 := by omega
    simp [this]

theorem feed_pack (bs : List Bool) : ∀ r, bs.length ≤ 32 → feed r bs = Tn bs.length (r ^^^ pack bs) := by
  induction bs with
  | nil => intro r _; simp [pack, Tn]
  | cons b bs ih =>
    intro r h
    simp only [List.length_cons] at h
    simp only [feed_cons, List.length_cons, Tn, pack]
    rw [ih _ (by omega), shift_eq]
    congr 1
    rw [← BitVec.xor_assoc, T_xor (r ^^^ bw b), T_shl _ (pack_high bs (by omega))]

theorem feed_zeros (n : Nat) : ∀ r, feed r (List.replicate n false) = Tn n r := by
  induction n with
  | zero => intro r; rfl
  | succ n ih =>
    intro r
    simp only [List.replicate_succ, feed_cons, ih, Tn, shift_eq]
    congr 1
    simp [bw]

/-- The table is the register run over eight zero bits: checked on all 256 entries by the kernel. -/
theorem table_spec : ∀ i : Fin 256, table.getD i.val 0#32 = Tn 8 (BitVec.ofNat 32 i.val) := by decide +kernel

theorem low_mask (x : BitVec 32) : x &&& 0xff#32 = BitVec.ofNat 32 (x.toNat % 256) := by
  apply BitVec.eq_of_toNat_eq
  rw [BitVec.toNat_and, BitVec.toNat_ofNat, BitVec.toNat_ofNat,
    show (255 % 2 ^ 32 : Nat) = 2 ^ 8 - 1 by decide, Nat.and_two_pow_sub_one_eq_mod]
  have : x.toNat % 2 ^ 8 < 2 ^ 8 := Nat.mod_lt _ (by decide)
  rw [Nat.mod_eq_of_lt (a := x.toNat % 256) (by omega)]

theorem lookup_spec (x : BitVec 32) : lookup (x &&& 0xff#32) = Tn 8 (x &&& 0xff#32) := by
  have hlt : x.toNat % 256 < 256 := Nat.mod_lt _ (by decide)
  have := table_spec ⟨x.toNat % 256, hlt⟩
  rw [low_mask]
  unfold lookup
  rw [BitVec.toNat_ofNat, Nat.mod_eq_of_lt (a := x.toNat % 256) (by omega)]
  exact this

theorem Tn_shl8 (y : BitVec 32) (h : ∀ i, 24 ≤ i → y.getLsbD i = false) : Tn 8 (y <<< 8) = y := by
  have aux : ∀ (n : Nat) (y : BitVec 32), (∀ i, 32 - n ≤ i → y.getLsbD i = false) → n ≤ 32 → Tn n (y <<< n) = y := by
    intro n
    induction n with
    | zero => intro y _ _; simp [Tn]
    | succ n ih =>
      intro y hy hn
      have h1 : T (y <<< (n + 1)) = y <<< n := by
        rw [BitVec.shiftLeft_add]
        apply T_shl
        rw [BitVec.getLsbD_shiftLeft, hy (31 - n) (by omega)]
        simp
      show Tn n (T (y <<< (n + 1))) = y
      rw [h1]
      exact ih y (fun i hi => hy i (by omega)) (by omega)
  exact aux 8 y h (by omega)

/-- One table step is eight register steps. -/
theorem stepByte_spec (c : BitVec 32) (b : BitVec 8) :
    stepByte c b = feed c ((List.range 8).map b.getLsbD) := by
  rw [feed_pack _ _ (by simp)]
  simp only [List.length_map, List.length_range]
  have hp : pack ((List.range 8).map b.getLsbD) = b.zeroExtend 32 := by
    ext i hi
    rw [← BitVec.getLsbD_eq_getElem, pack_bit _ _ hi, ← BitVec.getLsbD_eq_getElem, BitVec.getLsbD_setWidth]
    by_cases h8 : i < 8
    · simp [h8, hi]
    · have : b.getLsbD i = false := BitVec.getLsbD_of_ge b i (by omega)
      simp [h8, hi, this]
  rw [hp]
  unfold stepByte
  generalize hx : c ^^^ b.zeroExtend 32 = x
  have hc : c >>> 8 = x >>> 8 := by
    rw [← hx, BitVec.ushiftRight_xor_distrib]
    have : (b.zeroExtend 32) >>> 8 = 0#32 := by
      ext i hi
      simp only [BitVec.getElem_ushiftRight, BitVec.getElem_zero]
      rw [BitVec.getLsbD_setWidth]
      simp
    rw [this, BitVec.xor_zero]
  rw [hc, lookup_spec]
  have hsplit : x = (x &&& 0xff#32) ^^^ ((x >>> 8) <<< 8) := by
    ext i hi
    have h255 : (0xff#32).getLsbD i = decide (i < 8) := by
      have : ∀ j : Fin 32, (0xff#32).getLsbD j.val = decide (j.val < 8) := by decide
      exact this ⟨i, hi⟩
    rw [← BitVec.getLsbD_eq_getElem, ← BitVec.getLsbD_eq_getElem, BitVec.getLsbD_xor, BitVec.getLsbD_and, h255,
      BitVec.getLsbD_shiftLeft, BitVec.getLsbD_ushiftRight]
    by_cases h8 : i < 8
    · simp [h8]
    · simp [h8, hi, show 8 + (i - 8) = i by omega]
  conv => rhs; rw [hsplit, Tn_xor]
  rw [Tn_shl8]
  intro i hi
  rw [BitVec.getLsbD_ushiftRight]
  exact BitVec.getLsbD_of_ge _ _ (by omega)

theorem foldl_stepByte (m : List (BitVec 8)) : ∀ c, m.foldl stepByte c = feed c (bits m) := by
  induction m with
  | nil => intro c; rfl
  | cons b m ih =>
    intro c
    rw [List.foldl_cons, ih, stepByte_spec, ← feed_append]
    rfl

end Ouro.Crc32
