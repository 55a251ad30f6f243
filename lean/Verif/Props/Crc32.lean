import Verif.Proof.Crc32

/-!
# C06 — CRC-32
-/

namespace Ouro.Crc32

open Spec.Crc

/-- C06. The table-driven code computes the bit-serial CRC-32 (called with `*crc = 0`, as all users do). -/
theorem C06_crc32_is_standard (m : List (BitVec 8)) : crc32 0#32 m = Spec.Crc.crc m := by
  unfold crc32 crc
  rw [foldl_stepByte]
  have h : (0#32 ^^^ 0xffffffff#32) = ~~~0#32 := by decide
  rw [h]
  show feed _ _ ^^^ _ = ~~~(feed _ _)
  rw [show (0xffffffff#32 : BitVec 32) = BitVec.allOnes 32 by decide, BitVec.xor_allOnes]

/-- C06. Any chunking gives the same value. -/
theorem C06_chunking (chunks : List (List (BitVec 8))) (c : BitVec 32) :
    chunks.foldl crc32 c = crc32 c chunks.flatten := by
  have h2 : ∀ (x : BitVec 32), x ^^^ 0xffffffff#32 ^^^ 0xffffffff#32 = x := by
    intro x; rw [BitVec.xor_assoc]; simp
  have comp : ∀ (a b : List (BitVec 8)) (c : BitVec 32), crc32 (crc32 c a) b = crc32 c (a ++ b) := by
    intro a b c
    unfold crc32
    rw [h2, List.foldl_append]
  have nil : ∀ c, crc32 c [] = c := by intro c; simp only [crc32, List.foldl_nil, h2]
  induction chunks generalizing c with
  | nil => simp [nil]
  | cons a chunks ih => rw [List.foldl_cons, ih, List.flatten_cons, comp]

theorem bits_length (m : List (BitVec 8)) : (bits m).length = 8 * m.length := by
  induction m with
  | nil => rfl
  | cons b m ih =>
    show ((List.range 8).map b.getLsbD ++ bits m).length = _
    rw [List.length_append, ih]; simp; omega

theorem bits_inj (m : List (BitVec 8)) : ∀ m', m.length = m'.length → bits m = bits m' → m = m' := by
  induction m with
  | nil => intro m' h _; cases m' <;> simp_all
  | cons b m ih =>
    intro m' h hb
    cases m' with
    | nil => simp at h
    | cons b' m' =>
      have hb' : (List.range 8).map b.getLsbD ++ bits m = (List.range 8).map b'.getLsbD ++ bits m' := hb
      obtain ⟨h1, h2⟩ := List.append_inj hb' (by simp)
      rw [ih m' (by simpa using h) h2]
      congr 1
      ext i hi
      rw [← BitVec.getLsbD_eq_getElem, ← BitVec.getLsbD_eq_getElem]
      exact List.map_inj_left.mp h1 i (by simpa using hi)

theorem all_false {l : List Bool} (h : ∀ b ∈ l, b = false) : l = List.replicate l.length false :=
  List.eq_replicate_iff.mpr ⟨rfl, h⟩

theorem Tn_zero (n : Nat) : Tn n 0#32 = 0#32 := by
  induction n with
  | zero => rfl
  | succ n ih => simp only [Tn, T_zero, ih]

/-- C06. Burst errors: two different messages of equal length whose bits (in transmission order) agree outside a window of 32
consecutive bits have different checksums. -/
theorem C06_detects_bursts (m m' : List (BitVec 8)) (c : BitVec 32) (p : Nat) (hlen : m.length = m'.length) (hne : m ≠ m')
    (hwin : ∀ i, i < p ∨ p + 32 ≤ i → (bits m)[i]? = (bits m')[i]?) : crc32 c m ≠ crc32 c m' := by
  intro heq
  unfold crc32 at heq
  rw [foldl_stepByte, foldl_stepByte] at heq
  generalize hg : c ^^^ 0xffffffff#32 = c' at heq
  have heq' : feed c' (bits m) = feed c' (bits m') := by
    have h2 : ∀ (x : BitVec 32), x ^^^ 0xffffffff#32 ^^^ 0xffffffff#32 = x := by
      intro x; rw [BitVec.xor_assoc]; simp
    rw [← h2 (feed c' (bits m)), heq, h2]
  have hbl : (bits m).length = (bits m').length := by rw [bits_length, bits_length, hlen]
  have hz : feed 0#32 (List.zipWith (· ^^ ·) (bits m) (bits m')) = 0#32 := by
    have := feed_xor (bits m) (bits m') c' c' hbl
    rw [heq', BitVec.xor_self, BitVec.xor_self] at this
    exact this.symm
  generalize hd : List.zipWith (· ^^ ·) (bits m) (bits m') = d at hz
  have hdget : ∀ (i : Nat) (x : Bool), d[i]? = some x → ∃ a b, (bits m)[i]? = some a ∧ (bits m')[i]? = some b ∧ x = (a ^^ b) := by
    intro i x hx
    rw [← hd, List.getElem?_zipWith] at hx
    cases e1 : (bits m)[i]? <;> cases e2 : (bits m')[i]? <;> simp_all
  have hout : ∀ (i : Nat) (x : Bool), (i < p ∨ p + 32 ≤ i) → d[i]? = some x → x = false := by
    intro i x hi hx
    obtain ⟨a, b, h1, h2, h3⟩ := hdget i x hx
    have := hwin i hi
    rw [h1, h2] at this
    cases this
    simpa using h3
  -- split `d`
  have hsplit : d = d.take p ++ ((d.drop p).take 32 ++ (d.drop p).drop 32) := by
    rw [List.take_append_drop, List.take_append_drop]
  have hpre : d.take p = List.replicate (d.take p).length false := by
    apply all_false
    intro b hb
    obtain ⟨i, hi⟩ := List.mem_iff_getElem?.mp hb
    rw [List.getElem?_take] at hi
    split at hi
    · next h => exact hout i b (Or.inl h) hi
    · cases hi
  have hpost : (d.drop p).drop 32 = List.replicate ((d.drop p).drop 32).length false := by
    apply all_false
    intro b hb
    obtain ⟨i, hi⟩ := List.mem_iff_getElem?.mp hb
    rw [List.getElem?_drop, List.getElem?_drop] at hi
    exact hout _ b (Or.inr (by omega)) hi
  rw [hsplit, feed_append, feed_append, hpre, feed_zeros, Tn_zero, hpost, feed_zeros] at hz
  have hmid := Tn_eq_zero _ hz
  have hml : ((d.drop p).take 32).length ≤ 32 := by rw [List.length_take]; omega
  rw [feed_pack _ _ hml] at hmid
  have hpk := Tn_eq_zero _ hmid
  rw [BitVec.zero_xor] at hpk
  have hmid0 : ∀ b ∈ (d.drop p).take 32, b = false := by
    intro b hb
    obtain ⟨i, hi⟩ := List.mem_iff_getElem?.mp hb
    have hi32 : i < 32 := by
      have := (List.getElem?_eq_some_iff.mp hi).1
      omega
    have := pack_bit ((d.drop p).take 32) i hi32
    rw [hpk, List.getD_eq_getElem?_getD, hi] at this
    simpa using this.symm
  -- so all of `d` is false
  have hall : ∀ b ∈ d, b = false := by
    intro b hb
    rw [hsplit] at hb
    rcases List.mem_append.mp hb with h | h
    · rw [hpre] at h; exact (List.mem_replicate.mp h).2
    · rcases List.mem_append.mp h with h | h
      · exact hmid0 b h
      · rw [hpost] at h; exact (List.mem_replicate.mp h).2
  apply hne
  apply bits_inj _ _ hlen
  apply List.ext_getElem? 
  intro i
  cases e : d[i]? with
  | none =>
    have h1 : (bits m).length ≤ i := by
      have := List.getElem?_eq_none_iff.mp e
      rw [← hd, List.length_zipWith] at this
      omega
    rw [List.getElem?_eq_none h1, List.getElem?_eq_none (hbl ▸ h1)]
  | some x =>
    obtain ⟨a, b, h1, h2, h3⟩ := hdget i x e
    have hx := hall x (List.mem_of_getElem? e)
    rw [h1, h2]
    have hab : (a ^^ b) = false := h3 ▸ hx
    clear h1 h2 h3 hx
    cases a <;> cases b <;> first | rfl | exact absurd hab (by decide)

/-- Non-vacuity: the check value of CRC-32 ("123456789"), and a burst crossing byte boundaries that meets the hypotheses. -/
example : crc32 0#32 [0x31#8, 0x32#8, 0x33#8, 0x34#8, 0x35#8, 0x36#8, 0x37#8, 0x38#8, 0x39#8] = 0xCBF43926#32 := by
  decide +kernel
example : let m := [1#8, 2#8, 3#8, 4#8, 5#8, 6#8]; let m' := [1#8, 0x82#8, 0xFF#8, 0#8, 0x55#8, 0x7#8]
    m.length = m'.length ∧ m ≠ m' ∧ ∀ i, i < 15 ∨ 15 + 32 ≤ i → (bits m)[i]? = (bits m')[i]? := by
  refine ⟨rfl, by decide, ?_⟩
  intro i hi
  by_cases h : i < 48
  · have : ∀ j : Fin 48, j.val < 15 ∨ 15 + 32 ≤ j.val →
      (bits [1#8, 2#8, 3#8, 4#8, 5#8, 6#8])[j.val]? = (bits [1#8, 0x82#8, 0xFF#8, 0#8, 0x55#8, 0x7#8])[j.val]? := by
      decide +kernel
    exact this ⟨i, h⟩ hi
  · rw [List.getElem?_eq_none (by rw [bits_length]; simp; omega), List.getElem?_eq_none (by rw [bits_length]; simp; omega)]

end Ouro.Crc32
