import Verif.Model.Sha3
import Verif.Spec.Sha3
import Verif.Proof.Tac
import Mathlib.Tactic.IntervalCases

namespace Ouro.Sha3

theorem rotl_bit (q : Lane) (n z : Nat) (hn : 0 < n) (hn' : n < 64) (hz : z < 64) : (rotl q n).getLsbD z = q.getLsbD ((z + 64 - n) % 64) := by
  unfold rotl
  rw [BitVec.getLsbD_xor, BitVec.getLsbD_shiftLeft, BitVec.getLsbD_ushiftRight]
  by_cases h : z < n
  · have h1 : (z + 64 - n) % 64 = 64 - n + z := by omega
    simp [h, h1]
  · have h1 : (z + 64 - n) % 64 = z - n := by omega
    have h2 : q.getLsbD (64 - n + z) = false := BitVec.getLsbD_of_ge _ _ (by omega)
    simp [h, hz, h1, h2]

/-- The lanes are the state. -/
def Agree (l : Lanes) (A : Fips.State) : Prop := l.length = 25 ∧ ∀ x < 5, ∀ y < 5, ∀ z < 64, (at_ l (x + 5 * y)).getLsbD z = A x y z

theorem at_map (f : Nat → Lane) (n i : Nat) (h : i < n) : at_ ((List.range n).map f) i = f i := by
  simp [at_, List.getD_eq_getElem?_getD, List.getElem?_map, List.getElem?_range h]

theorem theta_agree {l : Lanes} {A : Fips.State} (h : Agree l A) : Agree (theta l) (Fips.theta A) := by
  refine ⟨by simp [theta], ?_⟩
  intro x hx y hy z hz
  have hc : ∀ k < 5, ∀ w < 64, (at_ l k ^^^ at_ l (k + 5) ^^^ at_ l (k + 10) ^^^ at_ l (k + 15) ^^^ at_ l (k + 20)).getLsbD w = Fips.column A k w := by
    intro k hk w hw
    simp only [BitVec.getLsbD_xor, Fips.column]
    rw [← h.2 k hk 0 (by omega) w hw, ← h.2 k hk 1 (by omega) w hw, ← h.2 k hk 2 (by omega) w hw, ← h.2 k hk 3 (by omega) w hw, ← h.2 k hk 4 (by omega) w hw]
    rfl
  have hz' : (z + 64 - 1) % 64 < 64 := by omega
  have e63 : (z + 63) % 64 = (z + 64 - 1) % 64 := by omega
  unfold theta
  rw [at_map _ _ _ (by omega), BitVec.getLsbD_xor, h.2 x hx y hy z hz]
  unfold Fips.theta
  congr 1
  have hm : (x + 5 * y) % 5 = x := by omega
  rw [hm, e63]
  interval_cases x
  · show (rotl _ 1 ^^^ _).getLsbD z = _
    rw [BitVec.getLsbD_xor, rotl_bit _ 1 z (by omega) (by omega) hz, hc 1 (by omega) _ hz', hc 4 (by omega) _ hz, Bool.xor_comm]
  · show (rotl _ 1 ^^^ _).getLsbD z = _
    rw [BitVec.getLsbD_xor, rotl_bit _ 1 z (by omega) (by omega) hz, hc 2 (by omega) _ hz', hc 0 (by omega) _ hz, Bool.xor_comm]
  · show (rotl _ 1 ^^^ _).getLsbD z = _
    rw [BitVec.getLsbD_xor, rotl_bit _ 1 z (by omega) (by omega) hz, hc 3 (by omega) _ hz', hc 1 (by omega) _ hz, Bool.xor_comm]
  · show (rotl _ 1 ^^^ _).getLsbD z = _
    rw [BitVec.getLsbD_xor, rotl_bit _ 1 z (by omega) (by omega) hz, hc 4 (by omega) _ hz', hc 2 (by omega) _ hz, Bool.xor_comm]
  · show (rotl _ 1 ^^^ _).getLsbD z = _
    rw [BitVec.getLsbD_xor, rotl_bit _ 1 z (by omega) (by omega) hz, hc 0 (by omega) _ hz', hc 3 (by omega) _ hz, Bool.xor_comm]

/-- The rotation of each lane. -/
def rots : List Nat := [0, 1, 62, 28, 27, 36, 44, 6, 55, 20, 3, 10, 43, 25, 39, 41, 45, 15, 21, 8, 18, 2, 61, 56, 14]

theorem rho_at (l : Lanes) (n : Nat) (h : n < 25) : at_ (rho l) n = if n = 0 then at_ l 0 else rotl (at_ l n) (rots.getD n 0) := by
  unfold rho
  cases n with
  | zero => rfl
  | succ n =>
    show at_ ((List.range 24).map _) n = _
    rw [at_map _ _ _ (by omega)]
    simp [rots]

theorem rots_range : ∀ n < 25, n ≠ 0 → 0 < rots.getD n 0 ∧ rots.getD n 0 < 64 := by decide

theorem offset_rots : ∀ x < 5, ∀ y < 5, Fips.offset x y % 64 = rots.getD (x + 5 * y) 0 := by decide +kernel

theorem rho_agree {l : Lanes} {A : Fips.State} (h : Agree l A) : Agree (rho l) (Fips.rho A) := by
  refine ⟨by simp [rho], ?_⟩
  intro x hx y hy z hz
  rw [rho_at l _ (by omega)]
  have ho := offset_rots x hx y hy
  unfold Fips.rho
  by_cases h0 : x + 5 * y = 0
  · rw [if_pos h0]
    rw [h0] at ho
    have : (((z : Int) - (Fips.offset x y : Int)) % 64).toNat = z := by
      have : rots.getD 0 0 = 0 := rfl
      omega
    rw [this]
    have := h.2 x hx y hy z hz
    rw [h0] at this
    exact this
  · rw [if_neg h0]
    obtain ⟨h1, h2⟩ := rots_range (x + 5 * y) (by omega) h0
    rw [rotl_bit _ _ _ h1 h2 hz, h.2 x hx y hy _ (by omega)]
    congr 1
    omega

theorem destruct {l : Lanes} (h : l.length = 25) : ∃ a0 a1 a2 a3 a4 a5 a6 a7 a8 a9 a10 a11 a12 a13 a14 a15 a16 a17 a18 a19 a20 a21 a22 a23 a24,
    l = [a0, a1, a2, a3, a4, a5, a6, a7, a8, a9, a10, a11, a12, a13, a14, a15, a16, a17, a18, a19, a20, a21, a22, a23, a24] := by
  refine ⟨at_ l 0, at_ l 1, at_ l 2, at_ l 3, at_ l 4, at_ l 5, at_ l 6, at_ l 7, at_ l 8, at_ l 9, at_ l 10, at_ l 11, at_ l 12, at_ l 13, at_ l 14, at_ l 15, at_ l 16, at_ l 17,
    at_ l 18, at_ l 19, at_ l 20, at_ l 21, at_ l 22, at_ l 23, at_ l 24, ?_⟩
  apply List.ext_getElem (by simpa using h)
  intro i h1 h2
  have : l[i] = at_ l i := by simp [at_, h1]
  rw [this]
  have hi : i < 25 := by omega
  revert h2
  clear this h1 h
  interval_cases i <;> intro _ <;> rfl

theorem pi_length (l : Lanes) (h : l.length = 25) : (pi l).length = 25 := by
  simp [pi, piMoves, h]

theorem pi_lit (a0 a1 a2 a3 a4 a5 a6 a7 a8 a9 a10 a11 a12 a13 a14 a15 a16 a17 a18 a19 a20 a21 a22 a23 a24 : Lane) : pi [a0, a1, a2, a3, a4, a5, a6, a7, a8, a9, a10, a11, a12, a13, a14, a15, a16, a17, a18, a19, a20, a21, a22, a23, a24] =
    [a0, a6, a12, a18, a24, a3, a9, a10, a16, a22, a1, a7, a13, a19, a20, a4, a5, a11, a17, a23, a2, a8, a14, a15, a21] := by
  simp only [pi, piMoves, List.foldl_cons, List.foldl_nil, List.set_cons_zero, List.set_cons_succ, at_, List.getD_cons_zero, List.getD_cons_succ]

theorem pi_at (l : Lanes) (h : l.length = 25) (n : Nat) (hn : n < 25) : at_ (pi l) n = at_ l ((n % 5 + 3 * (n / 5)) % 5 + 5 * (n % 5)) := by
  obtain ⟨a0, a1, a2, a3, a4, a5, a6, a7, a8, a9, a10, a11, a12, a13, a14, a15, a16, a17, a18, a19, a20, a21, a22, a23, a24, rfl⟩ := destruct h
  rw [pi_lit]
  interval_cases n <;> rfl

theorem pi_agree {l : Lanes} {A : Fips.State} (h : Agree l A) : Agree (pi l) (Fips.pi A) := by
  refine ⟨pi_length l h.1, ?_⟩
  intro x hx y hy z hz
  rw [pi_at l h.1 _ (by omega)]
  have e1 : (x + 5 * y) % 5 = x := by omega
  have e2 : (x + 5 * y) / 5 = y := by omega
  rw [e1, e2, h.2 _ (by omega) x hx z hz]
  rfl

theorem chiRow_length (l : Lanes) (i : Nat) : (chiRow l i).length = l.length := by simp [chiRow]

theorem chi_length (l : Lanes) : (chi l).length = l.length := by simp [chi, chiRow_length]

theorem chiRow_lit0 (a0 a1 a2 a3 a4 a5 a6 a7 a8 a9 a10 a11 a12 a13 a14 a15 a16 a17 a18 a19 a20 a21 a22 a23 a24 : Lane) : chiRow [a0, a1, a2, a3, a4, a5, a6, a7, a8, a9, a10, a11, a12, a13, a14, a15, a16, a17, a18, a19, a20, a21, a22, a23, a24] 0 =
    [a0 ^^^ (~~~ a1 &&& a2), a1 ^^^ (~~~ a2 &&& a3), a2 ^^^ (~~~ a3 &&& a4), a3 ^^^ (~~~ a4 &&& a0), a4 ^^^ (~~~ a0 &&& a1), a5, a6, a7, a8, a9, a10, a11, a12, a13, a14, a15, a16, a17, a18, a19, a20, a21, a22, a23, a24] := by
  simp only [chiRow, Nat.reduceAdd, Nat.zero_add, List.set_cons_zero, List.set_cons_succ, at_, List.getD_cons_zero, List.getD_cons_succ]

theorem chiRow_lit1 (a0 a1 a2 a3 a4 a5 a6 a7 a8 a9 a10 a11 a12 a13 a14 a15 a16 a17 a18 a19 a20 a21 a22 a23 a24 : Lane) : chiRow [a0, a1, a2, a3, a4, a5, a6, a7, a8, a9, a10, a11, a12, a13, a14, a15, a16, a17, a18, a19, a20, a21, a22, a23, a24] 5 =
    [a0, a1, a2, a3, a4, a5 ^^^ (~~~ a6 &&& a7), a6 ^^^ (~~~ a7 &&& a8), a7 ^^^ (~~~ a8 &&& a9), a8 ^^^ (~~~ a9 &&& a5), a9 ^^^ (~~~ a5 &&& a6), a10, a11, a12, a13, a14, a15, a16, a17, a18, a19, a20, a21, a22, a23, a24] := by
  simp only [chiRow, Nat.reduceAdd, Nat.zero_add, List.set_cons_zero, List.set_cons_succ, at_, List.getD_cons_zero, List.getD_cons_succ]

theorem chiRow_lit2 (a0 a1 a2 a3 a4 a5 a6 a7 a8 a9 a10 a11 a12 a13 a14 a15 a16 a17 a18 a19 a20 a21 a22 a23 a24 : Lane) : chiRow [a0, a1, a2, a3, a4, a5, a6, a7, a8, a9, a10, a11, a12, a13, a14, a15, a16, a17, a18, a19, a20, a21, a22, a23, a24] 10 =
    [a0, a1, a2, a3, a4, a5, a6, a7, a8, a9, a10 ^^^ (~~~ a11 &&& a12), a11 ^^^ (~~~ a12 &&& a13), a12 ^^^ (~~~ a13 &&& a14), a13 ^^^ (~~~ a14 &&& a10), a14 ^^^ (~~~ a10 &&& a11), a15, a16, a17, a18, a19, a20, a21, a22, a23, a24] := by
  simp only [chiRow, Nat.reduceAdd, Nat.zero_add, List.set_cons_zero, List.set_cons_succ, at_, List.getD_cons_zero, List.getD_cons_succ]

theorem chiRow_lit3 (a0 a1 a2 a3 a4 a5 a6 a7 a8 a9 a10 a11 a12 a13 a14 a15 a16 a17 a18 a19 a20 a21 a22 a23 a24 : Lane) : chiRow [a0, a1, a2, a3, a4, a5, a6, a7, a8, a9, a10, a11, a12, a13, a14, a15, a16, a17, a18, a19, a20, a21, a22, a23, a24] 15 =
    [a0, a1, a2, a3, a4, a5, a6, a7, a8, a9, a10, a11, a12, a13, a14, a15 ^^^ (~~~ a16 &&& a17), a16 ^^^ (~~~ a17 &&& a18), a17 ^^^ (~~~ a18 &&& a19), a18 ^^^ (~~~ a19 &&& a15), a19 ^^^ (~~~ a15 &&& a16), a20, a21, a22, a23, a24] := by
  simp only [chiRow, Nat.reduceAdd, Nat.zero_add, List.set_cons_zero, List.set_cons_succ, at_, List.getD_cons_zero, List.getD_cons_succ]

theorem chiRow_lit4 (a0 a1 a2 a3 a4 a5 a6 a7 a8 a9 a10 a11 a12 a13 a14 a15 a16 a17 a18 a19 a20 a21 a22 a23 a24 : Lane) : chiRow [a0, a1, a2, a3, a4, a5, a6, a7, a8, a9, a10, a11, a12, a13, a14, a15, a16, a17, a18, a19, a20, a21, a22, a23, a24] 20 =
    [a0, a1, a2, a3, a4, a5, a6, a7, a8, a9, a10, a11, a12, a13, a14, a15, a16, a17, a18, a19, a20 ^^^ (~~~ a21 &&& a22), a21 ^^^ (~~~ a22 &&& a23), a22 ^^^ (~~~ a23 &&& a24), a23 ^^^ (~~~ a24 &&& a20), a24 ^^^ (~~~ a20 &&& a21)] := by
  simp only [chiRow, Nat.reduceAdd, Nat.zero_add, List.set_cons_zero, List.set_cons_succ, at_, List.getD_cons_zero, List.getD_cons_succ]

theorem chi_lit (a0 a1 a2 a3 a4 a5 a6 a7 a8 a9 a10 a11 a12 a13 a14 a15 a16 a17 a18 a19 a20 a21 a22 a23 a24 : Lane) : chi [a0, a1, a2, a3, a4, a5, a6, a7, a8, a9, a10, a11, a12, a13, a14, a15, a16, a17, a18, a19, a20, a21, a22, a23, a24] =
    [a0 ^^^ (~~~ a1 &&& a2), a1 ^^^ (~~~ a2 &&& a3), a2 ^^^ (~~~ a3 &&& a4), a3 ^^^ (~~~ a4 &&& a0), a4 ^^^ (~~~ a0 &&& a1), a5 ^^^ (~~~ a6 &&& a7), a6 ^^^ (~~~ a7 &&& a8), a7 ^^^ (~~~ a8 &&& a9), a8 ^^^ (~~~ a9 &&& a5), a9 ^^^ (~~~ a5 &&& a6), a10 ^^^ (~~~ a11 &&& a12), a11 ^^^ (~~~ a12 &&& a13), a12 ^^^ (~~~ a13 &&& a14), a13 ^^^ (~~~ a14 &&& a10), a14 ^^^ (~~~ a10 &&& a11), a15 ^^^ (~~~ a16 &&& a17), a16 ^^^ (~~~ a17 &&& a18), a17 ^^^ (~~~ a18 &&& a19), a18 ^^^ (~~~ a19 &&& a15), a19 ^^^ (~~~ a15 &&& a16), a20 ^^^ (~~~ a21 &&& a22), a21 ^^^ (~~~ a22 &&& a23), a22 ^^^ (~~~ a23 &&& a24), a23 ^^^ (~~~ a24 &&& a20), a24 ^^^ (~~~ a20 &&& a21)] := by
  simp only [chi, List.foldl_cons, List.foldl_nil, chiRow_lit0, chiRow_lit1, chiRow_lit2, chiRow_lit3, chiRow_lit4]

theorem chi_at (l : Lanes) (h : l.length = 25) (n : Nat) (hn : n < 25) :
    at_ (chi l) n = at_ l n ^^^ (~~~ (at_ l ((n % 5 + 1) % 5 + 5 * (n / 5))) &&& at_ l ((n % 5 + 2) % 5 + 5 * (n / 5))) := by
  obtain ⟨a0, a1, a2, a3, a4, a5, a6, a7, a8, a9, a10, a11, a12, a13, a14, a15, a16, a17, a18, a19, a20, a21, a22, a23, a24, rfl⟩ := destruct h
  rw [chi_lit]
  interval_cases n <;> rfl

theorem chi_agree {l : Lanes} {A : Fips.State} (h : Agree l A) : Agree (chi l) (Fips.chi A) := by
  refine ⟨by rw [chi_length, h.1], ?_⟩
  intro x hx y hy z hz
  rw [chi_at l h.1 _ (by omega)]
  have e1 : (x + 5 * y) % 5 = x := by omega
  have e2 : (x + 5 * y) / 5 = y := by omega
  rw [e1, e2, BitVec.getLsbD_xor, BitVec.getLsbD_and, BitVec.getLsbD_not, h.2 x hx y hy z hz, h.2 _ (by omega) y hy z hz, h.2 _ (by omega) y hy z hz]
  simp [hz, Fips.chi]

theorem rc_bit : ∀ r < 24, ∀ z < 64, (rc.getD r 0).getLsbD z = Fips.RC r z := by decide +kernel

theorem iota_agree {l : Lanes} {A : Fips.State} (h : Agree l A) {r : Nat} (hr : r < 24) : Agree (l.set 0 (at_ l 0 ^^^ rc.getD r 0)) (Fips.iota r A) := by
  refine ⟨by simp [h.1], ?_⟩
  intro x hx y hy z hz
  unfold Fips.iota
  have hs : ∀ v : Lane, ∀ n < 25, at_ (l.set 0 v) n = if n = 0 then v else at_ l n := by
    intro v n hn
    simp only [at_, List.getD_eq_getElem?_getD, List.getElem?_set]
    by_cases h0 : n = 0
    · subst h0; simp [h.1]
    · have : ¬ 0 = n := fun e => h0 e.symm
      simp [h0, this]
  rw [hs _ _ (by omega)]
  by_cases h0 : x = 0 ∧ y = 0
  · obtain ⟨rfl, rfl⟩ := h0
    simp only [Nat.mul_zero, Nat.add_zero, if_true, and_self]
    rw [BitVec.getLsbD_xor, rc_bit r hr z hz, ← h.2 0 hx 0 hy z hz]
  · rw [if_neg h0, if_neg (by omega)]
    exact h.2 x hx y hy z hz

theorem round_agree {l : Lanes} {A : Fips.State} (h : Agree l A) {r : Nat} (hr : r < 24) : Agree (round l r) (Fips.round A r) := by
  have := iota_agree (chi_agree (pi_agree (rho_agree (theta_agree h)))) hr
  unfold round Fips.round
  exact this

theorem rounds_agree (rs : List Nat) (hr : ∀ r ∈ rs, r < 24) : ∀ {l : Lanes} {A : Fips.State}, Agree l A → Agree (rs.foldl round l) (rs.foldl Fips.round A) := by
  induction rs with
  | nil => intro l A h; exact h
  | cons r rs ih =>
    intro l A h
    rw [List.foldl_cons, List.foldl_cons]
    exact ih (fun r' h' => hr r' (List.mem_cons_of_mem _ h')) (round_agree h (hr r List.mem_cons_self))

theorem permutation_agree {l : Lanes} {A : Fips.State} (h : Agree l A) : Agree (permutation l) (Fips.keccak A) := by
  unfold permutation Fips.keccak
  exact rounds_agree _ (fun r hr => List.mem_range.1 hr) h

theorem word_bit (block : List UInt8) (i z : Nat) (hz : z < 64) : (word block i).getLsbD z = (block.getD (8 * i + z / 8) 0).toNat.testBit (z % 8) := by
  have hb : ∀ k j, ((block.getD (8 * i + k) 0).toBitVec.setWidth 64).getLsbD j = (decide (j < 64) && (block.getD (8 * i + k) 0).toNat.testBit j) := by
    intro k j
    rw [BitVec.getLsbD_setWidth]; rfl
  have hbig : ∀ (b : UInt8) (j : Nat), 8 ≤ j → b.toNat.testBit j = false := by
    intro b j hj
    apply Nat.testBit_lt_two_pow
    calc b.toNat < 2 ^ 8 := b.toNat_lt
      _ ≤ 2 ^ j := Nat.pow_le_pow_right (by omega) hj
  unfold word
  simp only [BitVec.getLsbD_or, BitVec.getLsbD_shiftLeft, hb]
  have hd : z = 8 * (z / 8) + z % 8 := by omega
  have hq : z / 8 < 8 := by omega
  have hr : z % 8 < 8 := by omega
  generalize z / 8 = q at *
  generalize z % 8 = r at *
  subst hd
  interval_cases q <;> interval_cases r <;> simp [hbig]

end Ouro.Sha3
