import Verif.Proof.Tac
import Verif.Spec.Operf

/-!
# Proofs for C86 and C87
-/

namespace Ouro.Operf

theorem and_succ (n : Nat) : n &&& (n + 1) = 0 ↔ ∃ k, n + 1 = 2 ^ k := by
  induction n using Nat.strong_induction_on with
  | _ n ih =>
    rcases Nat.even_or_odd' n with ⟨a, rfl | rfl⟩
    · have h1 : (2 * a) &&& (2 * a + 1) = 2 * a := by
        apply Nat.eq_of_testBit_eq
        intro i
        cases i with
        | zero => simp
        | succ i =>
          rw [Nat.testBit_and, Nat.testBit_succ, Nat.testBit_succ, show 2 * a / 2 = a by omega, show (2 * a + 1) / 2 = a by omega, Bool.and_self]
      rw [h1]
      constructor
      · intro h
        exact ⟨0, by simp; omega⟩
      · rintro ⟨k, hk⟩
        cases k with
        | zero => simpa using hk
        | succ k =>
          rw [pow_succ] at hk
          omega
    · have h1 : (2 * a + 1) &&& (2 * a + 1 + 1) = 2 * (a &&& (a + 1)) := by
        apply Nat.eq_of_testBit_eq
        intro i
        cases i with
        | zero =>
          rw [Nat.testBit_and]
          simp only [Nat.testBit_zero]
          have e1 : (2 * a + 1 + 1) % 2 = 0 := by omega
          have e2 : (2 * (a &&& (a + 1))) % 2 = 0 := by omega
          simp [e1, e2]
        | succ i =>
          rw [Nat.testBit_and, Nat.testBit_succ, Nat.testBit_succ, Nat.testBit_succ, show (2 * a + 1) / 2 = a by omega, show (2 * a + 1 + 1) / 2 = a + 1 by omega,
            show 2 * (a &&& (a + 1)) / 2 = a &&& (a + 1) by omega, Nat.testBit_and]
      rw [h1]
      have := ih a (by omega)
      constructor
      · intro h
        obtain ⟨k, hk⟩ := this.1 (by omega)
        exact ⟨k + 1, by rw [pow_succ]; omega⟩
      · rintro ⟨k, hk⟩
        cases k with
        | zero => simp at hk
        | succ k =>
          rw [pow_succ] at hk
          have := this.2 ⟨k, by omega⟩
          omega

/-- A mask as a number. -/
theorem mask_iff (n : Nat) (hn : n ≤ 32) (m : BitVec 32) : Mask n m ↔ (~~~m).toNat + 1 = 2 ^ (32 - n) := by
  have h2 : 0 < 2 ^ (32 - n) := Nat.two_pow_pos _
  have hb : (∀ i < 32, m.getMsbD i = decide (i < n)) ↔ ∀ j, (~~~m).toNat.testBit j = (2 ^ (32 - n) - 1).testBit j := by
    simp only [Nat.testBit_two_pow_sub_one]
    constructor
    · intro h j
      by_cases hj : j < 32
      · have := h (31 - j) (by omega)
        rw [BitVec.getMsbD_eq_getLsbD, show 32 - 1 - (31 - j) = j by omega] at this
        rw [BitVec.testBit_toNat, BitVec.getLsbD_not]
        have h31 : decide (31 - j < 32) = true := decide_eq_true (by omega)
        rw [h31, Bool.true_and] at this
        rw [this, decide_eq_true hj, Bool.true_and, ← decide_not]
        apply decide_eq_decide.2
        omega
      · have : (~~~m).toNat < 2 ^ j := lt_of_lt_of_le (~~~m).isLt (Nat.pow_le_pow_right (by decide) (by omega))
        rw [Nat.testBit_lt_two_pow this]
        symm
        apply decide_eq_false
        omega
    · intro h i hi
      have := h (31 - i)
      rw [BitVec.testBit_toNat, BitVec.getLsbD_not] at this
      rw [BitVec.getMsbD_eq_getLsbD, decide_eq_true hi, Bool.true_and, show 32 - 1 - i = 31 - i by omega]
      rw [decide_eq_true (show 31 - i < 32 by omega), Bool.true_and] at this
      rw [← Bool.not_not (m.getLsbD (31 - i)), this, ← decide_not]
      apply decide_eq_decide.2
      omega
  unfold Mask
  rw [hb]
  constructor
  · rintro ⟨-, h⟩
    have := Nat.eq_of_testBit_eq h
    omega
  · intro h
    refine ⟨hn, fun j => ?_⟩
    rw [show (~~~m).toNat = 2 ^ (32 - n) - 1 by omega]

theorem badMask_iff (m : BitVec 32) : badMask m = false ↔ ∃ k ≤ 32, (~~~m).toNat + 1 = 2 ^ k := by
  have hlt := (~~~m).isLt
  unfold badMask
  by_cases h0 : m = 0
  · subst h0
    simp only [if_true, true_iff]
    exact ⟨32, le_refl _, by decide⟩
  · rw [if_neg h0]
    have hne : (~~~m).toNat + 1 < 2 ^ 32 := by
      by_contra hc
      apply h0
      have : (~~~m).toNat = 2 ^ 32 - 1 := by omega
      rw [BitVec.toNat_not] at this
      apply BitVec.eq_of_toNat_eq
      have := m.isLt
      simp
      omega
    have hand : (~~~m &&& (~~~m + 1)).toNat = (~~~m).toNat &&& ((~~~m).toNat + 1) := by
      rw [BitVec.toNat_and, BitVec.toNat_add]
      congr 1
      simpa using Nat.mod_eq_of_lt hne
    have hz : (~~~m &&& (~~~m + 1)) = 0 ↔ (~~~m).toNat &&& ((~~~m).toNat + 1) = 0 := by
      rw [← hand]
      constructor
      · intro h
        rw [h]
        rfl
      · intro h
        exact BitVec.eq_of_toNat_eq (by rw [h]; rfl)
    rw [decide_eq_false_iff_not, not_not, hz, and_succ]
    constructor
    · rintro ⟨k, hk⟩
      refine ⟨k, ?_, hk⟩
      by_contra hc
      have : 2 ^ 32 ≤ 2 ^ k := Nat.pow_le_pow_right (by decide) (by omega)
      omega
    · rintro ⟨k, -, hk⟩
      exact ⟨k, hk⟩

theorem writer_eq (l : List Bool) : ∀ k, writer l k = (List.range' k (l.takeWhile id).length, k + (l.takeWhile id).length) := by
  induction l with
  | nil => intro k; rfl
  | cons b l ih =>
    intro k
    cases b with
    | false => rfl
    | true =>
      unfold writer
      rw [ih]
      simp [List.range'_succ]
      omega

theorem wr_256 {s : St} (h : s.conf.length = 256) {fd : Nat} (hfd : fd < 256) (t : Nat) : wr s.conf fd t = .ok (s.conf.set fd t) := by simp [wr, h, hfd]

theorem accept_good {s : St} (h : s.conf.length = 256) {fd : Nat} (hfd : fd < 256) (c : Client) (hc : ∃ n l, c.msgs = n :: l ∧ (4 ≤ n ∨ l ≠ [])) :
    accept s fd c = .ok { s with conf := s.conf.set fd c.type, flows := fd :: s.flows } := by
  obtain ⟨n, l, e, hn⟩ := hc
  have hw := wr_256 h hfd c.type
  unfold accept
  rw [e]
  simp only [flowRead, take, hw, Outcome.bind]
  by_cases h4 : n = 4
  · subst h4
    simp
  · by_cases hlt : n < 4
    · cases l with
      | nil => exact absurd rfl (hn.resolve_left (by omega))
      | cons m l =>
        by_cases hm : m = 0
        · simp [h4, show n ≤ 4 by omega, hm]
        · simp [h4, show n ≤ 4 by omega, hm]
    · simp [show ¬ n ≤ 4 by omega]

theorem accept_bad {s : St} (h : s.conf.length = 256) {fd : Nat} (hfd : fd < 256) (c : Client) (hc : c.msgs = [] ∨ ∃ n < 4, c.msgs = [n]) :
    ∃ conf : List Nat, conf.length = 256 ∧ accept s fd c = .ok { s with conf := conf, accepting := false } := by
  rcases hc with e | ⟨n, hn, e⟩
  · refine ⟨s.conf, h, ?_⟩
    unfold accept
    rw [e]
    rfl
  · refine ⟨s.conf.set fd c.type, by simpa using h, ?_⟩
    have hw := wr_256 h hfd c.type
    unfold accept
    rw [e]
    simp [flowRead, take, hw, Outcome.bind, show n ≤ 4 by omega, show n ≠ 4 by omega]

theorem client_cases (c : Client) : (∃ n l, c.msgs = n :: l ∧ (4 ≤ n ∨ l ≠ [])) ∨ (c.msgs = [] ∨ ∃ n < 4, c.msgs = [n]) := by
  rcases e : c.msgs with - | ⟨n, l⟩
  · exact Or.inr (Or.inl rfl)
  · by_cases hn : 4 ≤ n
    · exact Or.inl ⟨n, l, rfl, Or.inl hn⟩
    · cases l with
      | nil => exact Or.inr (Or.inr ⟨n, by omega, rfl⟩)
      | cons m l => exact Or.inl ⟨n, m :: l, rfl, Or.inr (by simp)⟩

theorem accept_oob {s : St} (h : s.conf.length = 256) {fd : Nat} (hfd : 256 ≤ fd) (c : Client) (hc : c.msgs ≠ []) : accept s fd c = .ub := by
  have hw : wr s.conf fd c.type = .ub := by
    simp [wr, h]
    omega
  unfold accept
  cases e : c.msgs with
  | nil => exact absurd e hc
  | cons n l => simp [flowRead, take, hw, Outcome.bind]

theorem accept_length {s t : St} (h : s.conf.length = 256) {fd : Nat} {c : Client} (ha : accept s fd c = .ok t) : t.conf.length = 256 := by
  by_cases hfd : fd < 256
  · rcases client_cases c with hc | hc
    · rw [accept_good h hfd c hc] at ha
      cases ha
      simpa using h
    · obtain ⟨conf, hl, e⟩ := accept_bad h hfd c hc
      rw [e] at ha
      cases ha
      exact hl
  · by_cases hc : c.msgs = []
    · unfold accept at ha
      rw [hc] at ha
      cases ha
      exact h
    · rw [accept_oob h (by omega) c hc] at ha
      cases ha

end Ouro.Operf
