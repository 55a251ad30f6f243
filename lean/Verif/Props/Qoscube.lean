import Verif.Model.Qoscube

/-!
# C46 — mapping of QoS specifications to classes
-/

namespace Ouro.Qoscube

/-- Specification: `q` asks for at least as much as `r` in every respect that matters for the class. -/
def AtLeast (q r : Spec) : Prop :=
  q.delay ≤ r.delay ∧ q.bandwidth ≥ r.bandwidth ∧ q.availability ≥ r.availability ∧ q.maxGap ≤ r.maxGap

instance (q r : Spec) : Decidable (AtLeast q r) := by unfold AtLeast; infer_instance

/-- Specification: service `c` is good enough for request `q`. -/
def Satisfies (c q : Spec) : Prop :=
  c.delay ≤ q.delay ∧ c.bandwidth ≥ q.bandwidth ∧ c.availability ≥ q.availability ∧ c.maxGap ≤ q.maxGap

instance (q r : Spec) : Decidable (Satisfies q r) := by unfold Satisfies; infer_instance

/-- The characteristics advertised for each class. -/
def advertised : Cube → Spec
  | .be => bestEffort
  | .video => video
  | .voice => voice

theorem specToCube_eq (q : Spec) : specToCube q =
    if q.delay ≤ 50 ∧ q.bandwidth ≤ 100000 ∧ q.availability ≥ 5 ∧ q.maxGap ≤ 50 then .voice
    else if q.delay ≤ 100 ∧ q.bandwidth ≤ 18446744073709551615 ∧ q.availability ≥ 3 ∧ q.maxGap ≤ 100 then .video
    else .be := rfl

/-- C46. The class is determined by the documented numbers, for every specification of the C type. -/
theorem C46_thresholds (q : Spec) (hq : q.WF) :
    (specToCube q = .voice ↔ q.delay ≤ 50 ∧ q.bandwidth ≤ 100000 ∧ q.availability ≥ 5 ∧ q.maxGap ≤ 50) ∧
    (specToCube q = .video ↔ (q.delay ≤ 100 ∧ q.availability ≥ 3 ∧ q.maxGap ≤ 100) ∧
      ¬ (q.delay ≤ 50 ∧ q.bandwidth ≤ 100000 ∧ q.availability ≥ 5 ∧ q.maxGap ≤ 50)) ∧
    (specToCube q = .be ↔ q.delay > 100 ∨ q.availability < 3 ∨ q.maxGap > 100) := by
  have hb : q.bandwidth ≤ 2^64 - 1 := by have := hq.2.1; omega
  rw [specToCube_eq]
  by_cases h1 : q.delay ≤ 50 ∧ q.bandwidth ≤ 100000 ∧ q.availability ≥ 5 ∧ q.maxGap ≤ 50
  · simp only [h1, and_self, if_true]
    refine ⟨by simp, by simp, ?_⟩
    simp only [reduceCtorEq, false_iff]; omega
  · rw [if_neg h1]
    by_cases h2 : q.delay ≤ 100 ∧ q.bandwidth ≤ 18446744073709551615 ∧ q.availability ≥ 3 ∧ q.maxGap ≤ 100
    · rw [if_pos h2]
      refine ⟨by simp [h1], by simp [h1, h2.1, h2.2.2.1, h2.2.2.2], ?_⟩
      simp only [reduceCtorEq, false_iff]; omega
    · rw [if_neg h2]
      refine ⟨by simp [h1], ?_, by simp only [true_iff]; omega⟩
      simp only [reduceCtorEq, false_iff]; omega

/-- C46 (partial: only among requests with the same bandwidth). A stricter request never gets a lower class. -/
theorem C46_monotone_partial (q r : Spec) (h : AtLeast q r) (hb : q.bandwidth = r.bandwidth) :
    (specToCube r).val ≤ (specToCube q).val := by
  obtain ⟨h1, h2, h3, h4⟩ := h
  rw [specToCube_eq, specToCube_eq]
  split
  · rw [if_pos (by omega)]; simp [Cube.val]
  · split
    · split
      · simp [Cube.val]
      · rw [if_pos (by omega)]; simp [Cube.val]
    · simp [Cube.val]

/-- C46 fails in full: asking for more bandwidth moves a request from the voice class to the lower video class. -/
theorem C46_monotone_violated : ∃ q r : Spec, q.WF ∧ r.WF ∧ AtLeast q r ∧ (specToCube q).val < (specToCube r).val :=
  ⟨{ voice with bandwidth := 100001 }, voice, by decide, by decide, by decide, by decide⟩

/-- C46 fails in full: the class chosen need not be as good as requested (10 ms requested, voice class with 50 ms assigned). -/
theorem C46_as_good_violated : ∃ q : Spec, q.WF ∧ ¬ Satisfies (advertised (specToCube q)) q :=
  ⟨{ voice with delay := 10 }, by decide, by decide⟩

/-- C46 (partial: bandwidth only). A request placed in the voice or video class gets at least its bandwidth. -/
theorem C46_bandwidth_partial (q : Spec) (hc : specToCube q ≠ .be) : (advertised (specToCube q)).bandwidth ≥ q.bandwidth := by
  unfold specToCube at *
  split at hc
  · rename_i h; rw [if_pos h]; exact h.2.1
  · rename_i h
    rw [if_neg h]
    split at hc
    · rename_i h2; rw [if_pos h2]; exact h2.2.1
    · simp at hc

/-- C46. The predefined requests get their own class. -/
theorem C46_predefined : ∀ c, specToCube (advertised c) = c := by
  intro c; cases c <;> decide

/-- Non-vacuity. -/
example : voice.WF ∧ specToCube { voice with delay := 51 } = .video ∧ AtLeast voice { voice with delay := 51 } := by decide

end Ouro.Qoscube
