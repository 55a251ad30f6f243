import Verif.Model.Time

/-!
# C13 — time arithmetic

Full property: results are normalised and exact; `ts_diff_us`/`ms` are the exact difference truncated to the unit; the `tv_*`
variants likewise. The truncation claim is false when the fractional parts have the opposite sign of the seconds difference
(`C13_diff_us_truncation_violated`); what holds is an error of less than one unit. `tv_diff_us`/`tv_diff_ms` divide by the
wrong unit (`C13_tv_diff_violated`).
-/

namespace Ouro.Time

/-- The instant denoted by a timespec, in nanoseconds. -/
def ns (t : Timespec) : Int := t.sec * 1000000000 + t.nsec
/-- The instant denoted by a timeval, in microseconds. -/
def us (t : Timeval) : Int := t.sec * 1000000 + t.usec
/-- Normalised timespec. -/
def Norm (t : Timespec) : Prop := 0 ≤ t.nsec ∧ t.nsec < 1000000000
/-- Normalised timeval. -/
def NormV (t : Timeval) : Prop := 0 ≤ t.usec ∧ t.usec < 1000000

instance (t : Timespec) : Decidable (Norm t) := inferInstanceAs (Decidable (_ ∧ _))
instance (t : Timeval) : Decidable (NormV t) := inferInstanceAs (Decidable (_ ∧ _))

/-- C division in terms of floor division. -/
theorem tdiv_cases (x k : Int) : (0 ≤ x ∧ x.tdiv k = x / k) ∨ (x < 0 ∧ x.tdiv k = -(-x / k)) := by
  by_cases h : 0 ≤ x
  · exact Or.inl ⟨h, Int.tdiv_eq_ediv_of_nonneg h⟩
  · refine Or.inr ⟨by omega, ?_⟩
    have := Int.tdiv_eq_ediv_of_nonneg (a := -x) (b := k) (by omega)
    rw [Int.neg_tdiv] at this
    omega

theorem carry_spec (unit : Int) (hu : 0 < unit) (sec sub : Int) (h : 0 ≤ sub) :
    let r := carry unit hu sec sub
    r.1 * unit + r.2 = sec * unit + sub ∧ 0 ≤ r.2 ∧ r.2 < unit := by
  induction sec, sub using carry.induct unit hu with
  | case1 sec sub hge ih =>
    rw [carry, dif_pos hge]
    have := ih (by omega)
    refine ⟨?_, this.2⟩
    rw [this.1, Int.add_mul]
    omega
  | case2 sec sub hlt =>
    rw [carry, dif_neg hlt]
    exact ⟨rfl, h, by omega⟩

theorem borrow_spec (unit : Int) (hu : 0 < unit) (sec sub : Int) (h : sub < unit) :
    let r := borrow unit hu sec sub
    r.1 * unit + r.2 = sec * unit + sub ∧ 0 ≤ r.2 ∧ r.2 < unit := by
  induction sec, sub using borrow.induct unit hu with
  | case1 sec sub hlt ih =>
    rw [borrow, dif_pos hlt]
    have := ih (by omega)
    refine ⟨?_, this.2⟩
    rw [this.1, Int.sub_mul]
    omega
  | case2 sec sub hge =>
    rw [borrow, dif_neg hge]
    exact ⟨rfl, by omega, h⟩

/-- C13. `ts_add` is exact and normalised; the operands need only have non-negative nanoseconds. -/
theorem C13_ts_add (t i : Timespec) (ht : 0 ≤ t.nsec) (hi : 0 ≤ i.nsec) :
    Norm (tsAdd t i) ∧ ns (tsAdd t i) = ns t + ns i := by
  have := carry_spec BILLION (by decide) (t.sec + i.sec) (t.nsec + i.nsec) (by omega)
  simp only [BILLION] at this
  refine ⟨⟨this.2.1, this.2.2⟩, ?_⟩
  simp only [ns, tsAdd, BILLION]
  rw [this.1]; omega

/-- C13. `ts_diff` is exact and normalised for normalised operands. -/
theorem C13_ts_diff (t i : Timespec) (ht : Norm t) (hi : Norm i) :
    Norm (tsDiff t i) ∧ ns (tsDiff t i) = ns t - ns i := by
  obtain ⟨h1, h2⟩ := ht
  obtain ⟨h3, h4⟩ := hi
  have := borrow_spec BILLION (by decide) (t.sec - i.sec) (t.nsec - i.nsec) (by simp only [BILLION]; omega)
  simp only [BILLION] at this
  refine ⟨⟨this.2.1, this.2.2⟩, ?_⟩
  simp only [ns, tsDiff, BILLION]
  rw [this.1]; omega

/-- C13. `tv_add` is exact and normalised. -/
theorem C13_tv_add (t i : Timeval) (ht : 0 ≤ t.usec) (hi : 0 ≤ i.usec) :
    NormV (tvAdd t i) ∧ us (tvAdd t i) = us t + us i := by
  have := carry_spec MILLION (by decide) (t.sec + i.sec) (t.usec + i.usec) (by omega)
  simp only [MILLION] at this
  refine ⟨⟨this.2.1, this.2.2⟩, ?_⟩
  simp only [us, tvAdd, MILLION]
  rw [this.1]; omega

/-- C13. `tv_diff` is exact and normalised. -/
theorem C13_tv_diff (t i : Timeval) (ht : NormV t) (hi : NormV i) :
    NormV (tvDiff t i) ∧ us (tvDiff t i) = us t - us i := by
  obtain ⟨h1, h2⟩ := ht
  obtain ⟨h3, h4⟩ := hi
  have := borrow_spec MILLION (by decide) (t.sec - i.sec) (t.usec - i.usec) (by simp only [MILLION]; omega)
  simp only [MILLION] at this
  refine ⟨⟨this.2.1, this.2.2⟩, ?_⟩
  simp only [us, tvDiff, MILLION]
  rw [this.1]; omega

/-- C13. `ts_diff_ns` is the exact difference. -/
theorem C13_ts_diff_ns (t0 tx : Timespec) : tsDiffNs t0 tx = ns tx - ns t0 := by
  simp only [tsDiffNs, ns, BILLION]; omega

/-- C13 (partial). `ts_diff_us` and `ts_diff_ms` are off by less than one unit from the exact difference. -/
theorem C13_ts_diff_units_partial (t0 tx : Timespec) :
    (-1000 < tsDiffUs t0 tx * 1000 - (ns tx - ns t0) ∧ tsDiffUs t0 tx * 1000 - (ns tx - ns t0) < 1000) ∧
    (-1000000 < tsDiffMs t0 tx * 1000000 - (ns tx - ns t0) ∧ tsDiffMs t0 tx * 1000000 - (ns tx - ns t0) < 1000000) := by
  simp only [tsDiffUs, tsDiffMs, ns, MILLION]
  have h1 := tdiv_cases (tx.nsec - t0.nsec) 1000
  have h2 := tdiv_cases (tx.nsec - t0.nsec) 1000000
  omega

/-- C13 (partial). They are the exact difference truncated when seconds and nanoseconds do not pull in opposite directions. -/
theorem C13_ts_diff_truncates_partial (t0 tx : Timespec)
    (h : (t0.sec ≤ tx.sec ∧ t0.nsec ≤ tx.nsec) ∨ (tx.sec ≤ t0.sec ∧ tx.nsec ≤ t0.nsec)) :
    tsDiffUs t0 tx = (ns tx - ns t0).tdiv 1000 ∧ tsDiffMs t0 tx = (ns tx - ns t0).tdiv 1000000 := by
  simp only [tsDiffUs, tsDiffMs, ns, MILLION]
  have h1 := tdiv_cases (tx.nsec - t0.nsec) 1000
  have h2 := tdiv_cases (tx.nsec - t0.nsec) 1000000
  have h3 := tdiv_cases (tx.sec * 1000000000 + tx.nsec - (t0.sec * 1000000000 + t0.nsec)) 1000
  have h4 := tdiv_cases (tx.sec * 1000000000 + tx.nsec - (t0.sec * 1000000000 + t0.nsec)) 1000000
  omega

/-- The truncation claim fails for normalised timestamps: 999999999 ns are reported as 1000000 us and 1000 ms. -/
theorem C13_diff_us_truncation_violated : ∃ t0 tx, Norm t0 ∧ Norm tx ∧
    tsDiffUs t0 tx ≠ (ns tx - ns t0).tdiv 1000 ∧ tsDiffMs t0 tx ≠ (ns tx - ns t0).tdiv 1000000 :=
  ⟨⟨0, 1⟩, ⟨1, 0⟩, by decide, by decide, by decide, by decide⟩

/-- `tv_diff_us` and `tv_diff_ms` use the nanosecond divisors on microseconds: a difference of 500000 us is reported as 500 us
and 0 ms. -/
theorem C13_tv_diff_violated : ∃ t0 tx, NormV t0 ∧ NormV tx ∧ us tx - us t0 = 500000 ∧
    tvDiffUs t0 tx = 500 ∧ tvDiffMs t0 tx = 0 :=
  ⟨⟨0, 0⟩, ⟨0, 500000⟩, by decide, by decide, by decide, by decide, by decide⟩

/-- ... and this is so for every pair within the same second: the result is 1000 times too small. -/
theorem C13_tv_diff_us_scale (t0 tx : Timeval) (h : t0.sec = tx.sec) : tvDiffUs t0 tx = (us tx - us t0).tdiv 1000 := by
  simp only [tvDiffUs, us, h]
  rw [show tx.sec * 1000000 + tx.usec - (tx.sec * 1000000 + t0.usec) = tx.usec - t0.usec by omega]
  omega

/-- C13. The initialisers denote the intended instant and are normalised for non-negative arguments. -/
theorem C13_init (x : Int) (hx : 0 ≤ x) :
    (Norm (initMs x) ∧ ns (initMs x) = x * 1000000) ∧ (Norm (initUs x) ∧ ns (initUs x) = x * 1000) ∧
    (Norm (initNs x) ∧ ns (initNs x) = x) ∧ (Norm (initS x) ∧ ns (initS x) = x * 1000000000) := by
  simp only [Norm, ns, initMs, initUs, initNs, initS, MILLION, BILLION, Int.tdiv_eq_ediv_of_nonneg hx,
    Int.tmod_eq_emod_of_nonneg hx]
  omega

/-- C13. Converting a timeval to a timespec and back is the identity, and keeps the instant. -/
theorem C13_tv_ts_round_trip (t : Timeval) (h : NormV t) :
    tsToTv (tvToTs t) = t ∧ Norm (tvToTs t) ∧ ns (tvToTs t) = us t * 1000 := by
  obtain ⟨h1, h2⟩ := h
  refine ⟨?_, ?_, ?_⟩
  · cases t; simp only [tsToTv, tvToTs, Timeval.mk.injEq, true_and] at *; exact Int.mul_tdiv_cancel _ (by decide)
  · simp only [Norm, tvToTs]; omega
  · simp only [ns, us, tvToTs]; omega

/-- Non-vacuity: carries and borrows happen. -/
example : tsAdd ⟨3, 999999999⟩ ⟨1, 999999999⟩ = ⟨5, 999999998⟩ ∧ tsDiff ⟨3, 0⟩ ⟨1, 1⟩ = ⟨1, 999999999⟩ := by decide +kernel

end Ouro.Time
