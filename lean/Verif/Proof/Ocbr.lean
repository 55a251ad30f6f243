import Verif.Proof.Tac
import Verif.Spec.Ocbr

/-!
# Proofs for C84: the server of ocbr
-/

namespace Ouro.Ocbr

open Oping (Time diffUs)

theorem signal_same (l : Bool) (s : St) : (s.signal l).slots = s.slots ∧ (s.signal l).index = s.index ∧ (s.signal l).count = s.count ∧ (s.signal l).busy = s.busy ∧
    (s.signal l).done = s.done ∧ (s.signal l).next = s.next := by
  unfold St.signal
  split
  · simp
  · split <;> simp

theorem signal_threads (l : Bool) (s : St) : (s.signal l).ready + (s.signal l).waiting = s.ready + s.waiting ∧ s.ready ≤ (s.signal l).ready ∧
    ((s.signal l).lst = .wait → s.lst = .wait ∧ 0 < s.waiting) ∧ ((s.signal l).lst = .accept → s.lst = .accept) ∧
    (s.lst ≠ .wait → 0 < s.ready + s.waiting → 0 < (s.signal l).ready) := by
  unfold St.signal
  split
  · rename_i h
    refine ⟨rfl, le_refl _, ?_, ?_, ?_⟩
    · intro h'; cases h'
    · intro h'; cases h'
    · intro h'; exact absurd h.1 h'
  · rename_i h
    split
    · refine ⟨by dsimp only; omega, by dsimp only; omega, fun h' => ⟨h', by assumption⟩, fun h' => h', fun _ _ => by dsimp only; omega⟩
    · rename_i hw
      refine ⟨rfl, le_refl _, ?_, fun h' => h', fun _ _ => by omega⟩
      intro h'
      exact absurd ⟨h', Or.inr (by omega)⟩ h

/-- One for a flow that workers can see. -/
def one : Option Nat → Nat
  | none => 0
  | some _ => 1

structure Inv (s : St) : Prop where
  len : s.slots.length = 10
  idx : s.index < 10
  cnt : s.count + s.done.length = s.next
  nodup : (s.busy ++ s.done).Nodup
  lt : ∀ k ∈ s.busy ++ s.done, k < s.next
  slot : ∀ k, s.slot = some k → k + 1 = s.next ∧ k ∉ s.busy ++ s.done
  thr : s.ready + s.waiting + s.busy.length = 10
  acc : s.lst = .accept → s.count < 10
  max : s.count ≤ 10
  le : s.busy.length + one s.slot ≤ s.count
  rdy : s.slot ≠ none → 0 < s.ready

theorem inv_init : Inv .init := by
  refine ⟨rfl, by decide, rfl, by decide, by decide, ?_, rfl, by decide, by decide, by decide, by decide⟩
  intro k h
  simp [St.slot, St.init, threads] at h

theorem slot_of (s : St) (h : s.index < s.slots.length) : s.slot = s.slots[s.index] := by
  unfold St.slot
  rw [List.getD_eq_getElem _ _ h]

theorem inv_listen {s t : St} (h : Inv s) (hs : listen s = some t) : Inv t := by
  unfold listen at hs
  split at hs
  · cases hs
    refine ⟨h.len, h.idx, h.cnt, h.nodup, h.lt, h.slot, h.thr, ?_, h.max, h.le, h.rdy⟩
    intro ha
    have hm := h.max
    dsimp only at ha ⊢
    by_contra hc
    have hc' : s.count = threads := by unfold threads; omega
    rw [if_pos hc'] at ha
    cases ha
  · cases hs

theorem slot_accept {s t : St} (h : Inv s) (hs : accept s = some t) : t.slot = some s.next ∧ t.next = s.next + 1 ∧ t.busy = s.busy ∧ t.done = s.done ∧ t.count = s.count + 1 ∧
    t.lst = .check := by
  unfold accept at hs
  split at hs
  · cases hs
    obtain ⟨h1, h2, h3, h4, h5, h6⟩ := signal_same false
      { s with count := s.count + 1, index := (s.index + 1) % threads, slots := s.slots.set ((s.index + 1) % threads) (some s.next), next := s.next + 1, lst := .check }
    refine ⟨?_, h6, h4, h5, h3, ?_⟩
    · unfold St.slot
      rw [h1, h2]
      have : (s.index + 1) % threads < s.slots.length := by
        rw [h.len]
        exact Nat.mod_lt _ (by decide)
      simp [this]
    · unfold St.signal
      simp only [reduceCtorEq, false_and, if_false]
      split <;> rfl
  · cases hs

theorem inv_accept {s t : St} (h : Inv s) (hs : accept s = some t) : Inv t := by
  obtain ⟨a1, a2, a3, a4, a5, a6⟩ := slot_accept h hs
  have hacc : s.lst = .accept := by
    unfold accept at hs
    split at hs
    · assumption
    · cases hs
  have hle := h.le
  have hthr := h.thr
  have hmax := h.acc hacc
  have hcnt := h.cnt
  obtain ⟨u, hu, hts, hti⟩ : ∃ u : St, t = u.signal false ∧ u.lst = .check ∧ u.slots.length = 10 ∧ u.index < 10 ∧ u.ready = s.ready ∧ u.waiting = s.waiting ∧ u.slots = t.slots ∧ u.index = t.index := by
    unfold accept at hs
    rw [if_pos hacc] at hs
    cases hs
    refine ⟨_, rfl, rfl, ?_, Nat.mod_lt _ (by decide), rfl, rfl, ?_, ?_⟩
    · simpa using h.len
    · exact (signal_same _ _).1.symm
    · exact (signal_same _ _).2.1.symm
  obtain ⟨hl, hi, hr, hw, e1, e2⟩ := hti
  obtain ⟨s1, s2, s3, s4, s5⟩ := signal_threads false u
  rw [← hu] at s1 s2 s3 s4 s5
  refine ⟨by rw [← e1]; exact hl, by rw [← e2]; exact hi, by rw [a5, a4, a2]; omega, by rw [a3, a4]; exact h.nodup, ?_, ?_, by rw [a3]; omega, ?_, by rw [a5]; omega, ?_, ?_⟩
  · rw [a3, a4, a2]
    intro k hk
    have := h.lt k hk
    omega
  · intro k hk
    rw [a1] at hk
    cases hk
    rw [a2, a3, a4]
    exact ⟨rfl, fun hk => by have := h.lt _ hk; omega⟩
  · rw [a6]
    intro hc
    cases hc
  · rw [a1, a3, a5]
    dsimp only [one]
    omega
  · intro _
    apply s5
    · rw [hts]; decide
    · omega

theorem slot_look {s t : St} (h : Inv s) (hs : look s = some t) : t.next = s.next ∧ t.done = s.done ∧ t.count = s.count ∧ t.lst = s.lst ∧ t.slot = none ∧
    t.busy = s.slot.toList ++ s.busy ∧ t.ready + 1 = s.ready ∧ t.slots.length = 10 ∧ t.index < 10 ∧ t.waiting = s.waiting + 1 - one s.slot := by
  unfold look at hs
  split at hs
  · rename_i hr
    cases hc : s.slot with
    | none =>
      rw [hc] at hs
      cases hs
      refine ⟨rfl, rfl, rfl, rfl, hc, rfl, by dsimp only; omega, h.len, h.idx, rfl⟩
    | some k =>
      rw [hc] at hs
      cases hs
      refine ⟨rfl, rfl, rfl, rfl, ?_, rfl, by dsimp only; omega, by simpa using h.len, h.idx, rfl⟩
      unfold St.slot
      have : s.index < s.slots.length := by rw [h.len]; exact h.idx
      simp [this]
  · cases hs

theorem inv_look {s t : St} (h : Inv s) (hs : look s = some t) : Inv t := by
  obtain ⟨a1, a2, a3, a4, a5, a6, a7, a8, a9, a10⟩ := slot_look h hs
  have hthr := h.thr
  have hle := h.le
  refine ⟨a8, a9, by rw [a3, a2, a1]; exact h.cnt, ?_, ?_, (by rw [a5]; intro k hk; cases hk), ?_, by rw [a4, a3]; exact h.acc, by rw [a3]; exact h.max, ?_, by rw [a5]; intro hk; exact absurd rfl hk⟩
  · rw [a6, a2]
    cases hc : s.slot with
    | none => exact h.nodup
    | some k =>
      have := (h.slot k hc).2
      exact List.nodup_cons.2 ⟨this, h.nodup⟩
  · rw [a6, a2, a1]
    intro k hk
    cases hc : s.slot with
    | none =>
      rw [hc] at hk
      exact h.lt k hk
    | some j =>
      rw [hc] at hk
      rcases List.mem_cons.1 hk with rfl | hk
      · have := (h.slot k hc).1
        omega
      · exact h.lt k hk
  · rw [a6, a10]
    cases hc : s.slot with
    | none => simp [one]; omega
    | some k => simp [one]; omega
  · rw [a6, a5, a3]
    cases hc : s.slot with
    | none => rw [hc] at hle; simpa [one] using hle
    | some k => rw [hc] at hle; simp [one] at hle ⊢; omega

theorem finish_eq {s t : St} {k : Nat} {l : Bool} (hs : finish k l s = some t) : k ∈ s.busy ∧ t.slots = s.slots ∧ t.index = s.index ∧ t.slot = s.slot ∧ t.count = s.count - 1 ∧
    t.busy = s.busy.erase k ∧ t.done = k :: s.done ∧ t.next = s.next ∧ t.ready + t.waiting = s.ready + s.waiting + 1 ∧ 0 < t.ready ∧
    (t.lst = .wait → s.lst = .wait ∧ 0 < s.waiting) ∧ (t.lst = .accept → s.lst = .accept) := by
  unfold finish at hs
  split at hs
  · rename_i hk
    cases hs
    obtain ⟨h1, h2, h3, h4, h5, h6⟩ := signal_same l { s with count := s.count - 1, busy := s.busy.erase k, done := k :: s.done }
    obtain ⟨s1, s2, s3, s4, -⟩ := signal_threads l { s with count := s.count - 1, busy := s.busy.erase k, done := k :: s.done }
    refine ⟨hk, h1, h2, ?_, h3, h4, h5, h6, ?_, ?_, s3, s4⟩
    · unfold St.slot
      dsimp only
      rw [h1, h2]
    · dsimp only at s1 ⊢
      omega
    · dsimp only
      omega
  · cases hs

theorem inv_finish {s t : St} {k : Nat} {l : Bool} (h : Inv s) (hs : finish k l s = some t) : Inv t := by
  obtain ⟨hk, a1, a2, a3, a4, a5, a6, a7, a8, a9, a10, a11⟩ := finish_eq hs
  have hthr := h.thr
  have hle := h.le
  have hcnt := h.cnt
  have hmax := h.max
  have hlen : (s.busy.erase k).length + 1 = s.busy.length := by
    rw [List.length_erase_of_mem hk]
    have := List.length_pos_of_mem hk
    omega
  have hp : (s.busy.erase k ++ k :: s.done).Perm (s.busy ++ s.done) := by
    refine List.perm_middle.trans ?_
    exact ((List.perm_cons_erase hk).symm.append_right s.done)
  refine ⟨by rw [a1]; exact h.len, by rw [a2]; exact h.idx, ?_, ?_, ?_, ?_, by rw [a5]; omega, ?_, by omega, by rw [a5, a3, a4]; omega, fun _ => a9⟩
  · rw [a4, a6, a7]
    simp only [List.length_cons]
    have := List.length_pos_of_mem hk
    omega
  · rw [a5, a6]
    exact hp.nodup_iff.2 h.nodup
  · rw [a5, a6, a7]
    intro j hj
    exact h.lt j (hp.mem_iff.1 hj)
  · rw [a3, a5, a6, a7]
    intro j hj
    have := h.slot j hj
    exact ⟨this.1, fun hm => this.2 (hp.mem_iff.1 hm)⟩
  · intro ha
    have := h.acc (a11 ha)
    omega

theorem inv_step {s t : St} {a : Act} (h : Inv s) (hs : step s a = some t) : Inv t := by
  cases a with
  | listen => exact inv_listen h hs
  | accept => exact inv_accept h hs
  | look => exact inv_look h hs
  | finish k l => exact inv_finish h hs
  | wakeL =>
    unfold step at hs
    dsimp only at hs
    split at hs
    · cases hs
      exact ⟨h.len, h.idx, h.cnt, h.nodup, h.lt, h.slot, h.thr, fun h' => (by cases h'), h.max, h.le, h.rdy⟩
    · cases hs
  | wakeW =>
    unfold step at hs
    dsimp only at hs
    split at hs
    · cases hs
      have := h.thr
      exact ⟨h.len, h.idx, h.cnt, h.nodup, h.lt, h.slot, by dsimp only; omega, h.acc, h.max, h.le, fun _ => by dsimp only; omega⟩
    · cases hs

theorem inv_run (l : List Act) : ∀ s t, Inv s → run l s = some t → Inv t := by
  induction l with
  | nil =>
    intro s t h hs
    cases hs
    exact h
  | cons a l ih =>
    intro s t h hs
    unfold run at hs
    obtain ⟨u, hu, hr⟩ := Option.bind_eq_some_iff.1 hs
    exact ih u t (inv_step h hu) hr

/-- What the other steps change of what `Kept` looks at. -/
theorem step_quiet {s t : St} {a : Act} (hs : step s a = some t) (ha : a = .listen ∨ a = .wakeL ∨ a = .wakeW) :
    t.slot = s.slot ∧ t.busy = s.busy ∧ t.done = s.done ∧ t.next = s.next ∧ t.count = s.count := by
  rcases ha with rfl | rfl | rfl
  · simp only [step, listen] at hs
    split at hs
    · cases hs
      exact ⟨rfl, rfl, rfl, rfl, rfl⟩
    · cases hs
  · simp only [step] at hs
    split at hs
    · cases hs
      exact ⟨rfl, rfl, rfl, rfl, rfl⟩
    · cases hs
  · simp only [step] at hs
    split at hs
    · cases hs
      exact ⟨rfl, rfl, rfl, rfl, rfl⟩
    · cases hs

/-- A flow that is not kept is never kept again. -/
theorem lost_step {s t : St} {a : Act} (h : Inv s) (hs : step s a = some t) {k : Nat} (hk : k < s.next) (hl : ¬ Kept s k) : k < t.next ∧ ¬ Kept t k := by
  unfold Kept at *
  push Not at hl
  obtain ⟨l1, l2, l3⟩ := hl
  cases a with
  | listen | wakeL | wakeW =>
    obtain ⟨q1, q2, q3, q4, -⟩ := step_quiet hs (by simp)
    rw [q1, q2, q3, q4]
    exact ⟨hk, by tauto⟩
  | accept =>
    obtain ⟨a1, a2, a3, a4, -, -⟩ := slot_accept h hs
    rw [a1, a2, a3, a4]
    refine ⟨by omega, ?_⟩
    rintro (hc | hc | hc)
    · exact l1 hc
    · exact l2 hc
    · cases hc
      omega
  | look =>
    obtain ⟨a1, a2, -, -, a5, a6, -⟩ := slot_look h hs
    rw [a1, a2, a5, a6]
    refine ⟨hk, ?_⟩
    rintro (hc | hc | hc)
    · rcases List.mem_append.1 hc with hc | hc
      · cases hx : s.slot with
        | none => rw [hx] at hc; cases hc
        | some j =>
          rw [hx] at hc
          simp at hc
          subst hc
          exact l3 hx
      · exact l1 hc
    · exact l2 hc
    · cases hc
  | finish j l =>
    obtain ⟨hj, -, -, a3, -, a5, a6, a7, -⟩ := finish_eq hs
    rw [a3, a5, a6, a7]
    refine ⟨hk, ?_⟩
    rintro (hc | hc | hc)
    · exact l1 (List.mem_of_mem_erase hc)
    · rcases List.mem_cons.1 hc with rfl | hc
      · exact l1 hj
      · exact l2 hc
    · exact l3 hc

theorem lost_run (l : List Act) : ∀ s t, Inv s → run l s = some t → ∀ k < s.next, ¬ Kept s k → ¬ Kept t k := by
  induction l with
  | nil =>
    intro s t _ hs k _ hl
    cases hs
    exact hl
  | cons a l ih =>
    intro s t h hs k hk hl
    unfold run at hs
    obtain ⟨u, hu, hr⟩ := Option.bind_eq_some_iff.1 hs
    have := lost_step h hu hk hl
    exact ih u t (inv_step h hu) hr k this.1 this.2

/-- What also holds when each flow is taken before the next is accepted. -/
structure Good (s : St) : Prop where
  inv : Inv s
  kept : ∀ k < s.next, Kept s k
  eq : s.busy.length + one s.slot = s.count
  wait : s.lst = .wait → s.count = 10

theorem good_init : Good .init := ⟨inv_init, fun k h => absurd h (Nat.not_lt_zero k), rfl, by decide⟩

theorem good_step {s t : St} {a : Act} (h : Good s) (hs : step s a = some t) (hp : a = .accept → s.slot = none) : Good t := by
  have hi := inv_step h.inv hs
  have heq := h.eq
  cases a with
  | listen =>
    obtain ⟨q1, q2, q3, q4, q5⟩ := step_quiet hs (by simp)
    refine ⟨hi, ?_, by rw [q1, q2, q5]; exact heq, ?_⟩
    · unfold Kept
      rw [q1, q2, q3, q4]
      exact h.kept
    · intro hw
      simp only [step, listen] at hs
      split at hs
      · cases hs
        dsimp only at hw ⊢
        split at hw
        · assumption
        · cases hw
      · cases hs
  | wakeL =>
    obtain ⟨q1, q2, q3, q4, q5⟩ := step_quiet hs (by simp)
    refine ⟨hi, ?_, by rw [q1, q2, q5]; exact heq, ?_⟩
    · unfold Kept
      rw [q1, q2, q3, q4]
      exact h.kept
    · intro hw
      simp only [step] at hs
      split at hs
      · cases hs
        cases hw
      · cases hs
  | wakeW =>
    obtain ⟨q1, q2, q3, q4, q5⟩ := step_quiet hs (by simp)
    refine ⟨hi, ?_, by rw [q1, q2, q5]; exact heq, ?_⟩
    · unfold Kept
      rw [q1, q2, q3, q4]
      exact h.kept
    · intro hw
      rw [q5]
      simp only [step] at hs
      split at hs
      · cases hs
        exact h.wait hw
      · cases hs
  | accept =>
    obtain ⟨a1, a2, a3, a4, a5, a6⟩ := slot_accept h.inv hs
    have hn := hp rfl
    refine ⟨hi, ?_, ?_, by rw [a6]; intro hc; cases hc⟩
    · unfold Kept
      rw [a1, a2, a3, a4]
      intro k hk
      by_cases hx : k = s.next
      · exact Or.inr (Or.inr (by rw [hx]))
      · have := h.kept k (by omega)
        unfold Kept at this
        rw [hn] at this
        tauto
    · rw [a1, a3, a5]
      rw [hn] at heq
      dsimp only [one] at *
      omega
  | look =>
    obtain ⟨a1, a2, a3, a4, a5, a6, -⟩ := slot_look h.inv hs
    refine ⟨hi, ?_, ?_, by rw [a4, a3]; exact h.wait⟩
    · unfold Kept
      rw [a1, a2, a5, a6]
      intro k hk
      rcases h.kept k hk with hc | hc | hc
      · exact Or.inl (List.mem_append_right _ hc)
      · exact Or.inr (Or.inl hc)
      · rw [hc]
        exact Or.inl (by simp)
    · rw [a6, a5, a3]
      cases hc : s.slot with
      | none => rw [hc] at heq; simpa [one] using heq
      | some k => rw [hc] at heq; simp [one] at heq ⊢; omega
  | finish j l =>
    obtain ⟨hj, -, -, a3, a4, a5, a6, a7, -, -, a10, -⟩ := finish_eq hs
    have hlen : (s.busy.erase j).length + 1 = s.busy.length := by
      rw [List.length_erase_of_mem hj]
      have := List.length_pos_of_mem hj
      omega
    refine ⟨hi, ?_, by rw [a5, a3, a4]; omega, ?_⟩
    · unfold Kept
      rw [a3, a5, a6, a7]
      intro k hk
      rcases h.kept k hk with hc | hc | hc
      · by_cases hx : k = j
        · exact Or.inr (Or.inl (by rw [hx]; simp))
        · exact Or.inl ((List.mem_erase_of_ne hx).2 hc)
      · exact Or.inr (Or.inl (List.mem_cons_of_mem _ hc))
      · exact Or.inr (Or.inr hc)
    · intro hw
      exfalso
      obtain ⟨w1, w2⟩ := a10 hw
      have hc := h.wait w1
      have hthr := h.inv.thr
      cases hx : s.slot with
      | none =>
        rw [hx] at heq
        simp [one] at heq
        omega
      | some k =>
        have := h.inv.rdy (by rw [hx]; simp)
        rw [hx] at heq
        simp [one] at heq
        omega

theorem good_run (l : List Act) : ∀ s t, Good s → Prompt l s → run l s = some t → Good t := by
  induction l with
  | nil =>
    intro s t h _ hs
    cases hs
    exact h
  | cons a l ih =>
    intro s t h hp hs
    unfold run at hs
    obtain ⟨u, hu, hr⟩ := Option.bind_eq_some_iff.1 hs
    exact ih u t (good_step h hu hp.1) (hp.2 u hu) hr

/-- What the reports add up to, from any state of a flow. -/
theorem handle_sum (interval timeout : Int) (l : List Read) : ∀ f, (handle interval timeout l f).2 = true →
    ∃ pre r post, l = pre ++ r :: post ∧ (handle interval timeout pre f).2 = false ∧ (handle interval timeout (pre ++ [r]) f).2 = true ∧
    ((handle interval timeout l f).1.map Report.packets).sum = f.packets - f.packetsIntv + (lengths (pre ++ [r])).length ∧
    ((handle interval timeout l f).1.map Report.bytes).sum = f.bytes - f.bytesIntv + (lengths (pre ++ [r])).sum := by
  have hread : ∀ (f : Flow) (r : Read), ((f.read r).packets : Int) = f.packets + (lengths [r]).length ∧ ((f.read r).bytes : Int) = f.bytes + (lengths [r]).sum ∧
      (f.read r).packetsIntv = f.packetsIntv ∧ (f.read r).bytesIntv = f.bytesIntv := by
    intro f r
    unfold Flow.read lengths
    by_cases h : 0 < r.count
    · simp [h]
      omega
    · simp [h]
  have hcons : ∀ (r : Read) (l : List Read), lengths (r :: l) = lengths [r] ++ lengths l := by
    intro r l
    unfold lengths
    rw [← List.filter_append]
    rfl
  induction l with
  | nil =>
    intro f h
    cases h
  | cons r l ih =>
    intro f h
    obtain ⟨r1, r2, r3, r4⟩ := hread f r
    have hcs : ∀ m, handle interval timeout (r :: m) f = if timeout * 1000000 < diffUs (f.read r).alive r.now then ([(f.read r).report r.now], true)
        else if diffMs r.now (f.read r).ivEnd < 0 then
          ((f.read r).report r.now :: (handle interval timeout m ((f.read r).nextIv interval)).1, (handle interval timeout m ((f.read r).nextIv interval)).2)
        else handle interval timeout m (f.read r) := fun _ => rfl
    rw [hcs l] at h ⊢
    split at h
    · rename_i hc
      refine ⟨[], r, l, rfl, rfl, by rw [List.nil_append, hcs, if_pos hc], ?_, ?_⟩
      · simp only [if_pos hc, List.map_cons, List.map_nil, List.sum_cons, List.sum_nil, Flow.report, List.nil_append]
        rw [r1, r3]
        ring
      · simp only [if_pos hc, List.map_cons, List.map_nil, List.sum_cons, List.sum_nil, Flow.report, List.nil_append]
        rw [r2, r4]
        ring
    · rename_i hc
      rw [if_neg hc]
      split at h
      · rename_i hd
        rw [if_pos hd]
        obtain ⟨pre, x, post, e, g1, g2, h1, h2⟩ := ih _ h
        refine ⟨r :: pre, x, post, by rw [e]; rfl, ?_, ?_, ?_, ?_⟩
        · rw [hcs, if_neg hc, if_pos hd]
          exact g1
        · rw [List.cons_append]
          rw [hcs, if_neg hc, if_pos hd]
          exact g2
        · rw [List.map_cons, List.sum_cons, h1, List.cons_append, hcons, List.length_append]
          simp only [Flow.report, Flow.nextIv]
          push_cast
          rw [r1, r3]
          ring
        · rw [List.map_cons, List.sum_cons, h2, List.cons_append, hcons, List.sum_append]
          simp only [Flow.report, Flow.nextIv]
          rw [r2, r4]
          ring
      · rename_i hd
        rw [if_neg hd]
        obtain ⟨pre, x, post, e, g1, g2, h1, h2⟩ := ih _ h
        refine ⟨r :: pre, x, post, by rw [e]; rfl, ?_, ?_, ?_, ?_⟩
        · rw [hcs, if_neg hc, if_neg hd]
          exact g1
        · rw [List.cons_append]
          rw [hcs, if_neg hc, if_neg hd]
          exact g2
        · rw [h1, List.cons_append, hcons, List.length_append, r1, r3]
          push_cast
          ring
        · rw [h2, List.cons_append, hcons, List.sum_append, r2, r4]
          ring

theorem handle_times (interval timeout : Int) (l : List Read) : ∀ f, f.ivEnd = addSec f.ivStart interval → ∀ (k : Nat) p, (handle interval timeout l f).1[k]? = some p →
    ∃ r ∈ l, p.us = diffUs (addSec f.ivStart (interval * k)) r.now ∧
    (k + 1 < (handle interval timeout l f).1.length → diffMs r.now (addSec f.ivStart (interval * (k + 1))) < 0) := by
  have hiv : ∀ (f : Flow) (r : Read), (f.read r).ivStart = f.ivStart ∧ (f.read r).ivEnd = f.ivEnd := by
    intro f r
    unfold Flow.read
    split <;> exact ⟨rfl, rfl⟩
  have h0 : ∀ t, addSec t (interval * ((0 : Nat) : Int)) = t := by
    intro t
    simp [addSec]
  induction l with
  | nil =>
    intro f _ k p hp
    simp [handle] at hp
  | cons r l ih =>
    intro f hf k p hp
    obtain ⟨i1, i2⟩ := hiv f r
    unfold handle at hp ⊢
    dsimp only at hp ⊢
    split at hp
    · rename_i hc
      cases k with
      | zero =>
        simp at hp
        refine ⟨r, by simp, ?_, ?_⟩
        · rw [← hp, h0, ← i1]
          rfl
        · intro hlt
          rw [if_pos hc] at hlt
          simp at hlt
      | succ k => simp at hp
    · rename_i hc
      rw [if_neg hc]
      split at hp
      · rename_i hd
        rw [if_pos hd]
        cases k with
        | zero =>
          simp at hp
          refine ⟨r, by simp, ?_, ?_⟩
          · rw [← hp, h0, ← i1]
            rfl
          · intro _
            rw [i2, hf] at hd
            simpa using hd
        | succ k =>
          rw [List.getElem?_cons_succ] at hp
          obtain ⟨x, hx, e1, e2⟩ := ih ((f.read r).nextIv interval) rfl k p hp
          have hst : ((f.read r).nextIv interval).ivStart = addSec f.ivStart interval := by
            rw [← hf, ← i2]
            rfl
          have hadd : ∀ n : Int, addSec (addSec f.ivStart interval) (interval * n) = addSec f.ivStart (interval * (n + 1)) := by
            intro n
            unfold addSec
            congr 1
            ring
          refine ⟨x, List.mem_cons_of_mem _ hx, ?_, ?_⟩
          · rw [e1, hst, hadd]
            push_cast
            rfl
          · intro hlt
            rw [List.length_cons] at hlt
            have := e2 (by omega)
            rw [hst, hadd] at this
            push_cast
            exact this
      · rename_i hd
        rw [if_neg hd]
        obtain ⟨x, hx, e1, e2⟩ := ih (f.read r) (by rw [i1, i2]; exact hf) k p hp
        rw [i1] at e1 e2
        exact ⟨x, List.mem_cons_of_mem _ hx, e1, e2⟩

theorem handle_stops (interval timeout : Int) (l : List Read) : ∀ f, (handle interval timeout l f).2 = true ↔
    ∃ pre r post, l = pre ++ r :: post ∧ timeout * 1000000 < diffUs (lastSeen f.alive (pre ++ [r])) r.now := by
  have halive : ∀ (f : Flow) (r : Read) (l : List Read), lastSeen f.alive (r :: l) = lastSeen (f.read r).alive l := by
    intro f r l
    simp only [lastSeen, Flow.read]
    split <;> rfl
  induction l with
  | nil =>
    intro f
    simp [handle]
  | cons r l ih =>
    intro f
    have key : (∃ pre x post, r :: l = pre ++ x :: post ∧ timeout * 1000000 < diffUs (lastSeen f.alive (pre ++ [x])) x.now) ↔
        timeout * 1000000 < diffUs (f.read r).alive r.now ∨ ∃ pre x post, l = pre ++ x :: post ∧ timeout * 1000000 < diffUs (lastSeen (f.read r).alive (pre ++ [x])) x.now := by
      constructor
      · rintro ⟨pre, x, post, e, h⟩
        cases pre with
        | nil =>
          rw [List.nil_append] at e h
          obtain ⟨rfl, rfl⟩ := List.cons.inj e
          rw [halive] at h
          exact Or.inl h
        | cons y pre =>
          rw [List.cons_append] at e h
          obtain ⟨rfl, rfl⟩ := List.cons.inj e
          rw [halive] at h
          exact Or.inr ⟨pre, x, post, rfl, h⟩
      · rintro (h | ⟨pre, x, post, rfl, h⟩)
        · refine ⟨[], r, l, rfl, ?_⟩
          rw [List.nil_append, halive]
          exact h
        · refine ⟨r :: pre, x, post, rfl, ?_⟩
          rw [List.cons_append, halive]
          exact h
    rw [key]
    unfold handle
    dsimp only
    split
    · rename_i hc
      simp [hc]
    · rename_i hc
      rw [or_iff_right hc]
      split
      · exact ih _
      · exact ih _

end Ouro.Ocbr
