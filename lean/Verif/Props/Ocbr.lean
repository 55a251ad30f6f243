import Verif.Proof.Ocbr

/-!
# C84: the server of ocbr
-/

namespace Ouro.Ocbr

/-- In every run, a flow is handled at most once, and only flows that were accepted are. -/
theorem C84_once (l : List Act) (s : St) (h : run l .init = some s) : (s.busy ++ s.done).Nodup ∧ ∀ k ∈ s.busy ++ s.done, k < s.next :=
  have hi := inv_run l _ _ inv_init h
  ⟨hi.nodup, hi.lt⟩

/-- At most ten flows are accepted and not finished, and the server counts them. -/
theorem C84_limit (l : List Act) (s : St) (h : run l .init = some s) : s.count = s.next - s.done.length ∧ s.done.length ≤ s.next ∧ s.next - s.done.length ≤ 10 ∧
    s.busy.length ≤ s.count := by
  have hi := inv_run l _ _ inv_init h
  have h1 := hi.cnt
  have h2 := hi.max
  have h3 := hi.le
  omega

/-- While a worker can see a flow some worker looks for it: wake-ups of workers are not lost. -/
theorem C84_handed_over (l : List Act) (s : St) (h : run l .init = some s) (k : Nat) (hk : s.slot = some k) : ∃ t, step s .look = some t ∧ k ∈ t.busy := by
  have hi := inv_run l _ _ inv_init h
  have hr := hi.rdy (by rw [hk]; simp)
  refine ⟨{ s with ready := s.ready - 1, slots := s.slots.set s.index none, busy := k :: s.busy }, by simp only [step, look, if_pos hr, hk], ?_⟩
  simp

/-- If workers are prompt no flow is lost. -/
theorem C84_served_partial (l : List Act) (s : St) (hp : Prompt l .init) (h : run l .init = some s) (k : Nat) (hk : k < s.next) : Kept s k :=
  (good_run l _ _ good_init hp h).kept k hk

/-- A flow that no worker has taken when the next is accepted is never handled, whatever happens then: it is neither read nor deallocated, and is counted for
ever. -/
theorem C84_served_violated (l : List Act) (s : St) (h : run l .init = some s) (k : Nat) (hk : s.slot = some k) (t : St) (ha : step s .accept = some t)
    (l' : List Act) (u : St) (hu : run l' t = some u) : k < u.next ∧ k ∉ u.busy ∧ k ∉ u.done := by
  have hi := inv_run l _ _ inv_init h
  have hit := inv_step hi ha
  obtain ⟨h1, h2⟩ := hi.slot k hk
  obtain ⟨a1, a2, a3, a4, -, -⟩ := slot_accept hi ha
  have hl : ¬ Kept t k := by
    unfold Kept
    rw [a1, a3, a4]
    rintro (hc | hc | hc)
    · exact h2 (List.mem_append_left _ hc)
    · exact h2 (List.mem_append_right _ hc)
    · cases hc
      omega
  have hlt : k < t.next := by omega
  have hn : ∀ l' t u, Inv t → run l' t = some u → t.next ≤ u.next := by
    intro l'
    induction l' with
    | nil =>
      intro t u _ hr
      cases hr
      exact le_refl _
    | cons a l' ih =>
      intro t u hit hr
      obtain ⟨v, hv, hr⟩ := Option.bind_eq_some_iff.1 hr
      refine le_trans ?_ (ih v u (inv_step hit hv) hr)
      cases a with
      | listen | wakeL | wakeW => exact (step_quiet hv (by simp)).2.2.2.1.ge
      | accept => rw [(slot_accept hit hv).2.1]; omega
      | look => exact (slot_look hit hv).1.ge
      | finish j b => exact (finish_eq hv).2.2.2.2.2.2.2.1.ge
  have := lost_run l' t u hit hu k hlt hl
  unfold Kept at this
  exact ⟨lt_of_lt_of_le hlt (hn l' t u hit hu), fun hc => this (Or.inl hc), fun hc => this (Or.inr (Or.inl hc))⟩

/-- If workers are prompt, the listener waits only while ten flows are open, and then one is handled: the server does not stop. -/
theorem C84_progress_partial (l : List Act) (s : St) (hp : Prompt l .init) (h : run l .init = some s) : ¬ Stuck s ∧ (s.lst = .wait → s.next - s.done.length = 10) := by
  have hg := good_run l _ _ good_init hp h
  have hc := hg.inv.cnt
  refine ⟨?_, fun hw => by have := hg.wait hw; omega⟩
  intro hs
  cases hl : s.lst with
  | check =>
    have := hs .listen _ (if_pos hl)
    simp at this
  | accept =>
    have := hs .accept _ (if_pos hl)
    simp at this
  | wait =>
    have h10 := hg.wait hl
    have he := hg.eq
    have hb : s.busy ≠ [] := by
      intro hb
      rw [hb, h10] at he
      cases hx : s.slot with
      | none => rw [hx] at he; simp [one] at he
      | some k => rw [hx] at he; simp [one] at he
    obtain ⟨k, ks, hk⟩ := List.exists_cons_of_ne_nil hb
    have := hs (.finish k true) _ (by simp only [step, finish]; rw [if_pos (by rw [hk]; simp)])
    simp at this

/-- Nine times: two flows are accepted before a worker looks, the second is handled; then one more is handled, and its worker wakes another worker, not the listener. -/
def stuckRun : List Act := List.replicate 10 .look ++
  ((List.range 9).map fun i => [.listen, .accept, .listen, .accept, .look, .look, .finish (2 * i + 1) false, .look, .look]).flatten ++
  [.listen, .accept, .listen, .look, .finish 18 false, .look, .look]

/-- The server can stop for good with no flow handled: nine flows were lost, the listener waits and so do all workers. -/
theorem C84_progress_violated : ∃ s, run stuckRun .init = some s ∧ Stuck s ∧ s.busy = [] ∧ s.waiting = 10 ∧ s.next = 19 ∧ s.done.length = 10 := by
  have h : run stuckRun .init = some ⟨[none, some 10, none, some 12, none, some 14, none, some 16, none, none], 9, 9, .wait, 0, 10, [],
      [18, 17, 15, 13, 11, 9, 7, 5, 3, 1], 19⟩ := by decide +kernel
  refine ⟨_, h, ?_, rfl, rfl, rfl, rfl⟩
  intro a t ht
  cases a with
  | listen => simp [step, listen] at ht
  | accept => simp [step, accept] at ht
  | look => simp [step, look] at ht
  | finish k l => simp [step, finish] at ht
  | wakeL => exact Or.inl rfl
  | wakeW => exact Or.inr rfl

/-- When a test has ended, the lines that were printed add up to the packets and bytes that were read until then. -/
theorem C84_report (interval timeout : Int) (start : Oping.Time) (l : List Read) (h : (handle interval timeout l (.init start interval)).2 = true) :
    ∃ pre r post, l = pre ++ r :: post ∧ (handle interval timeout pre (.init start interval)).2 = false ∧ (handle interval timeout (pre ++ [r]) (.init start interval)).2 = true ∧
    ((handle interval timeout l (.init start interval)).1.map Report.packets).sum = (lengths (pre ++ [r])).length ∧
    ((handle interval timeout l (.init start interval)).1.map Report.bytes).sum = (lengths (pre ++ [r])).sum := by
  obtain ⟨pre, r, post, e, g1, g2, h1, h2⟩ := handle_sum interval timeout l _ h
  refine ⟨pre, r, post, e, g1, g2, ?_, ?_⟩
  · rw [h1]
    simp [Flow.init]
  · rw [h2]
    simp [Flow.init]

/-- The time of a line is counted from the start of its interval, and a line that is not the last is printed when its interval is over. -/
theorem C84_interval (interval timeout : Int) (start : Oping.Time) (l : List Read) (k : Nat) (p : Report)
    (h : (handle interval timeout l (.init start interval)).1[k]? = some p) :
    ∃ r ∈ l, p.us = Oping.diffUs (addSec start (interval * k)) r.now ∧
    (k + 1 < (handle interval timeout l (.init start interval)).1.length → diffMs r.now (addSec start (interval * (k + 1))) < 0) :=
  handle_times interval timeout l (.init start interval) rfl k p h

/-- A test ends when no packet has been seen for longer than the time-out, and only then. -/
theorem C84_timeout (interval timeout : Int) (start : Oping.Time) (l : List Read) : (handle interval timeout l (.init start interval)).2 = true ↔
    ∃ pre r post, l = pre ++ r :: post ∧ timeout * 1000000 < Oping.diffUs (lastSeen start (pre ++ [r])) r.now :=
  handle_stops interval timeout l _

/-- Two flows that are handled one after the other. -/
def promptRun : List Act := [.listen, .accept, .look, .listen, .accept, .look, .look, .finish 1 true, .look]

example : Prompt promptRun .init ∧ ∃ s, run promptRun .init = some s ∧ s.busy = [0] ∧ s.done = [1] ∧ s.next = 2 := by
  refine ⟨?_, _, rfl, by decide +kernel⟩
  simp [promptRun, Prompt, step, listen, accept, look, finish, St.init, threads, St.signal, St.slot]

example : ∃ s, run [.listen, .accept] .init = some s ∧ s.slot = some 0 ∧ s.lst = .check := ⟨_, rfl, by decide +kernel⟩

example : ∃ s t, run [.listen, .accept, .listen] .init = some s ∧ s.slot = some 0 ∧ step s .accept = some t ∧ t.slot = some 1 := ⟨_, _, rfl, by decide +kernel, rfl, by decide +kernel⟩

/-- Three packets in two seconds, then none. -/
def sampleReads : List Read := [⟨⟨0, 0⟩, 100, ⟨0, 5⟩⟩, ⟨⟨0, 9⟩, 50, ⟨0, 10⟩⟩, ⟨⟨1, 2000000⟩, 7, ⟨1, 3000000⟩⟩, ⟨⟨1, 900000000⟩, -110, ⟨2, 0⟩⟩, ⟨⟨2, 3000001⟩, -110, ⟨2, 4000000⟩⟩,
  ⟨⟨3, 0⟩, -110, ⟨3, 0⟩⟩, ⟨⟨9, 0⟩, 1, ⟨9, 0⟩⟩]

example : handle 1 1 sampleReads (.init ⟨0, 0⟩ 1) = ([⟨3, 157, 1002000⟩, ⟨0, 0, 1003000⟩, ⟨0, 0, 1000000⟩], true) ∧ lengths sampleReads = [100, 50, 7, 1] := by decide +kernel

end Ouro.Ocbr
