import Verif.Proof.CmdQueue

/-!
# C45 — commands are processed in arrival order and exactly once

`posted log` and `taken log` (`Verif/Proof/CmdQueue.lean`) are the commands that were posted and the commands that workers took, in the order in which it
happened in the history. Commands may be equal: the statements are about the sequences.
-/

namespace Ouro.CmdQueue

variable {α : Type}

/-- C45. In every history, with any number of workers: the commands taken so far are the first ones posted, in order of arrival. So each is taken once, by one
worker, and none is overtaken. -/
theorem C45_in_order (n : Nat) (ops : List (Op α)) :
    (taken (run (init n) ops).2).map (·.2) = (posted (run (init n) ops).2).take (taken (run (init n) ops).2).length := by
  have h := run_fifo ops (init (α := α) n)
  simp only [init, List.reverse_nil, List.nil_append] at h
  rw [init, h, List.take_left' (by simp)]

/-- C45. Nothing is lost: the commands that are not taken yet are the ones that are kept, oldest last. -/
theorem C45_nothing_lost (n : Nat) (ops : List (Op α)) :
    posted (run (init n) ops).2 = (taken (run (init n) ops).2).map (·.2) ++ (run (init n) ops).1.cmds.reverse := by
  have h := run_fifo ops (init (α := α) n)
  simpa [init] using h

/-- Non-vacuity: three commands, two workers; one of them slept. -/
example : ((run (init (α := Nat) 2) [.fetch 0, .post 5 0, .post 6 1, .fetch 1, .post 7 9, .wakeUp 0, .fetch 1]).2.map (·.2)) =
    [.sleeps, .posted, .posted, .took 5, .posted, .took 6, .took 7] := by decide

/-- C45, who takes what: a worker that runs while commands are there gets the oldest one. -/
theorem C45_takes (n : Nat) (ops : List (Op α)) (w : Nat) (hne : (run (init n) ops).1.cmds ≠ [])
    (hw : (run (init n) ops).1.workers[w]? = some .busy ∨ (run (init n) ops).1.workers[w]? = some (.asleep true)) :
    ∃ op x, (op = .fetch w ∨ op = .wakeUp w) ∧ (step (run (init n) ops).1 op).2 = .took x ∧
      (posted (run (init n) ops).2)[(taken (run (init n) ops).2).length]? = some x := by
  have h := C45_nothing_lost n ops
  have hlast : ∃ x, (run (init n) ops).1.cmds.getLast? = some x :=
    ⟨_, List.getLast?_eq_some_getLast hne⟩
  obtain ⟨x, hx⟩ := hlast
  have hidx : (posted (run (init n) ops).2)[(taken (run (init n) ops).2).length]? = some x := by
    rw [h, List.getElem?_append_right (by simp), List.length_map, Nat.sub_self, ← List.head?_eq_getElem?, List.head?_reverse, hx]
  have ht : (take (run (init n) ops).1 w).2 = .took x := by unfold take; rw [hx]
  rcases hw with hw | hw
  · exact ⟨.fetch w, x, .inl rfl, by simp only [step, if_pos hw]; exact ht, hidx⟩
  · exact ⟨.wakeUp w, x, .inr rfl, by simp only [step]; rw [if_pos (.inl hw)]; exact ht, hidx⟩

/-- C45, no wake-up is lost, also if workers are cancelled in their sleep: while `k` commands wait and some worker sleeps without a wake-up, at least `k` others
were woken. So commands never wait while everybody sleeps. -/
theorem C45_no_lost_wakeup (n : Nat) (ops : List (Op α)) (h : .asleep false ∈ (run (init n) ops).1.workers) :
    (run (init n) ops).1.cmds.length ≤ ((run (init n) ops).1.workers.filter (· == .asleep true)).length := by
  have : Inv (run (init (α := α) n) ops).1 := run_inv (by intro h; simp [init] at h ⊢) ops
  have h2 := this h
  rwa [woken, List.countP_eq_length_filter] at h2

/-- Non-vacuity: two workers sleep, a command comes; the woken one is cancelled and the other one is woken instead. -/
example : (run (init (α := Nat) 3) [.fetch 0, .fetch 1, .fetch 2, .post 5 0, .cancel 0 1]).1.workers = [.gone, .asleep true, .asleep false] ∧
    (run (init (α := Nat) 3) [.fetch 0, .fetch 1, .fetch 2, .post 5 0, .cancel 0 1]).1.cmds = [5] := by decide

end Ouro.CmdQueue
