import Verif.Proof.Tpm

/-!
# C15 — the thread pool

`liveThreads`, `workingThreads` and `idleThreads` (`Verif/Spec/Tpm.lean`) count the threads that were not told to exit. The property holds for calm histories
(`Calm`); it fails if a worker starts on a command after it was told to exit, which the code does not exclude: a worker calls `tpm_dec` only after it took
the command.
-/

namespace Ouro.Tpm

/-- C15, every history: `cur` is the number of live threads that were not told to exit. -/
theorem C15_current (min inc : Nat) (ops : List Op) : (run (create min inc) ops).1.cur = (liveThreads (run (create min inc) ops).1 : Int) := by
  have hi := run_inv (create_inv min inc) ops
  rw [hi.cur, liveThreads, ← hi.kept.length_eq]
  simp [kept, List.countP_eq_length_filter]

/-- C15, every history: when `tpm_stop` returns (the manager has ended) every thread that was ever created has terminated. -/
theorem C15_stopped (min inc : Nat) (ops : List Op) (h : (run (create min inc) ops).1.mgr = .off) : (run (create min inc) ops).1.live = [] :=
  ((run_inv (create_inv min inc) ops).off h).1

/-- C15, partial: missing are histories that are not calm. While the pool is not being stopped `wrk` is the number of working threads, and the
others are idle. -/
theorem C15_counters_partial (min inc : Nat) (ops : List Op) (hc : Calm (create min inc) ops) (hoff : (run (create min inc) ops).1.mgr ≠ .off)
    (hst : ∀ t, (run (create min inc) ops).1.mgr ≠ .joining t true) :
    let s := (run (create min inc) ops).1
    s.wrk = (workingThreads s : Int) ∧ s.wrk ≤ s.cur ∧ s.cur - s.wrk = (idleThreads s : Int) := by
  have hi := run_inv (create_inv min inc) ops
  have hr := run_right (create_inv min inc) (fun _ => right_zero (create_inv min inc) rfl) ops hc ⟨hst, fun h => absurd h hoff⟩
  obtain ⟨h1, h2, h3⟩ := counts hi hr
  dsimp only
  refine ⟨h2, ?_, ?_⟩ <;> rw [h1, h2, h3] <;> push_cast <;> omega

/-- C15, partial: missing are histories that are not calm, and pools that grow by less than their minimum. At the end of each round of the manager, and from then
on until it is signalled, at least `min` threads are idle, unless threads could not be created. -/
theorem C15_enough_partial (min inc : Nat) (hle : min ≤ inc) (ops : List Op) (hc : Calm (create min inc) ops) :
    let s := (run (create min inc) ops).1
    s.mgr = .waiting false → s.short = false → min ≤ idleThreads s := by
  intro s hw hs
  have he := run_enough (create_inv min inc) (fun _ => right_zero (create_inv min inc) rfl) (by intro h; cases h) ops hc hw
  have hcfg := run_cfg (create min inc) ops
  rcases he with h | h | h
  · rw [hcfg.1] at h; exact h
  · rw [hs] at h; cases h
  · rw [hcfg.1, hcfg.2] at h
    have : inc < min := h
    omega

/-- C15, every history: a worker told to exit while the pool runs is not marked as working; and (calm histories) more than `min` threads are idle then. -/
theorem C15_exit_idle (min inc : Nat) (ops : List Op) (op : Op) (t : Nat) (hk : (step (run (create min inc) ops).1 op).2 = .killed t) :
    (run (create min inc) ops).1.working t = false ∧ t ∈ (run (create min inc) ops).1.live ∧
    (Calm (create min inc) ops → min < idleThreads (run (create min inc) ops).1) := by
  have hi := run_inv (create_inv min inc) ops
  obtain ⟨_, ⟨b, hb⟩, h2, e, he, rfl, h4, h5⟩ := killed_from hk
  refine ⟨by rw [← hi.busy e he, h4], ?_, ?_⟩
  · have : e.id ∈ kept (run (create min inc) ops).1.pool := by
      simp only [kept, List.mem_map, List.mem_filter]
      exact ⟨e, ⟨he, by simp [h5]⟩, rfl⟩
    exact (List.mem_filter.mp (hi.kept.mem_iff.mp this)).1
  · intro hc
    have hr := run_right (create_inv min inc) (fun _ => right_zero (create_inv min inc) rfl) ops hc ⟨by simp [hb], by simp [hb]⟩
    have := idle64_le hi hr
    rw [(run_cfg (create min inc) ops).1] at h2
    have h3 : min < idle64 (run (create min inc) ops).1 := h2
    omega

/-- The outputs of a history, and `cur`, `wrk`, the number of idle threads and what the manager does after it. -/
def view (min inc : Nat) (ops : List Op) : List Out × Int × Int × Nat × Mgr :=
  let r := run (create min inc) ops
  (r.2.map (·.2), r.1.cur, r.1.wrk, idleThreads r.1, r.1.mgr)

/-- Non-vacuity: a calm history: one worker becomes busy, the manager adds two more; when it is done one is told to exit, and terminates. -/
example : Calm (create 2 2) [.start, .mgr 2, .dec 0, .mgr 0, .mgr 2, .inc 0, .timeout, .exit 2, .mgr 0, .mgr 0] := by
  simp [Calm, CalmStep, step, create, joinNext, grow, idle64, List.range']
example : view 2 2 [.start, .mgr 2, .dec 0, .mgr 0, .mgr 2, .inc 0, .timeout, .mgr 0, .exit 3, .mgr 0] =
    ([.done, .created 2, .done, .done, .created 2, .done, .killed 3, .done, .done, .created 0], 3, 0, 3, .waiting false) := by decide +kernel
/-- Non-vacuity: a pool is stopped. -/
example : view 2 2 [.start, .mgr 2, .stop, .mgr 0, .mgr 0, .exit 1, .mgr 0, .exit 0, .mgr 0] =
    ([.done, .created 2, .done, .done, .done, .done, .done, .done, .stopped], 0, 0, 0, .off) := by decide +kernel

/-- C15 does not hold in full. Worker 1 took a command and was told to exit before it called `tpm_dec`. It does work on the command (`wrk` counts it), worker 0
works on another one, and `cur - wrk` is negative: as a `size_t` it is huge, so the manager creates no threads although none is idle. -/
theorem C15_underflow_violated : view 1 1 [.start, .mgr 1, .dec 0, .mgr 0, .mgr 1, .inc 0, .timeout, .dec 1, .dec 0, .exit 1, .mgr 1, .mgr 1] =
    ([.done, .created 1, .done, .done, .created 1, .done, .killed 1, .done, .done, .done, .done, .created 0], 1, 2, 0, .waiting false) := by decide +kernel

/-- C15 does not hold in full: a pool with a minimum of 2 that grows by 1, as the directory has (src/ipcpd/unicast/dir/dht.c:2844), has one idle thread after
the first round. -/
theorem C15_small_step_violated : view 2 1 [.start, .mgr 1] = ([.done, .created 1], 1, 0, 1, .waiting false) := by decide +kernel

/-- C15 does not hold in full: a pool that is stopped while a worker is busy and started again counts that worker forever. -/
theorem C15_restart_violated : view 1 1 [.start, .mgr 1, .dec 0, .stop, .mgr 0, .mgr 0, .exit 0, .mgr 0, .start, .mgr 1] =
    ([.done, .created 1, .done, .done, .done, .done, .done, .stopped, .done, .created 0], 0, 1, 0, .waiting false) := by decide +kernel

end Ouro.Tpm
