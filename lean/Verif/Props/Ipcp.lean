import Verif.Proof.Ipcp

/-!
# C41 — an IPCP obeys its life cycle

`evs log` (`Verif/Proof/Ipcp.lean`) reads from a history when bootstraps and enrolments succeeded or failed and when the process was told to stop;
`Spec.LifeCycle.state` is the state that follows. `needOf` and `supported` say what a command needs and whether the IPCP has the operation.
All theorems hold for any interleaving of workers and of the signal handler, unless stated otherwise.
-/

namespace Ouro.Ipcp

open Spec.LifeCycle

/-- C41. The reply to a command at any moment: `-ENOTSUP` without the operation, `-EIPCPSTATE` in the wrong state, otherwise the command goes on. Bootstrap and
enrolment need the fresh state, queries and flow operations the operational one, which is reached when a bootstrap or an enrolment returns 0. -/
theorem C41_reply (ops : Ops) (before : List Op) (w : Nat) (c : Cmd) (hc : c ≠ .unknown)
    (hfree : (step ops (run ops create before).1 (.test w c)).2 ≠ .no) :
    (step ops (run ops create before).1 (.test w c)).2 =
      if !supported ops c then .ret (-ENOTSUP)
      else if !(needOf c).met (Spec.LifeCycle.state (evs (run ops create before).2)) then .ret (-EIPCPSTATE)
      else .goesOn := by
  obtain ⟨h1, h2⟩ := run_view ops before
  simp only [step] at hfree ⊢
  split at hfree
  · exact absurd rfl hfree
  · rw [tests_eq ops h1 hc, h2]
    split
    · rename_i r h
      split at h
      · cases h; rw [if_pos ‹_›]
      · rw [if_neg ‹_›]
        split at h
        · cases h; rw [if_pos ‹_›]
        · cases h
    · rename_i h
      split at h
      · cases h
      · rw [if_neg ‹_›]
        split at h
        · cases h
        · rw [if_neg ‹_›]

/-- C41, unknown commands. They are answered with -1. -/
theorem C41_unknown (ops : Ops) (s : State) (w : Nat) (hfree : s.workers w = none) : (step ops s (.test w .unknown)).2 = .ret (-1) := by
  simp [step, hfree, tests]

/-- C41. A command that is refused has no effect. -/
theorem C41_refused (ops : Ops) (s : State) (w : Nat) (c : Cmd) (r : Int) (h : (step ops s (.test w c)).2 = .ret r) :
    (step ops s (.test w c)).1 = s := by
  simp only [step] at h ⊢
  split at h
  · cases h
  · split at h
    · simp
    · cases h

/-- C41. An operation is called only for a command that passed the tests: when the worker started it (it did not start another since), the IPCP had the operation
and the state was the one it needs. -/
theorem C41_invoked (ops : Ops) (before : List Op) (w : Nat) (np1 fd : Int)
    (h : (step ops (run ops create before).1 (.call w np1)).2 = .invoked fd) :
    ∃ c pre mid, (run ops create before).2 = pre ++ (.test w c, .goesOn) :: mid ∧ (∀ e ∈ mid, ∀ c', e.1 ≠ .test w c' ∨ e.2 = .no) ∧
      (needOf c).met (Spec.LifeCycle.state (evs pre)) = true ∧ supported ops c = true := by
  have hd := run_doing ops before w
  simp only [step] at h
  split at h
  · rename_i c hc
    rw [hc] at hd
    exact ⟨c, hd⟩
  · cases h

/-- C41. Flow commands whose flow cannot be set up are answered with an error and the operation is not called. -/
theorem C41_np1 (ops : Ops) (s : State) (w : Nat) (np1 : Int) (hneg : np1 < 0) (c : Cmd) (hw : s.workers w = some (c, .tested))
    (hc : c = .flowAlloc ∨ c = .flowJoin ∨ c = .flowAllocResp 0 ∨ c = .flowDealloc) :
    (step ops s (.call w np1)).2 = .ret (if c = .flowAlloc then -EFLOWDOWN else -1) := by
  rcases hc with rfl | rfl | rfl | rfl <;> simp [step, hw, prepare, hneg]

/-- An IPCP with all operations, and the local one (src/ipcpd/local/main.c:296-308). -/
def allOps : Ops := ⟨true, true, true, true, true, true, true, true, true, true, true⟩
/-- See `allOps`. -/
def localOps : Ops := ⟨true, false, false, false, true, true, true, true, false, true, true⟩

/-- Non-vacuity: a flow is refused before the bootstrap and allowed after it; a second bootstrap is refused; after the signal flows are refused. -/
example : ((run localOps create [.sigNext, .test 1 .flowAlloc, .test 1 .enroll, .test 1 .bootstrap, .call 1 0, .finish 1 0 false, .test 2 .flowAlloc,
    .call 2 64, .test 1 .bootstrap, .finish 2 0 false, .signal, .sigNext, .sigNext, .test 1 .flowAlloc]).2.map (·.2)) =
    [.done, .ret (-EIPCPSTATE), .ret (-ENOTSUP), .goesOn, .invoked 0, .finished .bootstrap 0, .goesOn,
     .invoked 64, .ret (-EIPCPSTATE), .finished .flowAlloc 0, .done, .done, .becomes .shutdown, .ret (-EIPCPSTATE)] := by decide

/-- C41, partial: missing are histories in which bootstraps, enrolments and the signal overlap (see below). Without such overlaps the life is
fresh → operational → stopping or fresh → gone, and at most one bootstrap or enrolment succeeds. -/
theorem C41_life_partial (ops : Ops) (l : List Op) (h : Serial ops l) :
    Legal (evs (run ops create l).2) ∧ (evs (run ops create l).2).count .success ≤ 1 :=
  have h1 := (run_serial ops l h).2
  ⟨h1, legal_one h1⟩

/-- Non-vacuity: a serial history with a failing and a succeeding bootstrap. -/
example : evs (run localOps create [.test 1 .bootstrap, .call 1 0, .finish 1 (-1) true, .test 1 .bootstrap, .call 1 0, .finish 1 0 false, .sigNext,
    .signal, .sigNext, .sigNext]).2 = [.restart, .success, .shut] := by decide

/-- C41 does not hold in full: two bootstraps that overlap both call the operation and both succeed, because the test of the state and the change of the state are
two steps. -/
theorem C41_twice_violated : ∃ l, ((run localOps create l).2.map (·.2)) =
    [.goesOn, .goesOn, .invoked 0, .invoked 0, .finished .bootstrap 0, .finished .bootstrap 0] ∧
    (evs (run localOps create l).2).count .success = 2 :=
  ⟨[.test 1 .bootstrap, .test 2 .bootstrap, .call 1 0, .call 2 0, .finish 1 0 false, .finish 2 0 false], by decide⟩

/-- C41 does not hold in full: if the second one fails, the operational process goes back to the fresh state; flows are refused from then on. -/
theorem C41_restart_violated : ∃ l, evs (run localOps create l).2 = [.success, .restart] ∧
    (run localOps create (l ++ [.test 3 .flowAlloc])).2.getLast? = some (.test 3 .flowAlloc, .ret (-EIPCPSTATE)) :=
  ⟨[.test 1 .bootstrap, .test 2 .bootstrap, .call 1 0, .call 2 0, .finish 1 0 false, .finish 2 (-1) true], by decide⟩

/-- C41 does not hold in full: a bootstrap that was in progress when the process was told to stop makes it operational again. -/
theorem C41_revived_violated : ∃ l, evs (run localOps create l).2 = [.quit, .success] ∧
    (run localOps create (l ++ [.test 3 .flowAlloc])).2.getLast? = some (.test 3 .flowAlloc, .goesOn) :=
  ⟨[.test 1 .bootstrap, .call 1 0, .sigNext, .signal, .sigNext, .finish 1 0 false], by decide⟩

/-- C41 does not hold in full: a bootstrap that succeeds while the signal is being handled is overwritten: the process is gone although it was operational. -/
theorem C41_overwritten_violated : ∃ l, evs (run localOps create l).2 = [.success, .quit] :=
  ⟨[.test 1 .bootstrap, .call 1 0, .sigNext, .signal, .finish 1 0 false, .sigNext], by decide⟩

end Ouro.Ipcp
