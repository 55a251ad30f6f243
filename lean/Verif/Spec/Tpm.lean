import Verif.Model.Tpm

/-!
# What the statements about the thread pool speak about
-/

namespace Ouro.Tpm

/-- The number of threads that are alive and were not told to exit. -/
def liveThreads (s : State) : Nat := (s.live.filter (fun t => !s.cancelled t)).length

/-- How many of them work on a command. -/
def workingThreads (s : State) : Nat := ((s.live.filter (fun t => !s.cancelled t)).filter s.working).length

/-- How many of them wait for a command. -/
def idleThreads (s : State) : Nat := ((s.live.filter (fun t => !s.cancelled t)).filter (fun t => !s.working t)).length

/-- A step that is calm: a worker that was told to exit does not start on a command, and a pool is not started again after it was stopped. -/
def CalmStep (s : State) : Op → Prop
  | .dec t => s.cancelled t = false
  | .start => s.next = 0
  | _ => True

/-- Calm histories. -/
def Calm : State → List Op → Prop
  | _, [] => True
  | s, op :: ops => CalmStep s op ∧ Calm (step s op).1 ops

end Ouro.Tpm
