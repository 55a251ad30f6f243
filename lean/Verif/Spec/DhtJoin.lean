import Verif.Model.DhtJoin

/-!
# Joining a directory
-/

namespace Ouro.DhtJoin

/-- The states reached by actions that satisfy `ok`. -/
inductive Reach (ok : Sys → Act → Prop) : Sys → Prop
  | start : Reach ok start
  | step {s s' : Sys} {x : Act} : Reach ok s → ok s x → act s x = .ok s' → Reach ok s'

/-- Anything may happen. -/
def Any (_ : Sys) (_ : Act) : Prop := True

/-- Responses arrive while the joining thread waits for them, and not when its time is just up. -/
def Timely (s : Sys) : Act → Prop
  | .at i (.take _) => ∀ a, s.atts[i]? = some a → a.w = .waiting
  | .at i .timeout => ∀ a, s.atts[i]? = some a → a.h = .idle
  | _ => True

/-- `Timely` for one attempt. -/
abbrev AttTimely (a : Att) : Op → Prop
  | .take _ => a.w = .waiting
  | .timeout => a.h = .idle
  | _ => True

/-- How many times a worker thread was started. -/
def workers (s : Sys) : Nat := s.atts.countP (·.accepted)

/-- A run of the threads of one attempt. -/
def steps (a : Att) : List Op → Outcome Att
  | [] => .ok a
  | op :: ops => match step a op with
    | .ok a' => steps a' ops
    | .ub => .ub

/-- All steps of a run of one attempt are timely. -/
def TimelySteps (a : Att) : List Op → Prop
  | [] => True
  | op :: ops => AttTimely a op ∧ ∀ a', step a op = .ok a' → TimelySteps a' ops

end Ouro.DhtJoin
