/-!
# The life cycle of an IPCP, and the hand-over of incoming flows

Everything here is about what is seen from outside: replies of commands and calls of operations.
-/

namespace Spec.LifeCycle

/-- The states that matter: created, operational, told to stop before and after it was operational. -/
inductive St where
  | fresh | operational | gone | stopping
  deriving DecidableEq, Repr

/-- What changes it: a bootstrap or an enrolment returned 0; one failed and went back to the start; the process is told to stop. -/
inductive Ev where
  | success | restart | quit | shut
  deriving DecidableEq, Repr

/-- The state after one more event. -/
def next : Ev → St
  | .success => .operational
  | .restart => .fresh
  | .quit => .gone
  | .shut => .stopping

/-- The state after some events, oldest first. -/
def state (evs : List Ev) : St := match evs.getLast? with
  | none => .fresh
  | some e => next e

/-- What a command needs: the fresh state, the operational state, or nothing. -/
inductive Need where
  | fresh | operational | any
  deriving DecidableEq, Repr

/-- The state is the one that is needed. -/
def Need.met : Need → St → Bool
  | .fresh, st => st == .fresh
  | .operational, st => st == .operational
  | .any, _ => true

/-- When an event is in order. -/
def legal : St → Ev → Prop
  | st, .success => st = .fresh
  | st, .restart => st = .fresh
  | st, .quit => st = .fresh
  | st, .shut => st = .operational

/-- All events are in order: fresh → operational → stopping, or fresh → gone. -/
def Legal (evs : List Ev) : Prop := ∀ pre e post, evs = pre ++ e :: post → legal (state pre) e

end Spec.LifeCycle
