/-!
# Specification: the settings of a flow

What `fccntl` promises: a value read is the value last set.
-/

namespace Spec.FlowSettings

structure Settings (T : Type) where
  flags : Nat
  snd : Option T
  rcv : Option T

inductive Call (T : Type) where
  | setFlags (f : Nat)
  | getFlags
  | setSnd (t : Option T)
  | getSnd
  | setRcv (t : Option T)
  | getRcv

inductive Answer (T : Type) where
  | ok
  | flags (f : Nat)
  | timeout (t : T)
  | notSet

/-- The answer to a query of an optional timeout. -/
def ask {T : Type} : Option T → Answer T
  | some t => .timeout t
  | none => .notSet

def exec {T : Type} (s : Settings T) : Call T → Settings T × Answer T
  | .setFlags f => ({ s with flags := f }, .ok)
  | .getFlags => (s, .flags s.flags)
  | .setSnd t => ({ s with snd := t }, .ok)
  | .getSnd => (s, ask s.snd)
  | .setRcv t => ({ s with rcv := t }, .ok)
  | .getRcv => (s, ask s.rcv)

def answers {T : Type} (s : Settings T) : List (Call T) → List (Answer T)
  | [] => []
  | c :: cs => (exec s c).2 :: answers (exec s c).1 cs

end Spec.FlowSettings
