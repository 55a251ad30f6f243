import Verif.Proof.Tac

/-!
# Specification: a broadcast layer

`Ev` is what happened at one process, latest first.
-/

namespace Spec.Broadcast

/-- What happens at a process: a neighbour comes or goes. -/
inductive Ev where
  | joined (fd : Int)
  | left (fd : Int)

/-- Is there a neighbour on this flow after the events of the log (latest first)? There is if the latest event of this flow is its joining. -/
def present (fd : Int) : List Ev → Prop
  | [] => False
  | .joined x :: log => x = fd ∨ present fd log
  | .left x :: log => x ≠ fd ∧ present fd log

/-- `ws` are right for a packet that came from `from_`: every other neighbour once, nothing else. -/
def Forwarded (neighbour : Int → Prop) (from_ : Int) (ws : List Int) : Prop :=
  ws.Nodup ∧ from_ ∉ ws ∧ ∀ fd, fd ≠ from_ → (fd ∈ ws ↔ neighbour fd)

end Spec.Broadcast
