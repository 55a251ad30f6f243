import Verif.Proof.Tac

/-!
# Specification: the registry, the directory and the queries of a shim IPCP

Everything is defined from what happened, latest event first; nothing refers to the implementation.
-/

namespace Spec.ShimData

/-- What happens to the registry and to the directory. -/
inductive Ev (H : Type) where
  | registered (h : H)
  | unregistered (h : H)
  | known (h : H) (a : Nat)
  | forgotten (h : H) (a : Nat)

/-- A name is registered if it was registered and not unregistered since. -/
def Registered {H : Type} (h : H) : List (Ev H) → Prop
  | [] => False
  | .registered x :: log => x = h ∨ Registered h log
  | .unregistered x :: log => x ≠ h ∧ Registered h log
  | _ :: log => Registered h log

/-- An address is known for a name if it was added and not deleted since. -/
def Known {H : Type} (h : H) (a : Nat) : List (Ev H) → Prop
  | [] => False
  | .known x b :: log => (x = h ∧ b = a) ∨ Known h a log
  | .forgotten x b :: log => ¬ (x = h ∧ b = a) ∧ Known h a log
  | _ :: log => Known h a log

/-- What happens to queries. -/
inductive QEv where
  /-- the response is handed to query `q` -/
  | answered (q : Nat)
  /-- somebody starts to destroy query `q` -/
  | destroyed (q : Nat)
  /-- the wait for query `q` ends with this result -/
  | waited (q : Nat) (r : Int)
  deriving DecidableEq

end Spec.ShimData
