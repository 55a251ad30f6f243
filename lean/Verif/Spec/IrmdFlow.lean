import Verif.Spec.FiniteMap

/-!
# Specification: which process holds which flow, from what the processes were told
-/

namespace Spec.IrmdFlow

open Spec.FiniteMap

/-- A process was given a flow, or the deallocation of a flow was completed. -/
inductive HEv where
  | grant (id : Int) (pid : Nat)
  | release (id : Int)

/-- Effect of one event. -/
def HEv.apply (m : Map Int Nat) : HEv → Map Int Nat
  | .grant id pid => put m id pid
  | .release id => remove m id

/-- The flows that were given to a process and not given back since, with the process. -/
def held (l : List HEv) : Map Int Nat := l.foldl HEv.apply empty

/-- The last thing of a kind in a log, oldest first. -/
def latest {α β : Type} (kind : α → Option β) (log : List α) : Option β := (log.filterMap kind).getLast?

/-- Two sides derive the same key: what one computes from its secret and the public key of the other is what the other
computes (Diffie-Hellman). -/
def Agree (pub : Nat → Nat) (derive : Nat → Option Nat → Option Nat) : Prop :=
  ∀ a b, derive a (some (pub b)) = derive b (some (pub a))

end Spec.IrmdFlow
