import Verif.Model.Lsdb
import Verif.Spec.Lsdb
import Verif.Spec.Routing

/-!
# Words for the forwarding table of a node
-/

namespace Ouro.Lsdb

/-- The announcement is in the database. -/
def Has (ls : Ls) (a b : Nat) : Prop := ∃ x ∈ ls.db, x.src = a ∧ x.dst = b

/-- The other node of a link of this node that at least one end announced. -/
def Neighbour (ls : Ls) (a : Nat) : Prop := Has ls ls.self a ∨ Has ls a ls.self

/-- The links that both ends announced. -/
def Link (ls : Ls) : Nat → Nat → Prop := Spec.Lsdb.Confirmed (Has ls)

/-- A neighbour that can be used instead of the shortest path to `d`, without a loop. -/
def AltNb (ls : Ls) (d a : Nat) : Prop := Neighbour ls a ∧ a ≠ d ∧ Spec.Routing.LoopFree (Link ls) ls.self d a

/-- The flow to a neighbour, `-1` if there is none. -/
def flowTo (ls : Ls) (a : Nat) : Int :=
  match ls.nbs.find? (fun x => x.addr = a ∧ x.mgmt = false) with
  | some x => x.fd
  | none => -1

end Ouro.Lsdb
