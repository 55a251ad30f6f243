/-!
# What a user of flow sets and flow events expects

Independent of the model: membership of descriptors in sets, and the stream of events of a set.
Descriptors are integers as the user passes them; sets are named by the handle `fset_create` returned.
-/

namespace Spec.FlowSets

/-- What the user knows: which descriptors are open (and the flow behind them), and which set holds a descriptor. -/
structure User where
  /-- flow id behind an open descriptor -/
  open_ : Int → Option Nat
  /-- descriptor of an open flow -/
  fdOf : Nat → Option Int
  /-- set that holds a descriptor -/
  set : Int → Option Nat

/-- Membership calls. -/
inductive Call where
  | opened (fd : Int) (flow : Nat)
  | closed (fd : Int)
  | add (s : Nat) (fd : Int)
  | del (s : Nat) (fd : Int)
  | zero (s : Nat)
  deriving Repr, DecidableEq

/-- Effect of a call: a descriptor enters a set by `add` (unless it is closed or in a set), and leaves it by `del`,
`zero` and by being closed. A descriptor that has just been opened is in no set. -/
def after (u : User) : Call → User
  | .opened fd flow =>
    { open_ := fun x => if x = fd then some flow else u.open_ x
      fdOf := fun i => if i = flow then some fd else u.fdOf i
      set := fun x => if x = fd then none else u.set x }
  | .closed fd =>
    { open_ := fun x => if x = fd then none else u.open_ x
      fdOf := fun i => if u.fdOf i = some fd then none else u.fdOf i
      set := fun x => if x = fd then none else u.set x }
  | .add s fd =>
    if u.open_ fd ≠ none ∧ u.set fd = none then { u with set := fun x => if x = fd then some s else u.set x } else u
  | .del s fd => { u with set := fun x => if x = fd ∧ u.set x = some s then none else u.set x }
  | .zero s => { u with set := fun x => if u.set x = some s then none else u.set x }

/-- Nothing is open. -/
def nothing : User := { open_ := fun _ => none, fdOf := fun _ => none, set := fun _ => none }

/-- The set that holds a flow. -/
def holder (u : User) (flow : Nat) : Option Nat := (u.fdOf flow).bind u.set

/-- `Thinned P l l'`: `l'` is `l` in the same order, without some of the elements that satisfy `P`. -/
inductive Thinned {α : Type} (P : α → Prop) : List α → List α → Prop
  | nil : Thinned P [] []
  | keep {a : α} {l l' : List α} : Thinned P l l' → Thinned P (a :: l) (a :: l')
  | drop {a : α} {l l' : List α} : P a → Thinned P l l' → Thinned P (a :: l) l'

end Spec.FlowSets
