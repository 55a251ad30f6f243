import Verif.Model.Psched

/-!
# What the statements about the packet scheduler speak about
-/

namespace Ouro.Psched

/-- The packets that arrived on `fd`, in order. -/
def arrivals (fd : Nat) (ops : List Op) : List Nat := ops.filterMap (fun op => match op with
  | .arrive f p => if f = fd then some p else none
  | _ => none)

/-- The packets of `fd` given to the callback, in order. -/
def called (fd : Nat) (log : List (Op × Out)) : List Nat := log.filterMap (fun e => match e.2 with
  | .called f _ p => if f = fd then some p else none
  | _ => none)

/-- How many of the `n` readers hold packet `p` of `fd`. -/
def holding (s : State) (n fd p : Nat) : Nat := (List.range n).countP (fun i => (s.rdr i).held = some (fd, p))

/-- The packets of `fd` reader `i` holds: none or one. -/
def heldBy (s : State) (i fd : Nat) : List Nat := match (s.rdr i).held with
  | some (f, p) => if f = fd then [p] else []
  | none => []

/-- All flows are added with the class `c` gives. -/
def Classes (c : Nat → Nat) (ops : List Op) : Prop := ∀ fd qc, Op.add fd qc ∈ ops → qc = c fd

/-- Packets arrive only on flows that are in a set. -/
def Prompt (mul : Nat) : State → List Op → Prop
  | _, [] => True
  | s, op :: ops => (∀ fd p, op = .arrive fd p → s.cls fd ≠ none) ∧ Prompt mul (step mul s op).1 ops

/-- Nothing is left for the readers to do. -/
def Quiet (mul : Nat) (s : State) : Prop := (∀ c, s.queue c = []) ∧ ∀ i < cubes * mul, (s.rdr i).fq = [] ∧ (s.rdr i).held = none

end Ouro.Psched
