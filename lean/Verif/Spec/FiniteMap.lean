/-!
# Specification: a finite map with insert-if-absent
-/

namespace Spec.FiniteMap

/-- Partial function from keys to values. -/
abbrev Map (κ α : Type) := κ → Option α

/-- The empty map. -/
def empty {κ α : Type} : Map κ α := fun _ => none

/-- `m` with `k` mapped to `v`. -/
def put {κ α : Type} [DecidableEq κ] (m : Map κ α) (k : κ) (v : α) : Map κ α := fun x => if x = k then some v else m x

/-- `m` without `k`. -/
def remove {κ α : Type} [DecidableEq κ] (m : Map κ α) (k : κ) : Map κ α := fun x => if x = k then none else m x

end Spec.FiniteMap
