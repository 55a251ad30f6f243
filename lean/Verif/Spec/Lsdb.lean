/-!
# Specification for C31, C32, C53: link-state databases

Nothing here refers to the model of the code.
-/

namespace Spec.Lsdb

/-- `edge a b k`: the graph has an edge from `a` to `b` with count `k`. The graph mirrors a set of announcements if there is an edge
between two nodes exactly if one of them announced the link, and it counts both announcements exactly if both did. -/
structure Mirrors (announced : Nat → Nat → Prop) (edge : Nat → Nat → Nat → Prop) : Prop where
  edges : ∀ a b, (∃ k, edge a b k) ↔ announced a b ∨ announced b a
  usable : ∀ a b, edge a b 2 ↔ announced a b ∧ announced b a
  counts : ∀ a b k, edge a b k → k = 1 ∨ k = 2

/-- The largest of a list of sequence numbers. -/
def Newest (n : Nat) (l : List Nat) : Prop := n ∈ l ∧ ∀ m ∈ l, m ≤ n

/-- A link both ends of which announced it. -/
def Confirmed (announced : Nat → Nat → Prop) (a b : Nat) : Prop := announced a b ∧ announced b a

/-- Nodes joined by a chain of neighbours. -/
inductive Connected (linked : Nat → Nat → Prop) : Nat → Nat → Prop where
  | refl (u : Nat) : Connected linked u u
  | step {u v w : Nat} : linked u v → Connected linked v w → Connected linked u w

end Spec.Lsdb
