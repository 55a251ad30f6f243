/-!
# Specification: a circular doubly linked list represents a sequence
-/

namespace Spec.Sequence

/-- Consecutive nodes point to each other, both ways. -/
def Linked (nxt prv : Nat → Nat) : List Nat → Prop
  | x :: y :: r => nxt x = y ∧ prv y = x ∧ Linked nxt prv (y :: r)
  | _ => True

/-- The nodes after the head `hd`, in order, are exactly `l`; all nodes are different and the ring is closed. -/
def Represents (nxt prv : Nat → Nat) (hd : Nat) (l : List Nat) : Prop :=
  (hd :: l).Nodup ∧ Linked nxt prv (hd :: l ++ [hd])

/-- The node in front of the position between `l1` and `l2` in the ring with head `hd`. -/
def Before (hd : Nat) (l1 : List Nat) (p : Nat) : Prop := (hd :: l1).getLast? = some p

/-- The node behind the position between `l1` and `l2` in the ring with head `hd`. -/
def Behind (hd : Nat) (l2 : List Nat) (p : Nat) : Prop := (l2 ++ [hd]).head? = some p

end Spec.Sequence
