/-!
# Specification for C36: congestion levels over unbounded integers
-/

namespace Spec.Ecn

/-- The level after a packet with mark `m`: divided by four without a mark, else a moving sum over about 32 packets. -/
def next (x m : Nat) : Nat :=
  if m = 0 then x / 4 else x - x / 32 + m

/-- The level after a sequence of marks. -/
def level (ms : List Nat) : Nat := ms.foldl next 0

end Spec.Ecn
