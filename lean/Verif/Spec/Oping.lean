import Verif.Model.Oping

/-!
# Specification for C83: oping
-/

namespace Ouro.Oping

/-- The replies to packets that could have been sent, with their round trip times, up to a time-out. -/
def valid (count : Nat) : List In → List (Nat × ℚ)
  | [] => []
  | .timeout :: _ => []
  | .err :: l => valid count l
  | .msg m now :: l => if m.type = 1 ∧ m.id < count then (m.id, (diffUs m.sent now : ℚ) / 1000) :: valid count l else valid count l

/-- Those that are waited for. -/
def counted (count : Nat) (l : List In) : List (Nat × ℚ) := (valid count l).take count

/-- How many ids come after one that is not smaller. -/
def late (ids : List Nat) : Nat := (List.range ids.length).countP fun i => decide (∃ j < i, ids.getD i 0 ≤ ids.getD j 0)

/-- The mean. -/
def mean (xs : List ℚ) : ℚ := xs.sum / xs.length

/-- The sum of the squares of the distances to the mean. -/
def squares (xs : List ℚ) : ℚ := (xs.map fun x => (x - mean xs) ^ 2).sum

end Ouro.Oping
