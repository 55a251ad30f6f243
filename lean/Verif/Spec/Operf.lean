import Verif.Model.Operf

/-!
# Specification for C86: operf, and C87: the mask of ovpn
-/

namespace Ouro.Operf

/-- A subnet mask with a prefix of `n` bits: `n` ones, then zeros. -/
def Mask (n : Nat) (m : BitVec 32) : Prop := n ≤ 32 ∧ ∀ i < 32, m.getMsbD i = decide (i < n)

end Ouro.Operf
