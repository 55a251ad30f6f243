import Verif.Model.DhtLookup

/-!
# Specification of a lookup in the directory
-/

namespace Ouro.DhtLookup

/-- The number of a sequence of bytes, most significant first. -/
def num : List UInt8 → Nat
  | [] => 0
  | x :: xs => x.toNat * 256 ^ xs.length + num xs

/-- The distance of two ids: their bitwise difference, as a number. -/
def distance (x y : List UInt8) : Nat := num (List.zipWith (· ^^^ ·) x y)

/-- The distance by the first 64 bits. -/
def distance64 (x y : List UInt8) : Nat := distance (x.take 8) (y.take 8)

/-- The contacts that are kept are `k` of those that were seen (or all, if there are fewer), distinct, and no other contact that was seen is better. -/
def Best (better : List UInt8 → List UInt8 → Prop) (k : Nat) (seen l : List (List UInt8)) : Prop :=
  l.Nodup ∧ (∀ x ∈ l, x ∈ seen) ∧ l.length ≤ k ∧ ∀ x ∈ seen, x ∉ l → l.length = k ∧ ∀ e ∈ l, ¬ better x e

/-- `x` is closer to the key than `e`. -/
def closer (key x e : List UInt8) : Prop := distance64 x key < distance64 e key

/-- `x` is farther from the key than `e`. -/
def farther (key x e : List UInt8) : Prop := distance64 e key < distance64 x key

instance (key x e : List UInt8) : Decidable (closer key x e) := by unfold closer; infer_instance

instance (key x e : List UInt8) : Decidable (farther key x e) := by unfold farther; infer_instance

end Ouro.DhtLookup
