import Verif.Model.DhtBuckets

/-!
# Specification of the buckets of the directory
-/

namespace Ouro.DhtBuckets

/-- Ids of the right length are given, as nodes do. -/
def Op.full (b : Nat) : Op → Prop
  | .update id _ => b ≤ id.length
  | .dead (some key) _ => b ≤ key.length
  | .dead none _ => True

/-- A node is known: it is in a bucket that has no children. -/
def known (s : St) (id : List UInt8) (addr : Nat) : Prop := ∃ p, s.split p = false ∧ ∃ c ∈ (s.bkt p).contacts, c.id = id ∧ c.addr = addr

/-- A node is in the bucket in which its id is looked up. -/
def found (s : St) (id : List UInt8) (addr : Nat) : Prop := ∃ p, getBucket s id = .ok p ∧ ∃ c ∈ (s.bkt p).contacts, c.id = id ∧ c.addr = addr

end Ouro.DhtBuckets
