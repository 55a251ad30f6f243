import Verif.Model.DhtStore

/-!
# Specification of the storage of the directory

What is stored: for every key and address, until when. An address that is stored again is kept until the later of the two times.
-/

namespace Ouro.DhtStore

/-- The stored addresses after an operation. -/
def specStep (b self : Nat) (A : Key → Nat → Option Int) : Op → Key → Nat → Option Int
  | .store now exp id addr => fun k a => if k = id.take b ∧ a = addr then some (match A k a with | some t => max t (now + exp) | none => now + exp) else A k a
  | .unreg key => fun k a => if k = key ∧ a = self then none else A k a
  | .pass now => fun k a => (A k a).filter (fun t => now ≤ t)

/-- The stored addresses after a history. -/
def spec (b self : Nat) (ops : List Op) : Key → Nat → Option Int := ops.foldl (specStep b self) (fun _ _ => none)

/-- A node holds an address for a key, until a time. -/
def holds (s : St) (k : Key) (a : Nat) (t : Int) : Prop := ∃ e ∈ s.entries, e.key = k ∧ ∃ v ∈ e.vals, v.addr = a ∧ v.exp = t

end Ouro.DhtStore
