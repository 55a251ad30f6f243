import Verif.Model.Cep

/-!
# What connection establishment should do (C78)
-/

namespace Ouro.Cep

/-- Information a component may have: strings of C that fit, and a syntax. -/
structure Ok (i : Info) : Prop where
  name : (0 : Byte) ∉ i.name
  nameLen : i.name.length ≤ strLen
  proto : (0 : Byte) ∉ i.proto
  protoLen : i.proto.length ≤ strLen
  syn : i.syn.msb = false

/-- Its packet fits the buffer of the receiver. -/
def Fits (i : Info) : Prop := (pack i).length ≤ bufSize

/-- Numbers `e.2` in fields `e.1`, one after the other. -/
def extra (ex : List (Nat × Nat)) : List Byte := ex.flatMap fun e => fNum e.1 e.2

/-- The two speak the same protocol. -/
def Same (i j : Info) : Prop := i.proto = j.proto ∧ i.version = j.version ∧ i.syn = j.syn

instance (i j : Info) : Decidable (Same i j) := by unfold Same; infer_instance

end Ouro.Cep
