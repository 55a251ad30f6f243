import Verif.Model.Protobuf

/-!
# What conversions must preserve (C47) and what enrolment must do (C59)
-/

namespace Ouro.Protobuf

/-- A configuration as a user can give it: strings that fit, and the member of the union that belongs to the type. -/
def Valid (c : Config) : Prop :=
  c.layer.name.length ≤ 255 ∧
  (c.type = UNICAST → ∃ x, c.u = .uni x) ∧
  (c.type = ETH_LLC ∨ c.type = ETH_DIX → ∃ x, c.u = .eth x ∧ x.dev.length ≤ 255) ∧
  (c.type = UDP → ∃ x, c.u = .udp x)

/-- Two configurations are the same: type, layer, and, for the types that have one, the specific part. -/
def Same (a b : Config) : Prop :=
  a.layer = b.layer ∧ a.type = b.type ∧ (a.type = UNICAST ∨ a.type = ETH_LLC ∨ a.type = ETH_DIX ∨ a.type = UDP → a.u = b.u)

/-- What is packed can be unpacked. -/
def Codec.Law {M W : Type} (k : Codec M W) : Prop := ∀ m, k.unpack (k.pack m) = some m

end Ouro.Protobuf
