/-!
# Specification: CRC-32 (reflected, polynomial 0xEDB88320), bit by bit
-/

namespace Spec.Crc

/-- The bits of a byte string in transmission order (least significant bit of each byte first). -/
def bits (m : List (BitVec 8)) : List Bool := m.flatMap (fun b => (List.range 8).map b.getLsbD)

/-- The shift register: take in one bit. -/
def shift (r : BitVec 32) (b : Bool) : BitVec 32 :=
  if (r.getLsbD 0 ^^ b) then (r >>> 1) ^^^ 0xEDB88320#32 else r >>> 1

/-- CRC of a byte string: register preset to all ones, result complemented. -/
def crc (m : List (BitVec 8)) : BitVec 32 := ~~~((bits m).foldl shift (~~~0#32))

end Spec.Crc
