/-!
# Specification: the data-transfer header on the wire

Independent of the code: `n` address bytes, little-endian, then one byte each for the QoS class, the time to live and the congestion
mark, then eight bytes of endpoint id, little-endian, then the payload.
-/

namespace Spec.DtWire

/-- Byte number `i` of a number, counted from the least significant one. -/
def byteOf (v i : Nat) : BitVec 8 := BitVec.ofNat 8 (v / 256 ^ i)

/-- `n` bytes of a number, least significant first. -/
def bytes (n v : Nat) : List (BitVec 8) := (List.range n).map (byteOf v)

/-- A packet on the wire. -/
def encode (n dst : Nat) (qc ttl ecn : BitVec 8) (eid : Nat) (payload : List (BitVec 8)) : List (BitVec 8) :=
  bytes n dst ++ [qc, ttl, ecn] ++ bytes 8 eid ++ payload

end Spec.DtWire
