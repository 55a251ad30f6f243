import Verif.Model.Base

/-!
# Bytes and byte buffers

`memcpy` between integers and buffers on a little-endian machine.
-/

namespace Ouro

/-- One byte. Common vocabulary, used for `uint8_t` (for instance src/ipcpd/unicast/dt.c:83-84). -/
abbrev Byte := BitVec 8

/-- The first `n` bytes in memory of an unsigned integer with value `v` (little-endian); what
`memcpy(buf, &v, n)` copies (for instance src/ipcpd/unicast/dt.c:112). -/
def leBytes : Nat → Nat → List Byte
  | 0, _ => []
  | n + 1, v => BitVec.ofNat 8 v :: leBytes n (v / 256)

/-- The value of an unsigned integer whose low bytes are `bs` and whose other bytes are zero; what
`memcpy(&v, buf, n)` leaves in a zeroed `v` (for instance src/ipcpd/unicast/dt.c:130). -/
def leVal : List Byte → Nat
  | [] => 0
  | b :: bs => b.toNat + 256 * leVal bs

/-- `memcpy(buf + off, bs, len)` (for instance src/ipcpd/unicast/dt.c:113); outside the buffer it is undefined. -/
def patch (buf : List Byte) (off : Nat) (bs : List Byte) : Outcome (List Byte) :=
  if off + bs.length ≤ buf.length then .ok (buf.take off ++ bs ++ buf.drop (off + bs.length)) else .ub

/-- The `n` bytes at `buf + off` (for instance src/ipcpd/unicast/dt.c:131); outside the buffer it is undefined. -/
def slice (buf : List Byte) (off n : Nat) : Outcome (List Byte) :=
  if off + n ≤ buf.length then .ok ((buf.drop off).take n) else .ub

end Ouro
