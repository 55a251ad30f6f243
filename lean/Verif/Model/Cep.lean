import Verif.Model.Bytes

/-!
# Model of connection establishment (src/lib/cep.c, src/ipcpd/common/connmgr.c)

Two IPCPs that connect exchange one packet each, with the name of the component, its protocol, version, syntax and address, packed as in
src/lib/pb/cep.proto.  The packing itself is the library protobuf-c, which is not in the repository: `pack` and `unpack` follow the format of
protocol buffers.

Simplifications: memory does not run out; the fields the code does not use (`supp_version`, `supp_syntax`, `syntax_spec`) are skipped as unknown
ones are, though a malformed one would make the library refuse the packet.
-/

namespace Ouro.Cep

/-- BUF_SIZE (src/lib/cep.c:34). -/
def bufSize : Nat := 128

/-- OCEP_BUF_STRLEN (include/ouroboros/cep.h:30). -/
def strLen : Nat := 128

/-- `struct conn_info` (include/ouroboros/cep.h:32-40), the fields that are sent; strings without the final zero. -/
structure Info where
  name : List Byte
  proto : List Byte
  version : BitVec 32
  syn : BitVec 32
  addr : BitVec 64
  deriving DecidableEq, Repr

/-- A number in base 128, lowest digits first, in at most `fuel` bytes (wire format of src/lib/pb/cep.proto:30-39). -/
def enc : Nat → Nat → List Byte
  | 0, _ => []
  | fuel + 1, n => if n < 128 then [BitVec.ofNat 8 n] else BitVec.ofNat 8 (n % 128 + 128) :: enc fuel (n / 128)

/-- The number at the start of a packet, in at most `fuel` bytes (wire format of src/lib/pb/cep.proto:30-39). -/
def dec : Nat → List Byte → Option (Nat × List Byte)
  | 0, _ => none
  | _ + 1, [] => none
  | fuel + 1, b :: l => if b.toNat < 128 then some (b.toNat, l) else (dec fuel l).map fun r => (b.toNat - 128 + 128 * r.1, r.2)

/-- A field with a number (src/lib/pb/cep.proto:33, 35, 38). -/
def fNum (k n : Nat) : List Byte := enc 5 (k * 8) ++ enc 10 n

/-- A field with a string (src/lib/pb/cep.proto:31-32). -/
def fStr (k : Nat) (l : List Byte) : List Byte := enc 5 (k * 8 + 2) ++ (enc 5 l.length ++ l)

/-- `cep_msg__pack` as used by `send_msg` (src/lib/cep.c:69-91, src/lib/pb/cep.proto:30-39): an `int32` is extended with its sign. -/
def pack (i : Info) : List Byte :=
  fStr 1 i.name ++ (fStr 2 i.proto ++ (fNum 3 (i.version.signExtend 64).toNat ++ (fNum 5 (i.syn.signExtend 64).toNat ++ fNum 8 i.addr.toNat)))

/-- The contents of a field: a number, a string, or 4 or 8 bytes (wire format of src/lib/pb/cep.proto:30-39). -/
inductive Val where
  | num (n : Nat)
  | str (l : List Byte)
  | fixed

/-- The field at the start of a packet: its key, contents and the rest (wire format of src/lib/pb/cep.proto:30-39). -/
def field (l : List Byte) : Option (Nat × Val × List Byte) :=
  match dec 5 l with
  | none => none
  | some (t, r) =>
    match t % 8 with
    | 0 => (dec 10 r).map fun q => (t / 8, .num q.1, q.2)
    | 1 => if 8 ≤ r.length then some (t / 8, .fixed, r.drop 8) else none
    | 2 => match dec 5 r with
      | none => none
      | some (n, q) => if n ≤ q.length then some (t / 8, .str (q.take n), q.drop n) else none
    | 5 => if 4 ≤ r.length then some (t / 8, .fixed, r.drop 4) else none
    | _ => none

/-- The fields found so far (`CepMsg`, src/lib/pb/cep.proto:30-39). -/
structure Msg where
  name : Option (List Byte) := none
  proto : Option (List Byte) := none
  version : Option Nat := none
  syn : Option Nat := none
  addr : Option Nat := none

/-- One field; one of the wrong type makes the packet malformed, the last of several counts (src/lib/pb/cep.proto:30-39). -/
def Msg.put (m : Msg) : Nat → Val → Option Msg
  | 1, .str l => some { m with name := some l }
  | 2, .str l => some { m with proto := some l }
  | 3, .num n => some { m with version := some n }
  | 5, .num n => some { m with syn := some n }
  | 8, .num n => some { m with addr := some n }
  | k, _ => if k = 1 ∨ k = 2 ∨ k = 3 ∨ k = 5 ∨ k = 8 then none else some m

/-- All fields (src/lib/pb/cep.proto:30-39); each takes a byte at least, so the length is enough `fuel`. -/
def fields : Nat → List Byte → Msg → Option Msg
  | _, [], m => some m
  | 0, _ :: _, _ => none
  | fuel + 1, b :: l, m =>
    match field (b :: l) with
    | none => none
    | some (k, v, r) => match m.put k v with
      | none => none
      | some m' => fields fuel r m'

/-- `cep_msg__unpack` (src/lib/cep.c:48): the fields are required. -/
def unpack (l : List Byte) : Option (List Byte × List Byte × Nat × Nat × Nat) :=
  match fields l.length l {} with
  | some ⟨some n, some p, some v, some s, some a⟩ => some (n, p, v, s, a)
  | _ => none

/-- A C string ends at the first zero (src/lib/cep.c:52-58). -/
def cstr (l : List Byte) : List Byte := l.takeWhile (· ≠ 0)

/-- `strcpy` into an array of `strLen + 1` (src/lib/cep.c:57-58). -/
def strcpy (l : List Byte) : Outcome (List Byte) := if (cstr l).length ≤ strLen then .ok (cstr l) else .ub

/-- `read_msg` with a buffer of `size` (src/lib/cep.c:36-67): `none` is an error.  A longer packet is cut: reads are partial by default
(src/lib/dev.c:1428-1440). -/
def readMsg (size : Nat) (pkt : List Byte) : Outcome (Option Info) :=
  match unpack (pkt.take size) with
  | none => .ok none
  | some (n, p, v, s, a) =>
    if (cstr n).length > strLen then .ok none
    else match strcpy n, strcpy p with
      | .ok n', .ok p' => .ok (some ⟨n', p', BitVec.ofNat 32 v, BitVec.ofNat 32 s, BitVec.ofNat 64 a⟩)
      | _, _ => .ub

/-- `cep_rcv` (src/lib/cep.c:113-120). -/
def rcv (pkt : List Byte) : Outcome (Option Info) := readMsg bufSize pkt

/-- `cep_snd` (src/lib/cep.c:69-111): the packet, unless the syntax is negative. -/
def snd (i : Info) : Option (List Byte) := if i.syn.msb then none else some (pack i)

/-- `fail_info` (src/ipcpd/common/connmgr.c:140). -/
def failInfo : Info := ⟨[], [], 0, 0, 0⟩

/-- `get_id_by_name` (src/ipcpd/common/connmgr.c:69-78) over the components `comps`. -/
def lookup (comps : List Info) (name : List Byte) : Option Info := comps.find? (fun c => c.name = name)

/-- The flow acceptor (src/ipcpd/common/connmgr.c:157-190): the answer it sends, and the connection it adds. -/
def answer (comps : List Info) (pkt : List Byte) : Outcome (Option (List Byte) × Option Info) :=
  match rcv pkt with
  | .ub => .ub
  | .ok none => .ok (none, none)
  | .ok (some i) => match lookup comps i.name with
    | none => .ok (snd failInfo, none)
    | some c => match snd c with
      | none => .ok (none, none)
      | some p => .ok (some p, some i)

/-- `connmgr_alloc` after the answer (src/ipcpd/common/connmgr.c:465-486). -/
def accepts (mine : Info) (ans : Option (List Byte)) : Outcome (Option Info) :=
  match ans with
  | none => .ok none
  | some p => match rcv p with
    | .ub => .ub
    | .ok none => .ok none
    | .ok (some i) => if mine.proto = i.proto ∧ mine.version = i.version ∧ mine.syn = i.syn then .ok (some i) else .ok none

/-- A connection from component `mine` to an IPCP with components `comps` (src/ipcpd/common/connmgr.c:428-486 and 157-190): what either end has of the
other, if it has a connection. -/
def connect (mine : Info) (comps : List Info) : Outcome (Option Info × Option Info) :=
  match snd mine with
  | none => .ok (none, none)
  | some p => match answer comps p with
    | .ub => .ub
    | .ok (a, there) => match accepts mine a with
      | .ub => .ub
      | .ok here => .ok (here, there)

/-- What data transfer of a unicast layer tells (src/ipcpd/unicast/dt.c:576-582, src/ipcpd/unicast/dt.h:30-31). -/
def unicastDt (addr : BitVec 64) : Info :=
  ⟨"Data Transfer".toList.map (fun c => BitVec.ofNat 8 c.toNat), "dtp".toList.map (fun c => BitVec.ofNat 8 c.toNat), 1, 2, addr⟩

/-- What data transfer of a broadcast layer tells: the protocol is never set (src/ipcpd/broadcast/dt.c:250-253). -/
def broadcastDt : Info := ⟨"Data Transfer".toList.map (fun c => BitVec.ofNat 8 c.toNat), [], 0, 0, 0⟩

/-- What enrolment tells (src/ipcpd/common/enroll.c:297-303). -/
def enrolment : Info := ⟨"Enrollment".toList.map (fun c => BitVec.ofNat 8 c.toNat), "OEP".toList.map (fun c => BitVec.ofNat 8 c.toNat), 1, 0, 0⟩

/-- What link-state routing tells (src/ipcpd/unicast/routing/link-state.c:928-934, src/ipcpd/unicast/routing/link-state.h:26-27). -/
def management (addr : BitVec 64) : Info :=
  ⟨"Management".toList.map (fun c => BitVec.ofNat 8 c.toNat), "LSP".toList.map (fun c => BitVec.ofNat 8 c.toNat), 1, 0, addr⟩

end Ouro.Cep
