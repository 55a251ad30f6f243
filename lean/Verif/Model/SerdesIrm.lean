import Verif.Model.Protobuf
import Verif.Model.Errno

/-!
# Model of the exchanges between the library and the IRM daemon (src/lib/serdes-irm.c, src/lib/sockets.c, src/lib/pb/irm.proto, src/lib/pb/model.proto)

The wire format is that of protocol buffers for these schemas.  It is implemented by the protobuf-c library, which is not part of the repository, and is
written here from its definition.

Simplifications: of `irm_msg` only the fields that serdes-irm.c uses; of the wire types only those of the schema (0 and 2); when a field occurs twice the last
one counts, also for embedded messages; a varint may have any length.
-/

namespace Ouro.SerdesIrm

open Ouro.Protobuf

/-- The value of a field: a number or bytes (src/lib/pb/irm.proto:71-97). -/
inductive WVal where
  | num (n : Nat)
  | bytes (b : Str)
  deriving DecidableEq, Repr

/-- A field: its number and its value (src/lib/pb/irm.proto:71-97). -/
abbrev Field := Nat × WVal

/-- A base-128 varint (the format that src/lib/serdes-irm.c:62 writes). -/
def encVarint (n : Nat) : Str := if n < 128 then [UInt8.ofNat n] else UInt8.ofNat (n % 128 + 128) :: encVarint (n / 128)
termination_by n

/-- Read a varint (the format that src/lib/serdes-irm.c:146 reads). -/
def decVarint : Str → Option (Nat × Str)
  | [] => none
  | b :: r => if b.toNat < 128 then some (b.toNat, r) else match decVarint r with
    | none => none
    | some (n, r') => some (b.toNat - 128 + 128 * n, r')

/-- A field on the wire (the format that src/lib/serdes-irm.c:62 writes). -/
def encField : Field → Str
  | (k, .num n) => encVarint (8 * k) ++ encVarint n
  | (k, .bytes b) => encVarint (8 * k + 2) ++ (encVarint b.length ++ b)

/-- Fields on the wire (the format that src/lib/serdes-irm.c:62 writes). -/
def encFields (l : List Field) : Str := l.flatMap encField

/-- Read a field (the format that src/lib/serdes-irm.c:146 reads). -/
def decField (l : Str) : Option (Field × Str) := match decVarint l with
  | none => none
  | some (k, r) => match decVarint r with
    | none => none
    | some (n, r') =>
      if k % 8 = 0 then some ((k / 8, .num n), r')
      else if k % 8 = 2 ∧ n ≤ r'.length then some ((k / 8, .bytes (r'.take n)), r'.drop n)
      else none

/-- Read fields up to the end; a field has at least a byte, so that the length is enough fuel (the format that src/lib/serdes-irm.c:146 reads). -/
def decFields : Nat → Str → Option (List Field)
  | _, [] => some []
  | 0, _ => none
  | f + 1, l => match decField l with
    | none => none
    | some (x, r) => match decFields f r with
      | none => none
      | some xs => some (x :: xs)

/-- The value of field `k`, the last if it occurs more than once (the format that src/lib/serdes-irm.c:146 reads). -/
def field (k : Nat) (l : List Field) : Option WVal := ((l.filter (fun x => x.1 == k)).getLast?).map Prod.snd

/-- The number in field `k` (the format that src/lib/serdes-irm.c:146 reads). -/
def numAt (k : Nat) (l : List Field) : Option Nat := match field k l with
  | some (.num n) => some n
  | _ => none

/-- The bytes in field `k` (the format that src/lib/serdes-irm.c:146 reads). -/
def bytesAt (k : Nat) (l : List Field) : Option Str := match field k l with
  | some (.bytes b) => some b
  | _ => none

/-- An optional field (src/lib/pb/irm.proto:71-97). -/
def opt (k : Nat) (v : Option WVal) : List Field := match v with
  | some v => [(k, v)]
  | none => []

/-- `sint32` (src/lib/pb/irm.proto:74, 80, 96). -/
def zig (i : Int32) : Nat := if 0 ≤ i.toInt then (2 * i.toInt).toNat else (-2 * i.toInt - 1).toNat

/-- `sint32` (src/lib/pb/irm.proto:74, 80, 96). -/
def zag (n : Nat) : Int32 := if n % 2 = 0 then Int32.ofInt ((n / 2 : Nat) : Int) else Int32.ofInt (-((n / 2 : Nat) : Int) - 1)

/-- `qosspec_msg` (src/lib/pb/model.proto:25-35). -/
def qosFields (q : QosMsg) : List Field :=
  [(1, .num q.delay.toNat), (2, .num q.bandwidth.toNat), (3, .num q.availability.toNat), (4, .num q.loss.toNat), (5, .num q.ber.toNat), (6, .num q.inOrder.toNat),
   (7, .num q.maxGap.toNat), (8, .num q.cypherS.toNat), (9, .num q.timeout.toNat)]

/-- `qosspec_msg` (src/lib/pb/model.proto:25-35). -/
def qosOfFields (l : List Field) : Option QosMsg := do
  return ⟨.ofNat (← numAt 1 l), .ofNat (← numAt 2 l), .ofNat (← numAt 3 l), .ofNat (← numAt 4 l), .ofNat (← numAt 5 l), .ofNat (← numAt 6 l), .ofNat (← numAt 7 l),
    .ofNat (← numAt 8 l), .ofNat (← numAt 9 l)⟩

/-- Read an embedded message (src/lib/pb/model.proto:43, src/lib/pb/irm.proto:76, 77, 89). -/
def embedded {α : Type} (f : List Field → Option α) (b : Str) : Option α := match decFields b.length b with
  | some l => f l
  | none => none

/-- `flow_info_msg` (src/lib/pb/model.proto:37-44). -/
def flowFields (m : FlowInfoMsg) : List Field :=
  [(1, .num m.id.toNat), (2, .num m.nPid.toNat), (3, .num m.n1Pid.toNat), (4, .num m.mpl.toNat), (5, .num m.state.toNat), (6, .bytes (encFields (qosFields m.qos)))]

/-- `flow_info_msg` (src/lib/pb/model.proto:37-44). -/
def flowOfFields (l : List Field) : Option FlowInfoMsg := do
  return ⟨.ofNat (← numAt 1 l), .ofNat (← numAt 2 l), .ofNat (← numAt 3 l), .ofNat (← numAt 4 l), .ofNat (← numAt 5 l), ← embedded qosOfFields (← bytesAt 6 l)⟩

/-- `ipcp_info_msg` (src/lib/pb/model.proto:56-61). -/
def ipcpFields (m : IpcpInfoMsg) : List Field := [(1, .num m.type.toNat), (2, .bytes m.name), (3, .num m.pid.toNat), (4, .num m.state.toNat)]

/-- `ipcp_info_msg` (src/lib/pb/model.proto:56-61). -/
def ipcpOfFields (l : List Field) : Option IpcpInfoMsg := do
  return ⟨.ofNat (← numAt 1 l), ← bytesAt 2 l, .ofNat (← numAt 3 l), .ofNat (← numAt 4 l)⟩

/-- `timespec_msg` (src/lib/pb/irm.proto:58-61). -/
def timeFields (m : TimespecMsg) : List Field := [(1, .num m.sec.toNat), (2, .num m.nsec.toNat)]

/-- `timespec_msg` (src/lib/pb/irm.proto:58-61). -/
def timeOfFields (l : List Field) : Option TimespecMsg := do
  return ⟨.ofNat (← numAt 1 l), .ofNat (← numAt 2 l)⟩

/-- `irm_msg` (src/lib/pb/irm.proto:71-97), the fields serdes-irm.c uses. -/
structure IrmMsg where
  code : UInt32
  prog : Option Str := none
  pid : Option Int32 := none
  flow : Option FlowInfoMsg := none
  ipcp : Option IpcpInfoMsg := none
  response : Option Int32 := none
  dst : Option Str := none
  hash : Option Str := none
  timeo : Option TimespecMsg := none
  pk : Option Str := none
  key : Option Str := none
  result : Option Int32 := none
  deriving DecidableEq, Repr

/-- The fields of a message, in the order of their numbers (src/lib/pb/irm.proto:71-97). -/
def IrmMsg.fields (m : IrmMsg) : List Field :=
  (1, .num m.code.toNat) :: (opt 2 (m.prog.map .bytes) ++ opt 3 (m.pid.map fun i => .num (zig i)) ++ opt 5 (m.flow.map fun f => .bytes (encFields (flowFields f))) ++
    opt 6 (m.ipcp.map fun f => .bytes (encFields (ipcpFields f))) ++ opt 9 (m.response.map fun i => .num (zig i)) ++ opt 10 (m.dst.map .bytes) ++
    opt 11 (m.hash.map .bytes) ++ opt 18 (m.timeo.map fun f => .bytes (encFields (timeFields f))) ++ opt 22 (m.pk.map .bytes) ++ opt 23 (m.key.map .bytes) ++
    opt 26 (m.result.map fun i => .num (zig i)))

/-- An embedded message that may be missing, but not be malformed (src/lib/pb/irm.proto:76, 77, 89). -/
def optEmbedded {α : Type} (f : List Field → Option α) : Option Str → Option (Option α)
  | none => some none
  | some b => (embedded f b).map some

/-- A message from its fields; the code is required (src/lib/pb/irm.proto:71-97). -/
def ofFields (l : List Field) : Option IrmMsg := do
  let code ← numAt 1 l
  let flow ← optEmbedded flowOfFields (bytesAt 5 l)
  let ipcp ← optEmbedded ipcpOfFields (bytesAt 6 l)
  let timeo ← optEmbedded timeOfFields (bytesAt 18 l)
  return ⟨.ofNat code, bytesAt 2 l, (numAt 3 l).map zag, flow, ipcp, (numAt 9 l).map zag, bytesAt 10 l, bytesAt 11 l, timeo, bytesAt 22 l, bytesAt 23 l, (numAt 26 l).map zag⟩

/-- `irm_msg__pack` (called in src/lib/serdes-irm.c:62, src/lib/sockets.c:117). -/
def pack (m : IrmMsg) : Str := encFields m.fields

/-- `irm_msg__unpack` (called in src/lib/serdes-irm.c:146, src/lib/sockets.c:130, src/irmd/main.c:1532). -/
def unpack (b : Str) : Option IrmMsg := embedded ofFields b

/-- Memory that belongs to the caller of a function of serdes-irm.c (src/lib/serdes-irm.c:363-366). -/
inductive Blk where
  | dst
  | data
  deriving DecidableEq, Repr

/-- Which allocations succeed: the message, the flow or IPCP information, the string, the time (src/lib/serdes-irm.c:40-54, 83-100). -/
structure Env where
  msg : Bool
  info : Bool
  str : Bool
  time : Bool
  deriving DecidableEq, Repr

/-- `buffer_t`: the memory it points to and its length (include/ouroboros/utils.h). -/
structure Buf where
  mem : Str
  len : Nat
  deriving DecidableEq, Repr

/-- What a call leaves: what it returns, the buffer, and the memory of the caller it has freed (src/lib/serdes-irm.c:34-71). -/
structure Res where
  ret : Int
  buf : Buf
  freed : List Blk
  deriving DecidableEq, Repr

/-- `irm_msg__pack` into a buffer (src/lib/serdes-irm.c:62): outside its memory is undefined. -/
def packInto (b : Buf) (m : IrmMsg) : Outcome Buf := if (pack m).length ≤ b.mem.length then .ok ⟨pack m ++ b.mem.drop (pack m).length, (pack m).length⟩ else .ub

/-- The end of all requests (src/lib/serdes-irm.c:56-70, 389-408): `own` is the memory of the caller that the message points to.  It is taken out of the message
before that is freed, but not if the message does not fit. -/
def finish (b : Buf) (m : IrmMsg) (own : List Blk) : Outcome Res :=
  if (pack m).length = 0 ∨ b.len < (pack m).length then .ok ⟨-ENOMEM, b, own⟩ else do
    let b' ← packInto b m
    return ⟨0, b', []⟩

/-- A failed allocation (src/lib/serdes-irm.c:67-70). -/
def nomem (b : Buf) : Outcome Res := .ok ⟨-ENOMEM, b, []⟩

/-- `flow_accept__irm_req_ser` (src/lib/serdes-irm.c:34-71). -/
def flowAccept (e : Env) (b : Buf) (f : FlowInfo) (t : Option Timespec) : Outcome Res :=
  if !e.msg then nomem b else if !e.info then nomem b else if t.isSome && !e.time then nomem b else
    finish b { code := 21, flow := some (flowToMsg f), timeo := t.map timespecToMsg } []

/-- `__flow_alloc_ser` (src/lib/serdes-irm.c:73-116). -/
def flowAllocSer (e : Env) (b : Buf) (f : FlowInfo) (dst : Str) (t : Option Timespec) (code : UInt32) : Outcome Res :=
  if !e.msg then nomem b else if !e.info then nomem b else if !e.str then nomem b else if t.isSome && !e.time then nomem b else
    finish b { code := code, flow := some (flowToMsg f), dst := some dst, timeo := t.map timespecToMsg } []

/-- `flow_alloc__irm_req_ser` (src/lib/serdes-irm.c:118-125). -/
def flowAlloc (e : Env) (b : Buf) (f : FlowInfo) (dst : Str) (t : Option Timespec) : Outcome Res := flowAllocSer e b f dst t 20

/-- `flow_join__irm_req_ser` (src/lib/serdes-irm.c:127-134). -/
def flowJoin (e : Env) (b : Buf) (f : FlowInfo) (dst : Str) (t : Option Timespec) : Outcome Res := flowAllocSer e b f dst t 22

/-- `flow_dealloc__irm_req_ser` (src/lib/serdes-irm.c:191-228). -/
def flowDealloc (e : Env) (b : Buf) (f : FlowInfo) (t : Timespec) : Outcome Res :=
  if !e.msg then nomem b else if !e.info then nomem b else if !e.time then nomem b else
    finish b { code := 23, flow := some (flowToMsg f), timeo := some (timespecToMsg t) } []

/-- `ipcp_flow_dealloc__irm_req_ser` (src/lib/serdes-irm.c:230-261). -/
def ipcpFlowDealloc (e : Env) (b : Buf) (f : FlowInfo) : Outcome Res :=
  if !e.msg then nomem b else if !e.info then nomem b else finish b { code := 24, flow := some (flowToMsg f) } []

/-- `ipcp_create_r__irm_req_ser` (src/lib/serdes-irm.c:264-295). -/
def ipcpCreateR (e : Env) (b : Buf) (i : IpcpInfo) : Outcome Res :=
  if !e.msg then nomem b else if !e.info then nomem b else finish b { code := 2, ipcp := some (ipcpToMsg i) } []

/-- `proc_announce__irm_req_ser` (src/lib/serdes-irm.c:297-330). -/
def procAnnounce (e : Env) (b : Buf) (pid : Int32) (prog : Str) : Outcome Res :=
  if !e.msg then nomem b else if !e.str then nomem b else finish b { code := 11, pid := some pid, prog := some prog } []

/-- `proc_exit__irm_req_ser` (src/lib/serdes-irm.c:332-361). -/
def procExit (e : Env) (b : Buf) (pid : Int32) : Outcome Res :=
  if !e.msg then nomem b else finish b { code := 12, pid := some pid } []

/-- `ipcp_flow_req_arr__irm_req_ser` (src/lib/serdes-irm.c:363-409). -/
def flowReqArr (e : Env) (b : Buf) (dst : Str) (f : FlowInfo) (data : Str) : Outcome Res :=
  if !e.msg then nomem b else if !e.info then nomem b else
    finish b { code := 25, flow := some (flowToMsg f), hash := some dst, pk := some data } [.dst, .data]

/-- `ipcp_flow_alloc_reply__irm_msg_ser` (src/lib/serdes-irm.c:411-455). -/
def flowAllocReply (e : Env) (b : Buf) (f : FlowInfo) (response : Int32) (data : Str) : Outcome Res :=
  if !e.msg then nomem b else if !e.info then nomem b else
    finish b { code := 26, flow := some (flowToMsg f), pk := some data, response := some response } [.data]

/-- `ECRYPT` (include/ouroboros/errno.h:35). -/
def ECRYPT : Int := 1007

/-- `flow__irm_result_des` (src/lib/serdes-irm.c:136-189): what it returns, the flow it sets and the key it hands over.  `sk` is whether a key is asked for. -/
def flowResult (b : Buf) (sk : Bool) : Int × Option FlowInfo × Option Str := match unpack (b.mem.take b.len) with
  | none => (-EIRMD, none, none)
  | some m => match m.result with
    | none => (-EIRMD, none, none)
    | some r =>
      if r.toInt < 0 then (r.toInt, none, none) else match m.flow with
        | none => (-EBADF, none, none)
        | some f =>
          if 0 < (flowOfMsg f).qs.cypherS.toNat ∧ sk then match m.key with
            | none => (-ECRYPT, some (flowOfMsg f), none)
            | some k => if k = [] then (-ECRYPT, some (flowOfMsg f), none) else (0, some (flowOfMsg f), some k)
          else (0, some (flowOfMsg f), none)

/-- `irm__irm_result_des` (src/lib/serdes-irm.c:457-478). -/
def irmResult (b : Buf) : Int := match unpack (b.mem.take b.len) with
  | none => -EIRMD
  | some m => match m.result with
    | none => -EIRMD
    | some r => r.toInt

/-- `SOCK_BUF_SIZE` (include/ouroboros/CMakeLists.txt:4). -/
def sockBuf : Nat := 10240

/-- `send_recv_msg` (src/lib/sockets.c:135-155): `peer` is what the daemon answers, nothing if the socket fails.  The answer is cut to SOCK_BUF_SIZE, whatever
memory there is.  After a failure the length is that of -1, which no caller looks at: it is left as it was. -/
def sendRecv (peer : Str → Option Str) (b : Buf) : Outcome (Int × Buf) := match peer (b.mem.take b.len) with
  | none => .ok (-1, b)
  | some a => if (a.take sockBuf).length ≤ b.mem.length then .ok (0, ⟨a.take sockBuf ++ b.mem.drop (a.take sockBuf).length, (a.take sockBuf).length⟩) else .ub

/-- `send_recv_irm_msg` (src/lib/sockets.c:101-133): a message that is larger than the array on the stack is packed outside it. -/
def sendRecvIrm (peer : Str → Option Str) (m : IrmMsg) : Outcome (Option IrmMsg) :=
  if sockBuf < (pack m).length then .ub else match peer (pack m) with
    | none => .ok none
    | some a => .ok (unpack (a.take sockBuf))

end Ouro.SerdesIrm
