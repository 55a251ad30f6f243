import Verif.Model.Rbuff
import Verif.Model.Bytes
import Verif.Model.FaMsg
import Verif.Model.Crc32
import Verif.Model.Qoscube
import Verif.Model.Time

/-!
# Reading, writing and configuring a flow (`src/lib/dev.c:1002-1445`)

One flow of a process, any number of threads in `flow_write` and `flow_read`, and the process at the other end of the two
rings. A call is split where the code waits or releases all locks between effects others can see; a thread inside a call is
kept in `writers` or `readers` with its program counter.

Simplifications: raw flows (`flow->frcti == NULL`; see the FRCT files for the others) without encryption
(`flow->crypt.flags == 0`, `crypt_encrypt`/`crypt_decrypt` then do nothing, src/lib/crypt.c:405-433); flow sets are not
notified (see FlowSet); the packet pool is the map of packets in use that C04 provides: an allocation returns an index not
in use or fails; the flow is not closed while a thread is inside a call. `count < 2^63`.
-/

namespace Ouro.FlowIo

open Ouro.FaMsg (beBytes)
open Ouro.Rbuff (Ring Out ACL_RDWR ACL_RDONLY ACL_FLOWDOWN ACL_FLOWPEER)

/-- include/ouroboros/fccntl.h:31 -/ def FLOWFRDONLY : Nat := 0
/-- include/ouroboros/fccntl.h:32 -/ def FLOWFWRONLY : Nat := 1
/-- include/ouroboros/fccntl.h:33 -/ def FLOWFRDWR : Nat := 2
/-- include/ouroboros/fccntl.h:34 -/ def FLOWFACCMODE : Nat := 3
/-- include/ouroboros/fccntl.h:36 -/ def FLOWFDOWN : Nat := 4
/-- include/ouroboros/fccntl.h:38 (octal 1000) -/ def FLOWFRNOBLOCK : Nat := 512
/-- include/ouroboros/fccntl.h:39 (octal 2000) -/ def FLOWFWNOBLOCK : Nat := 1024
/-- include/ouroboros/fccntl.h:41 (octal 10000) -/ def FLOWFRNOPART : Nat := 4096
/-- include/ouroboros/fccntl.h:42 (octal 20000) -/ def FLOWFWNOPART : Nat := 8192
/-- include/ouroboros/fccntl.h:44 -/ def FLOWFDEFAULT : Nat := FLOWFRDWR ||| FLOWFWNOPART
/-- include/ouroboros/fccntl.h:49 -/ def FRCTFRTX : Nat := 1
/-- `SYS_MAX_FLOWS`, CMakeLists.txt default; the bound of `fccntl` (src/lib/dev.c:1017). -/ def SYS_MAX_FLOWS : Int := 10240
/-- `PROG_MAX_FLOWS`, src/lib/CMakeLists.txt; size of `ai.flows` (src/lib/dev.c:603). -/ def PROG_MAX_FLOWS : Int := 4096

/-- `part_idx` (src/lib/dev.c:73-74, 100): `NO_PART`, `DONE_PART` or a packet. -/
inductive Part where
  | no
  | done
  | at (i : Nat)
  deriving Repr, DecidableEq

/-- The fields of `struct flow` used here (src/lib/dev.c:90-113); `snd_timesout`/`snd_timeo` are one optional value. `frct`
is `NULL` or the `cflags` of the FRCT instance (used by `fccntl` only). -/
structure Flow where
  isOpen : Bool
  oflags : Nat
  part : Part
  sndTimeo : Option Time.Timespec
  rcvTimeo : Option Time.Timespec
  qs : Qoscube.Spec
  frct : Option Nat
  deriving Repr, DecidableEq

/-- Where a thread is in `flow_write`: before the allocation (src/lib/dev.c:1277, 1282), before the ring write (1213, 1215)
of packet `i`, or asleep in it (src/lib/shm_rbuff_pthr.c:117). -/
inductive WPc where
  | alloc
  | tx (i : Nat)
  | txWait (i : Nat)
  deriving Repr, DecidableEq

/-- A thread in `flow_write` with its arguments and locals (src/lib/dev.c:1232-1243). -/
structure Writer where
  data : List Byte
  nonblock : Bool
  timed : Bool
  pc : WPc
  deriving Repr, DecidableEq

/-- Where a thread is in `flow_read`: before `flow_rx_sdb` (src/lib/dev.c:1389), asleep in it, or past the loop with packet
`i` (1406), which came from `part_idx` or from the ring. -/
inductive RPc where
  | rx
  | rxWait
  | got (i : Nat) (fromPart : Bool)
  deriving Repr, DecidableEq

/-- A thread in `flow_read` with its arguments and locals (src/lib/dev.c:1341-1354). -/
structure Reader where
  count : Nat
  block : Bool
  partrd : Bool
  timed : Bool
  pc : RPc
  deriving Repr, DecidableEq

/-- The flow, its two rings (src/lib/dev.c:95-96), the packets of this flow in use (index to the bytes between `du_head` and
`du_tail`, src/lib/shm_rdrbuff.c:67-76) and the threads inside calls. -/
structure St where
  fl : Flow
  rx : Ring
  tx : Ring
  pool : Nat → Option (List Byte)
  writers : List Writer
  readers : List Reader

/-- Store in the map of packets (src/lib/shm_rdrbuff.c:468-475). -/
def upd (f : Nat → Option (List Byte)) (i : Nat) (v : Option (List Byte)) : Nat → Option (List Byte) :=
  fun j => if j = i then v else f j

/-- What a step shows to the caller: still inside, a return value, `flow_read` returning the length of the bytes it copied,
or `fccntl` returning 0 having stored a value (src/lib/dev.c:1002-1445). -/
inductive Ret where
  | inside
  | ret (v : Int)
  | data (bs : List Byte)
  | timeo (t : Time.Timespec)
  | flags (f : Nat)
  | qos (q : Qoscube.Spec)
  | len (n : Nat)
  deriving Repr, DecidableEq

/-- `shm_rdrbuff_get` and access to the packet (src/lib/shm_rdrbuff.c:468-475); a packet not in use must not be touched. -/
def getPkt (s : St) (i : Nat) : Outcome (List Byte) :=
  match s.pool i with
  | some bs => .ok bs
  | none => .ub

/-- `shm_rdrbuff_remove` (src/lib/shm_rdrbuff.c:477-504); a packet not in use must not be removed. -/
def freePkt (s : St) (i : Nat) : Outcome St :=
  match s.pool i with
  | some _ => .ok { s with pool := upd s.pool i none }
  | none => .ub

/-- What `mem_hash(HASH_CRC32, ...)` stores (src/lib/hash.c:91-95): big-endian. -/
def crcBytes (bs : List Byte) : List Byte := beBytes 4 (Crc32.crc32 0#32 bs).toNat

/-- `flow->info.qs.ber == 0` (src/lib/dev.c:1206, 1302). -/
def Flow.crc (f : Flow) : Bool := f.qs.ber == 0

/-- The packet after lines 1288-1289 and 1199-1208 of src/lib/dev.c. A fresh packet has `DU_BUFF_TAILSPACE` = 32 bytes of tail
space, so `add_crc` (1166-1176) succeeds. -/
def wire (f : Flow) (data : List Byte) : List Byte :=
  if 0 < data.length then (if f.crc then data ++ crcBytes data else data) else data

/-- `invalid_pkt` with `chk_crc` (src/lib/dev.c:1155-1164, 1296-1309): `none` if invalid, otherwise what is left. The tail of a
packet shorter than a CRC is released past its head: failed assertion or out-of-bounds read. -/
def rxCheck (f : Flow) (bs : List Byte) : Outcome (Option (List Byte)) :=
  if bs.length = 0 then .ok none
  else if f.crc then
    if bs.length < 4 then .ub
    else if crcBytes (bs.take (bs.length - 4)) = bs.drop (bs.length - 4) then .ok (some (bs.take (bs.length - 4)))
    else .ok none
  else .ok (some bs)

/-- The `buf` and `count` arguments of `flow_write` (src/lib/dev.c:1232-1234). -/
inductive Buf where
  | null (count : Nat)
  | bytes (bs : List Byte)
  deriving Repr, DecidableEq

/-- `buf == NULL && count != 0` (src/lib/dev.c:1245). -/
def Buf.bad : Buf → Bool
  | .null c => c != 0
  | .bytes _ => false

/-- The bytes to be sent (src/lib/dev.c:1288-1289). -/
def Buf.data : Buf → List Byte
  | .null _ => []
  | .bytes bs => bs

/-- `flow_write` up to the allocation (src/lib/dev.c:1245-1276, 1279-1281; `fd` is valid). -/
def writeCall (s : St) (b : Buf) : St × Ret :=
  if b.bad then (s, .ret (-EINVAL))
  else if !s.fl.isOpen then (s, .ret (-ENOTALLOC))
  else if s.fl.oflags &&& FLOWFACCMODE = FLOWFRDONLY then (s, .ret (-EPERM))
  else ({ s with writers := s.writers ++ [⟨b.data, s.fl.oflags &&& FLOWFWNOBLOCK ≠ 0, s.fl.sndTimeo.isSome, .alloc⟩] }, .inside)

/-- The allocation succeeds with packet `i`; it is filled and its CRC added (src/lib/dev.c:1277, 1282-1289, 1195-1208). -/
def writerAlloc (s : St) (w i : Nat) : St × Ret :=
  match s.writers[w]? with
  | none => (s, .inside)
  | some x =>
    match x.pc with
    | .alloc => ({ s with pool := upd s.pool i (some (wire s.fl x.data)), writers := s.writers.set w { x with pc := .tx i } },
        .inside)
    | _ => (s, .inside)

/-- The allocation fails: at once, or when the deadline passes (src/lib/dev.c:1277-1286, src/lib/shm_rdrbuff.c:321, 438-439). -/
def writerRefused (s : St) (w : Nat) : St × Ret :=
  match s.writers[w]? with
  | none => (s, .inside)
  | some x =>
    match x.pc with
    | .alloc =>
      if x.nonblock then ({ s with writers := s.writers.eraseIdx w }, .ret (-EAGAIN))
      else if x.timed then ({ s with writers := s.writers.eraseIdx w }, .ret (-ETIMEDOUT))
      else (s, .inside)
    | _ => (s, .inside)

/-- Run an operation of the ring model on one ring; its waiters are in `St` (src/lib/dev.c:1213, 1215, 1319-1320). -/
def onRing (r : Ring) (f : Rbuff.Sys → Outcome (Rbuff.Sys × Out)) : Outcome (Ring × Out) := do
  let x ← f { ring := r, waiting := [] }
  return (x.1.ring, x.2)

/-- What follows the ring write: sleep again, or remove the packet on failure, and return (src/lib/dev.c:1217-1224, 1293). The
result of the ring write is not returned. -/
def writerEnd (s : St) (w : Nat) (x : Writer) (i : Nat) (r : Ring × Out) : Outcome (St × Ret) :=
  match r.2 with
  | .sleep => .ok ({ s with tx := r.1, writers := s.writers.set w { x with pc := .txWait i } }, .inside)
  | .ret v =>
    let s1 := { s with tx := r.1, writers := s.writers.eraseIdx w }
    if v < 0 then do
      let s2 ← freePkt s1 i
      return (s2, .ret x.data.length)
    else .ok (s1, .ret x.data.length)

/-- The choice of src/lib/dev.c:1212-1215. -/
def ringWrite (r : Ring) (nonblock : Bool) (i : Nat) : Outcome (Ring × Out) :=
  if nonblock then onRing r (Rbuff.write · i) else onRing r (Rbuff.writeB · i)

/-- The ring write of `flow_tx_sdb` (src/lib/dev.c:1212-1215), or a return from its wait with result `rc`. -/
def writerTx (s : St) (w : Nat) (rc : Int) : Outcome (St × Ret) :=
  match s.writers[w]? with
  | none => .ok (s, .inside)
  | some x =>
    match x.pc with
    | .alloc => .ok (s, .inside)
    | .tx i => do
      let r ← ringWrite s.tx x.nonblock i
      writerEnd s w x i r
    | .txWait i => do
      let r ← onRing s.tx (Rbuff.writeBLoop · i (-rc))
      writerEnd s w x i r

/-- `flow_read` up to the loop (src/lib/dev.c:1356-1385; `fd` is valid). -/
def readCall (s : St) (count : Nat) : St × Ret :=
  if !s.fl.isOpen then (s, .ret (-ENOTALLOC))
  else
    let block := decide (s.fl.oflags &&& FLOWFRNOBLOCK = 0)
    let partrd := decide (s.fl.oflags &&& FLOWFRNOPART = 0)
    let timed := s.fl.rcvTimeo.isSome
    match s.fl.part with
    | .done => ({ s with fl := { s.fl with part := .no } }, .data [])
    | .no => ({ s with readers := s.readers ++ [⟨count, block, partrd, timed, .rx⟩] }, .inside)
    | .at i => ({ s with readers := s.readers ++ [⟨count, block, partrd, timed, .got i true⟩] }, .inside)

/-- A packet came out of the ring: `flow_rx_sdb` from line 1332 on and the loop around it (src/lib/dev.c:1332-1338,
1390-1402). -/
def readerPkt (s : St) (r : Nat) (x : Reader) (i : Nat) : Outcome (St × Ret) := do
  let bs ← getPkt s i
  let p ← rxCheck s.fl bs
  match p with
  | some q => .ok ({ s with pool := upd s.pool i (some q), readers := s.readers.set r { x with pc := .got i false } }, .inside)
  | none =>
    let s1 ← freePkt s i
    if x.block then .ok ({ s1 with readers := s1.readers.set r { x with pc := .rx } }, .inside)
    else .ok ({ s1 with readers := s1.readers.eraseIdx r }, .ret (-EAGAIN))

/-- What follows the ring read (src/lib/dev.c:1321-1322, 1390-1398). -/
def readerCont (s : St) (r : Nat) (x : Reader) (q : Ring × Out) : Outcome (St × Ret) :=
  let s1 := { s with rx := q.1 }
  match q.2 with
  | .sleep => .ok ({ s1 with readers := s1.readers.set r { x with pc := .rxWait } }, .inside)
  | .ret v =>
    if v < 0 then
      if x.block && v == -EAGAIN then .ok ({ s1 with readers := s1.readers.set r { x with pc := .rx } }, .inside)
      else .ok ({ s1 with readers := s1.readers.eraseIdx r }, .ret v)
    else readerPkt s1 r x v.toNat

/-- The choice of src/lib/dev.c:1319-1320. -/
def ringRead (r : Ring) (block : Bool) : Outcome (Ring × Out) :=
  if block then onRing r Rbuff.readB else onRing r Rbuff.read

/-- The ring read of `flow_rx_sdb` (src/lib/dev.c:1319-1320), or a return from its wait with result `rc`. -/
def readerRx (s : St) (r : Nat) (rc : Int) : Outcome (St × Ret) :=
  match s.readers[r]? with
  | none => .ok (s, .inside)
  | some x =>
    match x.pc with
    | .got _ _ => .ok (s, .inside)
    | .rx => do
      let q ← ringRead s.rx x.block
      readerCont s r x q
    | .rxWait => do
      let q ← onRing s.rx (Rbuff.readBLoop · (-rc))
      readerCont s r x q

/-- The rest of `flow_read` (src/lib/dev.c:1406-1444). Line 1432 releases `n`, the whole packet. -/
def readerDone (s : St) (r : Nat) : Outcome (St × Ret) :=
  match s.readers[r]? with
  | none => .ok (s, .inside)
  | some x =>
    match x.pc with
    | .got i _ => do
      let bs ← getPkt s i
      let s1 := { s with readers := s.readers.eraseIdx r }
      if bs.length ≤ x.count then
        let s2 ← freePkt s1 i
        return ({ s2 with fl := { s2.fl with part := if x.partrd && bs.length == x.count then .done else .no } }, .data bs)
      else if x.partrd then
        return ({ s1 with pool := upd s1.pool i (some (bs.drop bs.length)), fl := { s1.fl with part := .at i } },
          .data (bs.take x.count))
      else
        let s2 ← freePkt s1 i
        return (s2, .ret (-EMSGSIZE))
    | _ => .ok (s, .inside)

/-- The commands of `fccntl` with their arguments (src/lib/dev.c:1032-1137); `none` is a `NULL` pointer, for the commands that
store through a pointer `null` says whether it is `NULL`. -/
inductive Cmd where
  | setSnd (t : Option Time.Timespec)
  | getSnd (null : Bool)
  | setRcv (t : Option Time.Timespec)
  | getRcv (null : Bool)
  | getQos (null : Bool)
  | rxLen (null : Bool)
  | txLen (null : Bool)
  | setFlags (f : Nat)
  | getFlags (null : Bool)
  | setFrct (f : Nat)
  | getFrct (null : Bool)
  | other (cmd : Int)
  deriving Repr, DecidableEq

/-- `FLOWSFLAGS` (src/lib/dev.c:1081-1111): `oflags` is a `uint16_t`; both access words are computed from the one of the receive
ring; `shm_rbuff_set_acl` (src/lib/shm_rbuff_pthr.c:226-243). -/
def setFlags (s : St) (f : Nat) : St :=
  let o := f % 2 ^ 16
  let rxAcl := s.rx.acl
  let txAcl := s.rx.acl
  let rxAcl := if o &&& FLOWFWRONLY ≠ 0 then rxAcl ||| ACL_RDONLY else rxAcl
  let rxAcl := if o &&& FLOWFRDWR ≠ 0 then rxAcl ||| ACL_RDWR else rxAcl
  let down := o &&& FLOWFDOWN ≠ 0
  let rxAcl := if down then rxAcl ||| ACL_FLOWDOWN else rxAcl &&& (2 ^ 32 - 1 - ACL_FLOWDOWN)
  let txAcl := if down then txAcl ||| ACL_FLOWDOWN else txAcl &&& (2 ^ 32 - 1 - ACL_FLOWDOWN)
  { s with fl := { s.fl with oflags := o }, rx := { s.rx with acl := rxAcl }, tx := { s.tx with acl := txAcl } }

/-- Store through a pointer of the caller (src/lib/dev.c:1074-1079 do not check it). -/
def store (null : Bool) (s : St) (r : Ret) : Outcome (St × Ret) := if null then .ub else .ok (s, r)

/-- `fccntl` on a valid descriptor (src/lib/dev.c:1020-1153); `frcti_setflags`/`frcti_getflags` are src/lib/frct.c:448-477. -/
def fccntl (s : St) (c : Cmd) : Outcome (St × Ret) :=
  if !s.fl.isOpen then .ok (s, .ret (-ENOTALLOC)) else
  match c with
  | .setSnd t => .ok ({ s with fl := { s.fl with sndTimeo := t } }, .ret 0)
  | .getSnd null =>
    if null then .ok (s, .ret (-EINVAL))
    else match s.fl.sndTimeo with
      | none => .ok (s, .ret (-EPERM))
      | some t => .ok (s, .timeo t)
  | .setRcv t => .ok ({ s with fl := { s.fl with rcvTimeo := t } }, .ret 0)
  | .getRcv null =>
    if null then .ok (s, .ret (-EINVAL))
    else match s.fl.rcvTimeo with
      | none => .ok (s, .ret (-EPERM))
      | some t => .ok (s, .timeo t)
  | .getQos null => if null then .ok (s, .ret (-EINVAL)) else .ok (s, .qos s.fl.qs)
  | .rxLen null => store null s (.len s.rx.used)
  | .txLen null => store null s (.len s.tx.used)
  | .setFlags f => .ok (setFlags s f, .ret 0)
  | .getFlags null => if null then .ok (s, .ret (-EINVAL)) else .ok (s, .flags s.fl.oflags)
  | .setFrct f =>
    match s.fl.frct with
    | none => .ok (s, .ret (-EPERM))
    | some c => .ok ({ s with fl := { s.fl with frct := some ((c &&& FRCTFRTX) &&& (f % 2 ^ 16 ||| FRCTFRTX)) } }, .ret 0)
  | .getFrct null =>
    if null then .ok (s, .ret (-EINVAL))
    else match s.fl.frct with
      | none => .ok (s, .ret (-EPERM))
      | some c => .ok (s, .flags c)
  | .other _ => .ok (s, .ret (-ENOTSUP))

/-- Descriptor check of `fccntl` (src/lib/dev.c:1017-1020), with `flows fd` the entry of `ai.flows`, an array of
`PROG_MAX_FLOWS` entries. -/
def fccntlFd (flows : Int → St) (fd : Int) (c : Cmd) : Outcome (St × Ret) :=
  if fd < 0 ∨ SYS_MAX_FLOWS ≤ fd then .ok (flows fd, .ret (-EBADF))
  else if PROG_MAX_FLOWS ≤ fd then .ub
  else fccntl (flows fd) c

/-- Descriptor check of `flow_write` (src/lib/dev.c:1245-1251). -/
def writeFd (flows : Int → St) (fd : Int) (b : Buf) : Outcome (St × Ret) :=
  if b.bad then .ok (flows fd, .ret (-EINVAL))
  else if fd < 0 ∨ PROG_MAX_FLOWS ≤ fd then .ok (flows fd, .ret (-EBADF))
  else .ok (writeCall (flows fd) b)

/-- Descriptor check of `flow_read` (src/lib/dev.c:1356-1359). -/
def readFd (flows : Int → St) (fd : Int) (count : Nat) : Outcome (St × Ret) :=
  if fd < 0 ∨ PROG_MAX_FLOWS ≤ fd then .ok (flows fd, .ret (-EBADF))
  else .ok (readCall (flows fd) count)

/-- After a ring write of a packet made elsewhere (src/lib/dev.c:286-289, 1217-1220): the packet stays with the ring or is removed. -/
def putEnd (s : St) (i : Nat) (bs : List Byte) (refused : Int → Bool) (toRx : Bool) (q : Ring × Out) : St × Ret :=
  let s1 := if toRx then { s with rx := q.1 } else { s with tx := q.1 }
  match q.2 with
  | .ret v => if refused v then (s1, .ret v) else ({ s1 with pool := upd s1.pool i (some bs) }, .ret v)
  | .sleep => (s1, .inside)

/-- `flow_send_keepalive` (src/lib/dev.c:272-293): an empty packet `i`. -/
def keepalive (s : St) (i : Nat) : Outcome (St × Ret) := do
  let q ← onRing s.tx (Rbuff.write · i)
  return putEnd s i [] (· ≠ 0) false q

/-- The other end puts packet `i` in our receive ring (`ipcp_flow_write` and `flow_tx_sdb`, src/lib/dev.c:1901-1929, 1210-1218:
it removes the packet on failure). If it has to wait nothing happens; it enters the ring again later (simplified: with the
access check repeated). -/
def peerPut (s : St) (i : Nat) (bs : List Byte) : Outcome (St × Ret) := do
  let q ← onRing s.rx (Rbuff.writeB · i)
  return putEnd s i bs (· < 0) true q

/-- What follows the ring read of the other end (src/lib/dev.c:1886-1898). -/
def peerGetEnd (s : St) (q : Ring × Out) : Outcome (St × Ret) :=
  let s1 := { s with tx := q.1 }
  match q.2 with
  | .sleep => .ok (s1, .inside)
  | .ret v =>
    if v < 0 then .ok (s1, .ret v)
    else do
      let bs ← getPkt s1 v.toNat
      let s2 ← freePkt s1 v.toNat
      return (s2, .data bs)

/-- The other end takes a packet from our transmit ring (`ipcp_flow_read`, src/lib/dev.c:1869-1899); the packet is then its
responsibility. -/
def peerGet (s : St) : Outcome (St × Ret) := do
  let q ← onRing s.tx Rbuff.read
  peerGetEnd s q

/-- The keepalive of the peer is overdue (src/lib/dev.c:310-322). -/
def peerTimeout (s : St) : St :=
  if s.rx.acl &&& (ACL_FLOWPEER ||| ACL_FLOWDOWN) ≠ 0 then s else { s with rx := { s.rx with acl := ACL_FLOWPEER } }

/-- The other end closes the flow (`ipcp_flow_fini`, src/lib/dev.c:2020-2021). -/
def peerDown (s : St) : St := { s with rx := { s.rx with acl := ACL_FLOWDOWN }, tx := { s.tx with acl := ACL_FLOWDOWN } }

/-- Steps of the threads of both processes (src/lib/dev.c:272-330, 1002-1445, 1869-1929, 2020-2021). -/
inductive Op where
  | write (b : Buf)
  | writerAlloc (w i : Nat)
  | writerRefused (w : Nat)
  | writerTx (w : Nat) (rc : Int)
  | read (count : Nat)
  | readerRx (r : Nat) (rc : Int)
  | readerDone (r : Nat)
  | fccntl (c : Cmd)
  | keepalive (i : Nat)
  | peerPut (i : Nat) (bs : List Byte)
  | peerGet
  | peerTimeout
  | peerDown
  deriving Repr, DecidableEq

/-- Dispatch (src/lib/dev.c:272-330, 1002-1445, 1869-1929, 2020-2021). -/
def step (s : St) : Op → Outcome (St × Ret)
  | .write b => .ok (writeCall s b)
  | .writerAlloc w i => .ok (writerAlloc s w i)
  | .writerRefused w => .ok (writerRefused s w)
  | .writerTx w rc => writerTx s w rc
  | .read count => .ok (readCall s count)
  | .readerRx r rc => readerRx s r rc
  | .readerDone r => readerDone s r
  | .fccntl c => FlowIo.fccntl s c
  | .keepalive i => FlowIo.keepalive s i
  | .peerPut i bs => FlowIo.peerPut s i bs
  | .peerGet => FlowIo.peerGet s
  | .peerTimeout => .ok (FlowIo.peerTimeout s, .ret 0)
  | .peerDown => .ok (FlowIo.peerDown s, .ret 0)

/-- A new raw flow (src/lib/dev.c:442-534, 476-477): default flags, rings of `2^k` cells (`SHM_RBUFF_SIZE`). -/
def init (k : Nat) (qs : Qoscube.Spec) : St :=
  { fl := { isOpen := true, oflags := FLOWFDEFAULT, part := .no, sndTimeo := none, rcvTimeo := none, qs := qs, frct := none },
    rx := Rbuff.create (2 ^ k), tx := Rbuff.create (2 ^ k), pool := fun _ => none, writers := [], readers := [] }

end Ouro.FlowIo
