import Verif.Model.FaMsg

/-!
# Model of the IPCP over Ethernet with LLC (src/ipcpd/eth/eth.c, built with BUILD_ETH_LLC and raw sockets)

One host and whatever it receives: any frame can come in at any time. The host has the threads of the IPCP: readers, the handler of management frames, writers and the threads that carry out commands of the daemon. The
places where another thread can come in between and make a difference are separate steps.

Simplifications: an address is the number that `memcpy` makes of its 6 bytes (src/ipcpd/eth/eth.c:699). The set of SAPs is a set of which the lowest free one is allocated (`Model/Bitmap`, C01). `malloc` does not fail;
`sendto` may. There is room in the packet buffer and in the rings (`Model/Rdrbuff`, `Model/Rbuff`). The set of flows the writers look at is not modelled (`Model/FlowSet`), nor are the queries that wait for an answer
(`Model/ShimData`) and the thread that watches the interface.
-/

namespace Ouro.EthLlc

open Ouro.FaMsg (beBytes beVal)

/-- `qosspec_t` (include/ouroboros/qos.h:31-41). -/
abbrev Qos := Qoscube.Spec

/-- What the layer was bootstrapped with: the address of the device, its MTU and the length of the hashes of names (src/ipcpd/eth/eth.c:1312-1325, 1249). -/
structure Cfg where
  mac : Nat
  mtu : Nat
  hashLen : Nat
  deriving DecidableEq, Repr

/-- src/ipcpd/eth/eth.c:143 -/
def FLOW_REQ : Byte := 0
/-- src/ipcpd/eth/eth.c:144 -/
def FLOW_REPLY : Byte := 1
/-- src/ipcpd/eth/eth.c:145 -/
def NAME_QUERY_REQ : Byte := 2
/-- src/ipcpd/eth/eth.c:146 -/
def NAME_QUERY_REPLY : Byte := 3
/-- src/ipcpd/eth/eth.c:131 -/
def MGMT_SAP : Nat := 1
/-- src/ipcpd/eth/eth.c:134 -/
def MAX_SAPS : Nat := 64
/-- src/ipcpd/eth/eth.c:141 -/
def MGMT_FRAME_SIZE : Nat := 2048
/-- The size of the packed `struct mgmt_msg` (src/ipcpd/eth/eth.c:150-175). -/
def MSG_LEN : Nat := 36
/-- ETH_HEADER_TOT_SIZE (src/ipcpd/eth/eth.c:115-117, 132-133). -/
def HDR_LEN : Nat := 17
/-- The entries of `ai.flows` (src/lib/dev.c:600). -/
def PROG_MAX_FLOWS : Nat := 4096
/-- The first descriptor (src/lib/dev.c:582). -/
def PROG_RES_FDS : Nat := 64

/-- `reverse_bits` (src/ipcpd/eth/eth.c:362-369). -/
def reverseBits (b : Byte) : Byte :=
  let b := (b &&& 0xF0) >>> 4 ||| (b &&& 0x0F) <<< 4
  let b := (b &&& 0xCC) >>> 2 ||| (b &&& 0x33) <<< 2
  (b &&& 0xAA) >>> 1 ||| (b &&& 0x55) <<< 1

/-- The frame that `eth_ipcp_send_frame` sends (src/ipcpd/eth/eth.c:373-419); `dsap` and `ssap` as they are in the frame. -/
def frame (dst src : Nat) (dsap ssap : Byte) (payload : List Byte) : List Byte :=
  [leBytes 6 dst, leBytes 6 src, beBytes 2 (3 + payload.length), [dsap], [ssap], [3]].flatten ++ payload

/-- What is not written before a message is sent: the memory comes from `malloc` (src/ipcpd/eth/eth.c:475, 528, 666). -/
structure Junk where
  byte1 : Byte
  byte2 : Byte
  rest : BitVec 264
  deriving DecidableEq, Repr

/-- The request of `eth_ipcp_alloc` (src/ipcpd/eth/eth.c:458-512). -/
def request (ssap : Nat) (q : Qos) (dst data : List Byte) (j : Junk) : List Byte :=
  [[BitVec.ofNat 8 ssap], [j.byte1], [FLOW_REQ], [BitVec.ofNat 8 q.availability], beBytes 4 q.loss, beBytes 8 q.bandwidth, beBytes 4 q.ber, beBytes 4 q.maxGap, beBytes 4 q.delay, beBytes 4 q.timeout,
   beBytes 2 q.cypherS, [BitVec.ofNat 8 q.inOrder], [j.byte2]].flatten ++ (dst ++ data)

/-- The reply of `eth_ipcp_alloc_resp` (src/ipcpd/eth/eth.c:514-562). -/
def reply (ssap dsap : Nat) (response : Int) (data : List Byte) (j : Junk) : List Byte :=
  [[BitVec.ofNat 8 ssap], [BitVec.ofNat 8 dsap], [FLOW_REPLY], beBytes 32 j.rest.toNat, [BitVec.ofInt 8 response]].flatten ++ data

/-- The question of `eth_ipcp_query` and the answer of `eth_ipcp_name_query_req` (src/ipcpd/eth/eth.c:1551-1560, 664-673). -/
def queryMsg (code : Byte) (hash : List Byte) (j : Junk) : List Byte :=
  [[j.byte1], [j.byte2], [code], beBytes 33 j.rest.toNat].flatten ++ hash

/-- What the handler makes of a management frame. [src/ipcpd/eth/eth.c:708-780] -/
inductive Msg where
  | request (ssap : Nat) (q : Qos) (dst data : List Byte)
  | reply (ssap dsap : Nat) (response : Int) (data : List Byte)
  | query (hash : List Byte)
  | answer (hash : List Byte)
  | unknown
  deriving DecidableEq, Repr

/-- `eth_ipcp_mgmt_frame` (src/ipcpd/eth/eth.c:708-780), up to the calls. The tests of the length are assertions, or there are none: what lies behind a short message is not initialised, and `data.len` of a short request is
close to 2^64. -/
def parse (L : Nat) (b : List Byte) : Outcome Msg := do
  let code ← rd b 2
  if code = FLOW_REQ then
    if b.length < MSG_LEN + L then .ub
    else
      let ssap ← rd b 0
      let availability ← rd b 3
      let loss ← slice b 4 4
      let bandwidth ← slice b 8 8
      let ber ← slice b 16 4
      let maxGap ← slice b 20 4
      let delay ← slice b 24 4
      let timeout ← slice b 28 4
      let cypherS ← slice b 32 2
      let inOrder ← rd b 34
      let dst ← slice b MSG_LEN L
      return .request ssap.toNat
        ⟨beVal delay, beVal bandwidth, availability.toNat, beVal loss, beVal ber, inOrder.toNat, beVal maxGap, beVal cypherS, beVal timeout⟩
        dst (b.drop (MSG_LEN + L))
  else if code = FLOW_REPLY then
    if b.length < MSG_LEN then .ub
    else
      let ssap ← rd b 0
      let dsap ← rd b 1
      let response ← rd b 35
      return .reply ssap.toNat dsap.toNat response.toInt (b.drop MSG_LEN)
  else if code = NAME_QUERY_REQ then
    let hash ← slice b MSG_LEN L
    return .query hash
  else if code = NAME_QUERY_REPLY then
    let hash ← slice b MSG_LEN L
    return .answer hash
  else return .unknown

/-- `struct ef` (src/ipcpd/eth/eth.c:193-201): the SAPs are `int8_t`. -/
structure Ef where
  sap : Int
  rSap : Int
  addr : Nat
  deriving DecidableEq, Repr

/-- src/ipcpd/eth/eth.c:279-287 -/
def Ef.init : Ef := ⟨-1, -1, 0⟩

/-- An `uint8_t` that is stored in an `int8_t` (src/ipcpd/eth/eth.c:584, 636). -/
def toI8 (x : Nat) : Int := if x < 128 then x else (x : Int) - 256

/-- An `int8_t` that is stored in an `uint8_t` (src/ipcpd/eth/eth.c:1053-1054, 1730). -/
def toU8 (x : Int) : Nat := (x % 256).toNat

/-- A management frame in the queue (src/ipcpd/eth/eth.c:203-208). -/
structure Frame where
  src : Nat
  buf : List Byte
  deriving DecidableEq, Repr

/-- The handler has a descriptor for a request and has not yet stored who asked. [src/ipcpd/eth/eth.c:575-588] -/
structure Busy where
  fd : Nat
  src : Nat
  ssap : Nat
  deriving DecidableEq, Repr

/-- What users and the network see. `registered`, `unregistered`: names of this host; `announced h a`: the host at `a` says it has name `h`; `answered a h`: it is told the same of this host; `requested fd a h`: the flow asks for name `h` at
address `a`; `offered`: the daemon is offered a flow for a request of SAP `ssap` of `src`; `assigned fd s`: the SAP of the flow, when its request or reply is sent; `responded`: the reply is sent; `replied`: the daemon is told
what `src` replied; `wrote`, `sent`, `delivered`: packets and frames; `closed`: the flow is gone. [src/ipcpd/eth/eth.c:564-1078, 1520-1743] -/
inductive Event where
  | registered (h : List Byte)
  | unregistered (h : List Byte)
  | announced (h : List Byte) (a : Nat)
  | answered (a : Nat) (h : List Byte)
  | requested (fd a : Nat) (h : List Byte) (q : Qos) (d : List Byte)
  | offered (fd src ssap : Nat) (h : List Byte) (q : Qos) (d : List Byte)
  | assigned (fd sap : Nat)
  | responded (fd : Nat) (d : List Byte)
  | replied (fd src ssap : Nat) (response : Int) (d : List Byte)
  | wrote (fd : Nat) (p : List Byte)
  | sent (fd : Nat) (bytes : List Byte)
  | delivered (fd src ssap : Nat) (p : List Byte)
  | closed (fd : Nat)
  deriving DecidableEq, Repr

/-- The host: `ai.flows[fd].info.id >= 0`; `fd_to_ef`; `ef_to_fd`; `saps`; the names; the directory; the queue; the handler; `alloc_id`; which flows the application can write to; the packets the writers have taken; management frames
sent (to whom, what); what was seen. [src/ipcpd/eth/eth.c:210-250, src/ipcpd/ipcp.h:100-102] -/
structure Host where
  live : Nat → Bool
  ef : Nat → Ef
  efToFd : Nat → Option Nat
  used : Nat → Bool
  reg : List (List Byte)
  dir : List (List Byte × Nat)
  queue : List Frame
  busy : Option Busy
  await : Option Nat
  opened : Nat → Bool
  wr : Nat → Option (Nat × List Byte)
  out : List (Nat × List Byte)
  log : List Event

/-- `eth_data_init` (src/ipcpd/eth/eth.c:252-315). -/
def init : Host :=
  ⟨fun _ => false, fun _ => .init, fun _ => none, fun _ => false, [], [], [], none, none, fun _ => false, fun _ => none, [], []⟩

/-- One entry changes. [src/ipcpd/eth/eth.c:1622-1623] -/
def upd {α : Type} (f : Nat → α) (k : Nat) (v : α) : Nat → α := fun i => if i = k then v else f i

/-- `bmp_allocate` on the set of 64 SAPs from 2 on (src/lib/bitmap.c:141-154, src/ipcpd/eth/eth.c:272). -/
def allocSap (used : Nat → Bool) : Option Nat := (List.range' 2 MAX_SAPS).find? (fun i => !used i)

/-- `bmp_release` (src/lib/bitmap.c:184-195): what is no SAP is ignored. -/
def releaseSap (used : Nat → Bool) (sap : Int) : Nat → Bool :=
  if 2 ≤ sap ∧ sap < 66 then upd used sap.toNat false else used

/-- The length test of `eth_ipcp_send_frame`, and whether `sendto` works (src/ipcpd/eth/eth.c:396-397, 444-452). -/
def sends (c : Cfg) (len : Nat) (ok : Bool) : Bool := decide (len + 3 ≤ c.mtu) && ok

/-- The descriptor is one `flow_init` can give out now (src/lib/dev.c:453-457, 582). -/
def freeFd (h : Host) (fd : Nat) : Bool := decide (PROG_RES_FDS ≤ fd) && decide (fd < PROG_MAX_FLOWS) && !h.live fd

/-- Steps. [src/ipcpd/eth/eth.c:458-1743] -/
inductive Op where
  | reg (h : List Byte)
  | unreg (h : List Byte)
  /-- a command to allocate flow `fd` to the name `dst` -/
  | alloc (fd : Nat) (dst : List Byte) (q : Qos) (data : List Byte) (ok : Bool) (j : Junk)
  /-- a reader receives the frame `fr`; `mem` is the memory behind it. If it is a management frame: what other threads write to the buffer before it is copied, if they do -/
  | recv (fr mem : List Byte) (over : Option (List Byte))
  /-- the handler takes a management frame; if it is a request, the daemon gives it descriptor `fd`, or refuses -/
  | mgmt (fd : Option Nat) (ok : Bool) (j : Junk)
  /-- the handler goes on after it got a descriptor -/
  | mgmtStore
  /-- a command to respond for flow `fd` -/
  | resp (fd : Nat) (response : Int) (data : List Byte) (ok : Bool) (j : Junk)
  /-- the application writes a packet, and writer `w` takes it -/
  | write (w fd : Nat) (p : List Byte)
  /-- writer `w` goes on and sends it -/
  | send (w : Nat) (ok : Bool)
  | dealloc (fd : Nat)
  deriving DecidableEq, Repr

/-- `eth_ipcp_flow_alloc` (src/ipcpd/eth/eth.c:1593-1654) after `np1_flow_alloc` (src/lib/dev.c:1732-1746). Nothing can come in between the tables and the frame that would make a difference: the SAP is not known to anybody
yet. -/
def alloc (c : Cfg) (s : Host) (fd : Nat) (dst : List Byte) (q : Qos) (data : List Byte) (ok : Bool) (j : Junk) : Outcome Host :=
  if freeFd s fd = false ∨ dst.length ≠ c.hashLen then .ok s
  else
    let s := { s with live := upd s.live fd true }
    match s.dir.find? (fun e => e.1 == dst) with
    | none => .ok s
    | some e =>
      match allocSap s.used with
      | none => .ok s
      | some sap =>
        if MAX_SAPS ≤ sap then .ub
        else
          let m := request sap q dst data j
          if sends c m.length ok then
            .ok { s with
              used := upd s.used sap true, ef := upd s.ef fd { s.ef fd with sap := sap }, efToFd := upd s.efToFd sap (some fd),
              out := s.out ++ [(e.2, frame e.2 c.mac (reverseBits 1) (reverseBits 1) m)], log := s.log ++ [.requested fd e.2 dst q data, .assigned fd sap] }
          else
            .ok { s with used := releaseSap (upd s.used sap true) sap, ef := upd s.ef fd { s.ef fd with sap := -1 }, efToFd := upd s.efToFd sap none }

/-- The reader, for one frame (src/ipcpd/eth/eth.c:867-991). Whose address the frame is sent to does not matter: the test for it has no consequence (904-914). -/
def recv (s : Host) (fr mem : List Byte) (over : Option (List Byte)) : Outcome Host := do
  let m := fr ++ mem
  let len ← slice m 12 2
  if 0x05FF < beVal len then .ok s
  else
    let length := (beVal len + 65533) % 65536
    let d ← rd m 14
    let e ← rd m 15
    let dsap := (reverseBits d).toNat
    let ssap := (reverseBits e).toNat
    if ssap = MGMT_SAP ∧ dsap = MGMT_SAP then
      /- the buffer is released before it is read -/
      let m := over.getD m
      let payload ← slice m HDR_LEN length
      let src ← slice m 6 6
      if MGMT_FRAME_SIZE < length then .ub
      else .ok { s with queue := ⟨leVal src, payload⟩ :: s.queue }
    else if MAX_SAPS ≤ dsap then .ub
    else match s.efToFd dsap with
      | none => .ok s
      | some fd =>
        let src ← slice m 6 6
        if (s.ef fd).rSap ≠ ssap ∨ (s.ef fd).addr ≠ leVal src then .ok s
        else
          let payload ← slice m HDR_LEN length
          if s.live fd then .ok { s with log := s.log ++ [.delivered fd (leVal src) ssap payload] } else .ok s

/-- `eth_ipcp_alloc_reply` (src/ipcpd/eth/eth.c:600-654) and `ipcp_flow_alloc_reply` (src/lib/dev.c:1839-1867). A flow the daemon is told is allocated can be used. -/
def allocReply (s : Host) (src ssap dsap : Nat) (response : Int) (data : List Byte) : Outcome Host :=
  if MAX_SAPS ≤ dsap then .ub
  else match s.efToFd dsap with
    | none => .ok s
    | some fd =>
      let s1 := if response ≠ 0 then { s with used := releaseSap s.used (s.ef fd).sap }
        else { s with ef := upd s.ef fd { s.ef fd with rSap := toI8 ssap, addr := src } }
      if s.live fd then
        .ok { s1 with opened := if response = 0 then upd s1.opened fd true else s1.opened, log := s1.log ++ [.replied fd src ssap response data] }
      else .ok s1

/-- The handler takes the first frame (src/ipcpd/eth/eth.c:782-823; frames are added in front, 949) and handles it (708-780). While `alloc_id` is in use (src/ipcpd/ipcp.c:281-286) the handler waits; the model leaves the frame in the
queue. -/
def mgmt (c : Cfg) (s0 : Host) (fd : Option Nat) (ok : Bool) (j : Junk) : Outcome Host :=
  match s0.busy, s0.queue with
  | none, fr :: rest =>
    let s := { s0 with queue := rest }
    match parse c.hashLen fr.buf with
    | .ub => .ub
    | .ok .unknown => .ok s
    | .ok (.reply ssap dsap response data) => allocReply s fr.src ssap dsap response data
    | .ok (.request ssap q dst data) =>
      /- eth_ipcp_req, ipcp_wait_flow_req_arr: src/ipcpd/eth/eth.c:564-598, src/ipcpd/ipcp.c:281-309 -/
      if s.reg.contains dst = false then .ok s
      else if s.await ≠ none then .ok s0
      else match fd with
        | none => .ok s
        | some g =>
          if freeFd s g then
            .ok { s with live := upd s.live g true, await := some g, busy := some ⟨g, fr.src, ssap⟩, log := s.log ++ [.offered g fr.src ssap dst q data] }
          else .ok s
    | .ok (.query hash) =>
      /- eth_ipcp_name_query_req: src/ipcpd/eth/eth.c:656-692 -/
      let m := queryMsg NAME_QUERY_REPLY hash j
      if s.reg.contains hash && sends c m.length ok then
        .ok { s with out := s.out ++ [(fr.src, frame fr.src c.mac (reverseBits 1) (reverseBits 1) m)], log := s.log ++ [.answered fr.src hash] }
      else .ok s
    | .ok (.answer hash) =>
      /- eth_ipcp_name_query_reply: src/ipcpd/eth/eth.c:694-706; shim_data_dir_add_entry: src/ipcpd/shim-data.c:365-399 -/
      .ok { s with dir := if s.dir.contains (hash, fr.src) then s.dir else (hash, fr.src) :: s.dir, log := s.log ++ [.announced hash fr.src] }
  | _, _ => .ok s0

/-- `do_flow_alloc_resp` (src/ipcpd/ipcp.c:571-605) and `eth_ipcp_flow_alloc_resp` (src/ipcpd/eth/eth.c:1656-1714). With a response other than 0 the descriptor is -1. -/
def resp (c : Cfg) (s : Host) (fd : Nat) (response : Int) (data : List Byte) (ok : Bool) (j : Junk) : Outcome Host :=
  if response ≠ 0 then
    if s.await = none then .ub else .ok s
  else if s.await ≠ some fd then .ok s
  else
    let s := { s with await := none }
    match allocSap s.used with
    | none => .ok s
    | some sap =>
      if MAX_SAPS ≤ sap then .ub
      else
        let s := { s with used := upd s.used sap true, ef := upd s.ef fd { s.ef fd with sap := sap }, efToFd := upd s.efToFd sap (some fd) }
        let m := reply sap (toU8 (s.ef fd).rSap) response data j
        if sends c m.length ok then
          .ok { s with
            opened := upd s.opened fd true, out := s.out ++ [((s.ef fd).addr, frame (s.ef fd).addr c.mac (reverseBits 1) (reverseBits 1) m)],
            log := s.log ++ [.responded fd data, .assigned fd sap] }
        else .ok { s with used := releaseSap s.used (s.ef fd).sap }

/-- One step (src/ipcpd/eth/eth.c, lines at each case); a step that is not possible now does nothing. -/
def step (c : Cfg) (s : Host) : Op → Outcome Host
  /- eth_ipcp_reg: src/ipcpd/eth/eth.c:1520-1529; shim_data_reg_add_entry: src/ipcpd/shim-data.c:287-322 -/
  | .reg h => if h.length ≠ c.hashLen then .ok s else .ok { s with reg := if s.reg.contains h then s.reg else h :: s.reg, log := s.log ++ [.registered h] }
  /- eth_ipcp_unreg: src/ipcpd/eth/eth.c:1531-1536; shim_data_reg_del_entry: src/ipcpd/shim-data.c:324-346 -/
  | .unreg h => .ok { s with reg := s.reg.erase h, log := s.log ++ [.unregistered h] }
  /- src/ipcpd/eth/eth.c:1593-1654 -/
  | .alloc fd dst q data ok j => alloc c s fd dst q data ok j
  /- src/ipcpd/eth/eth.c:867-991 -/
  | .recv fr mem over => recv s fr mem over
  /- src/ipcpd/eth/eth.c:782-823 -/
  | .mgmt fd ok j => mgmt c s fd ok j
  /- src/ipcpd/eth/eth.c:581-590 -/
  | .mgmtStore =>
    match s.busy with
    | none => .ok s
    | some b => .ok { s with busy := none, ef := upd s.ef b.fd { s.ef b.fd with rSap := toI8 b.ssap, addr := b.src } }
  /- src/ipcpd/eth/eth.c:1656-1714 -/
  | .resp fd response data ok j => resp c s fd response data ok j
  /- src/ipcpd/eth/eth.c:1030-1047 -/
  | .write w fd p =>
    if s.live fd ∧ s.opened fd ∧ s.wr w = none then .ok { s with wr := upd s.wr w (some (fd, p)), log := s.log ++ [.wrote fd p] } else .ok s
  /- src/ipcpd/eth/eth.c:1049-1071 -/
  | .send w ok =>
    match s.wr w with
    | none => .ok s
    | some x =>
      let e := s.ef x.1
      let s := { s with wr := upd s.wr w none }
      if sends c x.2.length ok then
        .ok { s with log := s.log ++ [.sent x.1 (frame e.addr c.mac (reverseBits (BitVec.ofNat 8 (toU8 e.rSap))) (reverseBits (BitVec.ofNat 8 (toU8 e.sap))) x.2)] }
      else .ok s
  /- eth_ipcp_flow_dealloc: src/ipcpd/eth/eth.c:1716-1743 -/
  | .dealloc fd =>
    if s.live fd then
      let sap := toU8 (s.ef fd).sap
      if MAX_SAPS ≤ sap then .ub
      else .ok { s with
        used := releaseSap s.used sap, ef := upd s.ef fd .init, efToFd := upd s.efToFd sap none, live := upd s.live fd false, opened := upd s.opened fd false, log := s.log ++ [.closed fd] }
    else .ok s

/-- A history. [src/ipcpd/eth/eth.c:782-1078] -/
def run (c : Cfg) (s : Host) : List Op → Outcome Host
  | [] => .ok s
  | op :: l =>
    match step c s op with
    | .ub => .ub
    | .ok s1 => run c s1 l

end Ouro.EthLlc
