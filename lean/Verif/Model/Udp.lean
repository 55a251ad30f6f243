import Verif.Model.FaMsg

/-!
# Model of the IPCP over UDP (src/ipcpd/udp/main.c)

Hosts that run the IPCP, and the datagrams they sent. A datagram that was sent may be received never, once or often, at any later time. A host has the threads of the IPCP: the reader, the handler of management
frames, the writers and the threads that carry out commands of the daemon. The places where another thread can come in between are separate steps.

Simplifications: a socket address is one number (all hosts use the same port, as `udp_ipcp_flow_alloc` supposes); 0 is the zeroed structure. What the directory says is a choice of the environment. `malloc` and `sendto` do
not fail, except that nothing is sent to the zeroed address. There is room in the packet buffer and in the rings (`Model/Rdrbuff`, `Model/Rbuff`). The set of flows the writers look at is not modelled (`Model/FlowSet`).
-/

namespace Ouro.Udp

open Ouro.FaMsg (beBytes beVal)

/-- `qosspec_t` (include/ouroboros/qos.h:31-41). -/
abbrev Qos := Qoscube.Spec

/-- src/ipcpd/udp/main.c:59 -/
def FLOW_REQ : Byte := 1
/-- src/ipcpd/udp/main.c:60 -/
def FLOW_REPLY : Byte := 2
/-- IPCP_UDP_MAX_PACKET_SIZE (src/ipcpd/udp/main.c:63). -/
def MAX_PACKET : Nat := 8980
/-- MGMT_FRAME_SIZE, the size of the packed `struct mgmt_msg` (src/ipcpd/udp/main.c:75, 87-104). -/
def MSG_LEN : Nat := 46
/-- MGMT_FRAME_BUF_SIZE (src/ipcpd/udp/main.c:76). -/
def FRAME_BUF : Nat := 2048
/-- The length of an MD5 digest: `ipcp_dir_hash_len()` with the algorithm of src/ipcpd/udp/main.c:598. -/
def HASH_LEN : Nat := 16
/-- The entries of `fd_to_uf` (src/ipcpd/udp/main.c:128). -/
def SYS_MAX_FLOWS : Nat := 10240
/-- The entries of `ai.flows` (src/lib/dev.c:600). -/
def PROG_MAX_FLOWS : Nat := 4096
/-- The first descriptor (src/lib/dev.c:582). -/
def PROG_RES_FDS : Nat := 64
/-- `d_eid = -1`, as it is sent (src/ipcpd/udp/main.c:161, 1028). -/
def NO_EID : Nat := 4294967295

/-- What is not written before the message is sent: the memory comes from `malloc` (src/ipcpd/udp/main.c:216, 258). -/
structure Junk where
  dEid : BitVec 32
  response : Byte
  rest : BitVec 256
  deriving DecidableEq, Repr

/-- The request of `udp_ipcp_port_alloc` (src/ipcpd/udp/main.c:202-248). -/
def request (sEid : Nat) (q : Qos) (dst data : List Byte) (j : Junk) : List Byte :=
  [beBytes 4 0, beBytes 4 sEid, beBytes 4 j.dEid.toNat, [FLOW_REQ], [j.response], [BitVec.ofNat 8 q.availability], [BitVec.ofNat 8 q.inOrder],
   beBytes 8 q.bandwidth, beBytes 4 q.delay, beBytes 4 q.loss, beBytes 4 q.ber, beBytes 4 q.maxGap, beBytes 4 q.timeout, beBytes 2 q.cypherS].flatten ++ (dst ++ data)

/-- The reply of `udp_ipcp_port_alloc_resp` (src/ipcpd/udp/main.c:250-281). -/
def reply (sEid dEid : Nat) (response : Int) (data : List Byte) (j : Junk) : List Byte :=
  [beBytes 4 0, beBytes 4 sEid, beBytes 4 dEid, [FLOW_REPLY], [BitVec.ofInt 8 response], beBytes 32 j.rest.toNat].flatten ++ data

/-- What `udp_ipcp_packet_writer` sends for a packet (src/ipcpd/udp/main.c:538-572). -/
def packet (eid : Nat) (p : List Byte) : List Byte := beBytes 4 eid ++ p

/-- What the handler makes of a management frame. [src/ipcpd/udp/main.c:343-392] -/
inductive Msg where
  | request (sEid : Nat) (q : Qos) (dst data : List Byte)
  | reply (sEid dEid : Nat) (response : Int) (data : List Byte)
  | unknown
  deriving DecidableEq, Repr

/-- `udp_ipcp_mgmt_frame` (src/ipcpd/udp/main.c:343-392), up to the calls. The tests of the length are assertions: without them `data.len` of a short request is close to 2^64. -/
def parse (b : List Byte) : Outcome Msg := do
  let code ← rd b 12
  if code = FLOW_REQ then
    if b.length < MSG_LEN + HASH_LEN then .ub
    else
      let sEid ← slice b 4 4
      let availability ← rd b 14
      let inOrder ← rd b 15
      let bandwidth ← slice b 16 8
      let delay ← slice b 24 4
      let loss ← slice b 28 4
      let ber ← slice b 32 4
      let maxGap ← slice b 36 4
      let timeout ← slice b 40 4
      let cypherS ← slice b 44 2
      let dst ← slice b MSG_LEN HASH_LEN
      return .request (beVal sEid)
        ⟨beVal delay, beVal bandwidth, availability.toNat, beVal loss, beVal ber, inOrder.toNat, beVal maxGap, beVal cypherS, beVal timeout⟩
        dst (b.drop (MSG_LEN + HASH_LEN))
  else if code = FLOW_REPLY then
    if b.length < MSG_LEN then .ub
    else
      let sEid ← slice b 4 4
      let dEid ← slice b 8 4
      let response ← rd b 13
      return .reply (beVal sEid) (beVal dEid) response.toInt (b.drop MSG_LEN)
  else return .unknown

/-- `struct uf` (src/ipcpd/udp/main.c:114-117); `dEid` as 32 bits unsigned. -/
structure Uf where
  dEid : Nat
  addr : Nat
  deriving DecidableEq, Repr

/-- A management frame in the queue (src/ipcpd/udp/main.c:106-111); `idx` is a ghost: which datagram it was. -/
structure Frame where
  idx : Nat
  src : Nat
  buf : List Byte
  deriving DecidableEq, Repr

/-- The handler has a descriptor for a request and has not yet stored who asked. [src/ipcpd/udp/main.c:291-301] -/
structure Busy where
  fd : Nat
  src : Nat
  eid : Nat
  deriving DecidableEq, Repr

/-- A host: `ai.flows[fd].info.id >= 0`; `fd_to_uf`; the threads in `udp_ipcp_flow_alloc` between sending and storing; the queue; the handler; `alloc_id`; which flows the application can write to; the packets the
writers have taken. [src/ipcpd/udp/main.c:119-139, src/ipcpd/ipcp.h:100-102] -/
structure Host where
  live : Nat → Bool
  uf : Nat → Uf
  pend : List (Nat × Nat)
  queue : List Frame
  busy : Option Busy
  await : Option Nat
  opened : Nat → Bool
  wr : Nat → Option (Nat × List Byte)

/-- `udp_data_init` (src/ipcpd/udp/main.c:141-170). -/
def Host.init : Host := ⟨fun _ => false, fun _ => ⟨NO_EID, 0⟩, [], [], none, none, fun _ => false, fun _ => none⟩

/-- What users of the layer see: `requested`: the flow `f` of host `a` asks for name `h` at host `b`; `offered`: host `b` offers the daemon flow `g` for a request from flow `f` of `a` (`i` is a ghost: the datagram);
`responded`: the daemon's response is sent; `replied`: the daemon of the requester is told the response; `wrote`, `delivered`: packets. [src/ipcpd/udp/main.c:988-1066, 283-341, 426-581] -/
inductive Event where
  | requested (a f b : Nat) (h : List Byte) (q : Qos) (d : List Byte)
  | offered (b g a f : Nat) (h : List Byte) (q : Qos) (d : List Byte) (i : Nat)
  | responded (b g : Nat) (d : List Byte)
  | replied (a f : Nat) (response : Int) (d : List Byte)
  | wrote (a f : Nat) (p : List Byte)
  | delivered (a f : Nat) (p : List Byte)
  deriving DecidableEq, Repr

/-- A datagram. [src/ipcpd/udp/main.c:238, 271, 568] -/
structure Dgram where
  src : Nat
  dst : Nat
  bytes : List Byte
  deriving DecidableEq, Repr

/-- All hosts, all datagrams ever sent, and what was seen. [src/ipcpd/udp/main.c:119-139] -/
structure Net where
  hosts : Nat → Host
  net : List Dgram
  log : List Event

/-- The start. [src/ipcpd/udp/main.c:141-170] -/
def init : Net := ⟨fun _ => Host.init, [], []⟩

/-- Host `a` changes. [src/ipcpd/udp/main.c:119-139] -/
def Net.set (s : Net) (a : Nat) (h : Host) : Net := { s with hosts := fun i => if i = a then h else s.hosts i }

/-- One entry changes. [src/ipcpd/udp/main.c:328] -/
def upd {α : Type} (f : Nat → α) (k : Nat) (v : α) : Nat → α := fun i => if i = k then v else f i

/-- Steps. [src/ipcpd/udp/main.c:202-1084] -/
inductive Op where
  /-- a command to allocate flow `fd` to `dst`, which the directory finds at `res` -/
  | alloc (a fd : Nat) (res : Option Nat) (dst : List Byte) (q : Qos) (data : List Byte) (j : Junk)
  /-- that thread goes on after sending -/
  | store (a fd : Nat)
  /-- the reader of its host receives the datagram `i` -/
  | recv (i : Nat)
  /-- the handler of host `a` takes a frame; if it is a request, the daemon gives it descriptor `fd`, or refuses -/
  | mgmt (a : Nat) (fd : Option Nat)
  /-- the handler goes on after it got a descriptor -/
  | mgmtStore (a : Nat)
  /-- a command to respond for flow `fd` -/
  | resp (a fd : Nat) (response : Int) (data : List Byte) (j : Junk)
  /-- the application writes a packet, and writer `w` takes it -/
  | write (a w fd : Nat) (p : List Byte)
  /-- writer `w` goes on and sends it -/
  | send (a w : Nat)
  | dealloc (a fd : Nat)
  /-- somebody else sends a datagram -/
  | inject (d : Dgram)
  deriving DecidableEq, Repr

/-- The descriptor is one `flow_init` can give out now (src/lib/dev.c:453-457, 582). -/
def freeFd (h : Host) (fd : Nat) : Bool := decide (PROG_RES_FDS ≤ fd) && decide (fd < PROG_MAX_FLOWS) && !h.live fd

/-- `udp_ipcp_packet_reader` for one datagram (src/ipcpd/udp/main.c:442-496): host and events after it. What is longer than the buffer is cut off. -/
def reader (h : Host) (a i : Nat) (d : Dgram) : Outcome (Host × List Event) :=
  let b := d.bytes.take MAX_PACKET
  if b.length < 4 then .ok (h, [])
  else
    let eid := beVal (b.take 4)
    if eid = 0 then
      if b.length < MSG_LEN then .ok (h, [])
      else if FRAME_BUF < b.length then .ub
      else .ok ({ h with queue := ⟨i, d.src, b⟩ :: h.queue }, [])
    else if PROG_MAX_FLOWS ≤ eid then .ub
    else if h.live eid then .ok (h, [.delivered a eid (b.drop 4)])
    else .ok (h, [])

/-- `udp_ipcp_port_alloc_reply` (src/ipcpd/udp/main.c:310-341) and `ipcp_flow_alloc_reply` (src/lib/dev.c:1839-1867). The daemon knows no flow -1; a flow it is told is allocated can be used. -/
def allocReply (h : Host) (a src sEid dEid : Nat) (response : Int) (data : List Byte) : Outcome (Host × List Event) :=
  if SYS_MAX_FLOWS ≤ sEid then .ub
  else if (h.uf sEid).addr ≠ src then .ok (h, [])
  else
    let h1 := if response = 0 then { h with uf := upd h.uf sEid ⟨dEid, (h.uf sEid).addr⟩ } else h
    if PROG_MAX_FLOWS ≤ sEid then .ub
    else if h.live sEid then
      .ok (if response = 0 then { h1 with opened := upd h1.opened sEid true } else h1, [.replied a sEid response data])
    else .ok (h1, [])

/-- The handler takes the first frame (src/ipcpd/udp/main.c:398-419; frames are added in front, 481) and handles it. While `alloc_id` is in use
(src/ipcpd/ipcp.c:281-286) the handler waits; the model leaves the frame in the queue. -/
def mgmt (h0 : Host) (a : Nat) (fd : Option Nat) : Outcome (Host × List Event) :=
  match h0.busy, h0.queue with
  | none, fr :: rest =>
    let h := { h0 with queue := rest }
    match parse fr.buf with
    | .ub => .ub
    | .ok .unknown => .ok (h, [])
    | .ok (.reply sEid dEid response data) => allocReply h a fr.src sEid dEid response data
    | .ok (.request sEid q dst data) =>
      /- udp_ipcp_port_req, ipcp_wait_flow_req_arr: src/ipcpd/udp/main.c:283-291, src/ipcpd/ipcp.c:281-309 -/
      if h.await ≠ none then .ok (h0, [])
      else match fd with
        | none => .ok (h, [])
        | some g =>
          if freeFd h g then
            .ok ({ h with live := upd h.live g true, await := some g, busy := some ⟨g, fr.src, sEid⟩ }, [.offered a g fr.src sEid dst q data fr.idx])
          else .ok (h, [])
  | _, _ => .ok (h0, [])

/-- One step (src/ipcpd/udp/main.c, lines at each case); a step that is not possible now does nothing. -/
def step (s : Net) : Op → Outcome Net
  /- udp_ipcp_flow_alloc, up to sendto: src/ipcpd/udp/main.c:988-1024; np1_flow_alloc: src/lib/dev.c:1732-1746 -/
  | .alloc a fd res dst q data j =>
    if a = 0 ∨ freeFd (s.hosts a) fd = false ∨ dst.length ≠ HASH_LEN then .ok s
    else
      let h := { s.hosts a with live := upd (s.hosts a).live fd true }
      match res with
      | none => .ok (s.set a h)
      | some b =>
        if b = 0 then .ok (s.set a h)
        else .ok { (s.set a { h with pend := (fd, b) :: h.pend }) with
          net := s.net ++ [⟨a, b, request fd q dst data j⟩], log := s.log ++ [.requested a fd b dst q data] }
  /- src/ipcpd/udp/main.c:1026-1035 -/
  | .store a fd =>
    match (s.hosts a).pend.find? (fun x => x.1 == fd) with
    | none => .ok s
    | some x => .ok (s.set a { s.hosts a with pend := (s.hosts a).pend.erase x, uf := upd (s.hosts a).uf fd ⟨NO_EID, x.2⟩ })
  /- src/ipcpd/udp/main.c:442-496 -/
  | .recv i =>
    match s.net[i]? with
    | none => .ok s
    | some d =>
      match reader (s.hosts d.dst) d.dst i d with
      | .ub => .ub
      | .ok r => .ok { (s.set d.dst r.1) with log := s.log ++ r.2 }
  /- src/ipcpd/udp/main.c:398-419 -/
  | .mgmt a fd =>
    match mgmt (s.hosts a) a fd with
    | .ub => .ub
    | .ok r => .ok { (s.set a r.1) with log := s.log ++ r.2 }
  /- src/ipcpd/udp/main.c:297-302 -/
  | .mgmtStore a =>
    match (s.hosts a).busy with
    | none => .ok s
    | some b => .ok (s.set a { s.hosts a with busy := none, uf := upd (s.hosts a).uf b.fd ⟨b.eid, b.src⟩ })
  /- do_flow_alloc_resp: src/ipcpd/ipcp.c:571-605; udp_ipcp_flow_alloc_resp: src/ipcpd/udp/main.c:1038-1066; with a response other than 0 the descriptor is -1 -/
  | .resp a fd response data j =>
    if response ≠ 0 then
      if (s.hosts a).await = none then .ub else .ok s
    else if (s.hosts a).await ≠ some fd then .ok s
    else
      let h := { s.hosts a with await := none }
      let u := h.uf fd
      if u.addr = 0 then .ok (s.set a h)
      else .ok { (s.set a { h with opened := upd h.opened fd true }) with
        net := s.net ++ [⟨a, u.addr, reply u.dEid fd response data j⟩], log := s.log ++ [.responded a fd data] }
  /- src/ipcpd/udp/main.c:530-549 -/
  | .write a w fd p =>
    if (s.hosts a).live fd ∧ (s.hosts a).opened fd ∧ (s.hosts a).wr w = none ∧ p.length ≤ MAX_PACKET then
      .ok { (s.set a { s.hosts a with wr := upd (s.hosts a).wr w (some (fd, p)) }) with log := s.log ++ [.wrote a fd p] }
    else .ok s
  /- src/ipcpd/udp/main.c:551-572 -/
  | .send a w =>
    match (s.hosts a).wr w with
    | none => .ok s
    | some x =>
      let h := { s.hosts a with wr := upd (s.hosts a).wr w none }
      let u := h.uf x.1
      if u.addr = 0 then .ok (s.set a h)
      else .ok { (s.set a h) with net := s.net ++ [⟨a, u.addr, packet u.dEid x.2⟩] }
  /- udp_ipcp_flow_dealloc: src/ipcpd/udp/main.c:1068-1084 -/
  | .dealloc a fd =>
    if (s.hosts a).live fd then
      .ok (s.set a { s.hosts a with live := upd (s.hosts a).live fd false, opened := upd (s.hosts a).opened fd false, uf := upd (s.hosts a).uf fd ⟨NO_EID, 0⟩ })
    else .ok s
  /- the network: anybody can send a datagram to the port (src/ipcpd/udp/main.c:618-633) -/
  | .inject d => .ok { s with net := s.net ++ [d] }

/-- A history. [src/ipcpd/udp/main.c:394-581] -/
def run (s : Net) : List Op → Outcome Net
  | [] => .ok s
  | op :: l =>
    match step s op with
    | .ub => .ub
    | .ok s1 => run s1 l

end Ouro.Udp
