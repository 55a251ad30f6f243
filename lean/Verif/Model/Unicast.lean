import Verif.Model.Fa
import Verif.Model.Bytes

/-!
# Model of the flows of a unicast layer (src/ipcpd/unicast/fa.c, src/ipcpd/unicast/dt.c, src/ipcpd/ipcp.c, src/lib/dev.c)

Any number of members, each with its flow allocator, and the packets between them.  A step is what happens between two points at which
other threads or members can come in between: the two halves of `fa_alloc`, the hand-over of a request to the daemon and the set-up of its
flow, the reading of a packet by the scheduler and its handling, the lookup of an arriving packet and its writing.

Every flow of an application with a member has a number of its own that is never used again; descriptors are used again.  The numbers in
packets (`src`) are not part of the packets in the code: they are there to say who sent them.

Simplifications.  Headers and messages are records (Model/Dt and Model/FaMsg have their bytes, C33 and C52 that they are read back as they were
written).  Next hops are arbitrary: a packet may go to any member, be lost, or be duplicated (by a layer below).  Names, QoS and piggybacked data
of requests are left out, as are statistics and congestion windows.  Messages of the flow allocator are taken from its list in any order (C45 has
the order).  `ca_ctx_create` succeeds.
-/

namespace Ouro.Unicast

open Ouro.Fa (Flow flowInit flowFini maxFlows)

/-- What a packet carries (src/ipcpd/unicast/fa.c:67-83): application data, or a message of the flow allocator. -/
inductive Body where
  | data (src : Nat) (bytes : List Byte)
  /-- FLOW_REQ (src/ipcpd/unicast/fa.c:760-778) -/
  | req (src : Nat) (sAddr sEid : BitVec 64)
  /-- FLOW_REPLY with response 0 (src/ipcpd/unicast/fa.c:824-837) -/
  | reply (rEid sEid : BitVec 64)
  /-- FLOW_UPDATE (src/ipcpd/unicast/fa.c:896-908) -/
  | update (rEid : BitVec 64)
  deriving DecidableEq, Repr

/-- A packet with its DT header (src/ipcpd/unicast/dt.c:80-86). -/
structure Pkt where
  dst : BitVec 64
  ttl : BitVec 8
  eid : BitVec 64
  body : Body
  deriving DecidableEq, Repr

/-- The layer: the number of members, their addresses, the id of the flow allocator (the same for all, src/ipcpd/unicast/fa.c:657), the initial TTL
(src/ipcpd/unicast/dt.c:591). -/
structure Layer where
  size : Nat
  addr : Nat → BitVec 64
  fa : BitVec 64
  ttl : BitVec 8

/-- A member (src/ipcpd/unicast/fa.c:92-127). -/
structure Node where
  /-- the flow behind a descriptor in use: `ai.flows[fd]` (src/lib/dev.c:90-113) -/
  np1 : Nat → Option Nat
  /-- `fa.flows` (src/ipcpd/unicast/fa.c:114) -/
  flows : Nat → Flow
  /-- threads between the two halves of `fa_alloc` (src/ipcpd/unicast/fa.c:778-790): flow, own id, destination -/
  allocating : Nat → Option (Nat × BitVec 64 × BitVec 64)
  /-- the worker between `ipcp_wait_flow_req_arr` and the set-up (src/ipcpd/unicast/fa.c:503-509): descriptor, flow, id and address of the requester -/
  worker : Option (Nat × Nat × BitVec 64 × BitVec 64)
  /-- `ipcpi.alloc_id` (src/ipcpd/ipcp.h:100) -/
  allocId : Option Nat
  /-- the descriptor is in the set of the packet scheduler (src/ipcpd/unicast/fa.c:125) -/
  sched : Nat → Bool
  /-- `fa_dealloc` has cleared the flow and not yet released the descriptor (src/ipcpd/unicast/fa.c:873-877) -/
  closing : Nat → Bool

/-- All members, the packets on their way, and the packets in the hands of threads (src/ipcpd/unicast/fa.c:92-127, the lines of each below). -/
structure State where
  node : Nat → Node
  /-- packets that have been written to an N-1 flow whose other end is this member (src/ipcpd/unicast/dt.c:491, 838) -/
  transit : List (Nat × Pkt)
  /-- `fa.cmds` of the members (src/ipcpd/unicast/fa.c:120) -/
  cmds : List (Nat × Body)
  /-- packets between `np1_flow_read` and `packet_handler` (src/ipcpd/unicast/psched.c:105-108): member, descriptor, flow, contents -/
  reading : List (Nat × Nat × Nat × List Byte)
  /-- packets between the lookup and `ipcp_flow_write` in `fa_np1_rcv` (src/ipcpd/unicast/fa.c:937-956): member, descriptor, sender, contents -/
  writing : List (Nat × Nat × Nat × List Byte)
  /-- calls of `fa_update_remote` (src/ipcpd/unicast/fa.c:968): member and descriptor -/
  updating : List (Nat × Nat)
  /-- the ring from the application of a flow (src/lib/dev.c:95) -/
  ring : Nat → List (List Byte)
  /-- ACL_FLOWDOWN on the rings of a flow (src/lib/dev.c:2020-2021) -/
  down : Nat → Bool
  /-- the number of the next flow -/
  next : Nat
  /-- a member has dereferenced a missing congestion context (src/ipcpd/unicast/ca/mb-ecn.c:107-240) -/
  crashed : Bool
  /-- history: the member of a flow -/
  home : Nat → Nat
  /-- history: the endpoint id of a flow -/
  eidOf : Nat → Option (BitVec 64)
  /-- history: the address of the other member -/
  far : Nat → BitVec 64
  /-- history: the flow was requested by an application of its member -/
  asker : Nat → Bool
  /-- history: requesting flow, and flow set up for the request -/
  pairs : List (Nat × Nat)
  /-- history: the applications' packets -/
  written : List (Nat × List Byte)
  /-- history: packets given to applications: receiving flow, sending flow, contents -/
  delivered : List (Nat × Nat × List Byte)
  /-- history: flows whose acceptance was sent -/
  accepted : List Nat
  /-- history: requesters that were told that their flow is there (src/ipcpd/unicast/fa.c:556) -/
  told : List Nat

/-- A member before its first flow: static storage is zeroed, `alloc_id` is -1 (src/ipcpd/unicast/fa.c:112-126, src/ipcpd/ipcp.c:899). -/
def emptyNode : Node where
  np1 := fun _ => none
  flows := fun _ => ⟨0, 0, 0, false⟩
  allocating := fun _ => none
  worker := none
  allocId := none
  sched := fun _ => false
  closing := fun _ => false

/-- The layer before its first flow (src/ipcpd/unicast/fa.c:112-126). -/
def init : State where
  node := fun _ => emptyNode
  transit := []
  cmds := []
  reading := []
  writing := []
  updating := []
  ring := fun _ => []
  down := fun _ => false
  next := 0
  crashed := false
  home := fun _ => 0
  eidOf := fun _ => none
  far := fun _ => 0
  asker := fun _ => false
  pairs := []
  written := []
  delivered := []
  accepted := []
  told := []

/-- An assignment to a table entry, `t[i] = x` (src/ipcpd/unicast/fa.c:507). -/
def upd {α : Type} (t : Nat → α) (i : Nat) (x : α) : Nat → α := fun j => if j = i then x else t j

/-- A change of one member (src/ipcpd/unicast/fa.c:112-126). -/
def State.setNode (s : State) (n : Nat) (x : Node) : State := { s with node := upd s.node n x }

/-- `eid_to_fd` (src/ipcpd/unicast/fa.c:301-317). -/
def eidToFd (x : Node) (eid : BitVec 64) : Option Nat :=
  let fd := (eid.setWidth 32).toInt
  if fd < 0 ∨ (maxFlows : Int) ≤ fd then none
  else if (x.flows fd.toNat).sEid = eid then some fd.toNat else none

/-- `gen_eid` (src/ipcpd/unicast/fa.c:319-329); `none` when the random number generator fails. -/
def genEid (L : Layer) (fd : Nat) (rnd : Option (BitVec 32)) : BitVec 64 :=
  match rnd with
  | none => L.fa
  | some r => (r.setWidth 64 <<< 32) + BitVec.ofNat 64 fd

/-- The descriptors of applications: a bitmap from PROG_RES_FDS on (src/lib/dev.c:582, src/lib/CMakeLists.txt:158-161). -/
def fdOk (x : Node) (fd : Nat) : Bool := decide (64 ≤ fd) && decide (fd < maxFlows) && (x.np1 fd).isNone

/-- `dt_write_packet` from member `n` (src/ipcpd/unicast/dt.c:777-871): with a next hop the packet goes to member `m`.  There is none for the own
address and for INVALID_ADDR. -/
def dtWrite (L : Layer) (n : Nat) (hop : Option Nat) (dst eid : BitVec 64) (b : Body) : Option (Nat × Pkt) :=
  match hop with
  | none => none
  | some m => if dst = L.addr n ∨ dst = 0 then none else some (m, ⟨dst, L.ttl, eid, b⟩)

/-- The steps of the layer (src/ipcpd/unicast/fa.c:330-968, src/ipcpd/unicast/dt.c:457-545). -/
inductive Op where
  /-- `do_flow_alloc` and `fa_alloc` up to the sending of the request (src/ipcpd/ipcp.c:522-530, src/ipcpd/unicast/fa.c:739-783) -/
  | alloc (n fd : Nat) (rnd : Option (BitVec 32)) (dst : BitVec 64) (hop : Option Nat)
  /-- the rest of `fa_alloc` (src/ipcpd/unicast/fa.c:785-797) -/
  | register (n fd : Nat)
  /-- `fa_handle_flow_req` until the daemon has given a descriptor, or refused (src/ipcpd/unicast/fa.c:473-505, src/ipcpd/ipcp.c:264-310) -/
  | request (n k : Nat) (fd : Option Nat)
  /-- the rest of `fa_handle_flow_req` (src/ipcpd/unicast/fa.c:507-519) -/
  | setup (n : Nat) (rnd : Option (BitVec 32))
  /-- `fa_alloc_resp` with response 0 (src/ipcpd/unicast/fa.c:802-862, src/ipcpd/ipcp.c:312-341) -/
  | respond (n fd : Nat) (hop : Option Nat)
  /-- `fa_handle_flow_reply` (src/ipcpd/unicast/fa.c:522-562) -/
  | reply (n k : Nat)
  /-- `fa_handle_flow_update` (src/ipcpd/unicast/fa.c:564-592) -/
  | update (n k : Nat)
  /-- an application writes (src/lib/dev.c:1232-1294) -/
  | write (i : Nat) (b : List Byte)
  /-- `np1_flow_read` by the scheduler (src/lib/dev.c:1931-1957) -/
  | read (n fd : Nat)
  /-- `packet_handler` of the flow allocator (src/ipcpd/unicast/fa.c:330-371) -/
  | send (k : Nat) (hop : Option Nat)
  /-- `packet_handler` of DT for another member's packet (src/ipcpd/unicast/dt.c:457-513) -/
  | hop (k : Nat) (next : Option Nat)
  /-- `packet_handler` of DT for an own packet (src/ipcpd/unicast/dt.c:514-545), `fa_np1_rcv` up to the lookup (src/ipcpd/unicast/fa.c:924-954) -/
  | arrive (k : Nat) (report : Bool)
  /-- the layer below loses a packet -/
  | lose (k : Nat)
  /-- the layer below duplicates a packet -/
  | dup (k : Nat)
  /-- `ipcp_flow_write` in `fa_np1_rcv` (src/ipcpd/unicast/fa.c:956, src/lib/dev.c:1901-1929) -/
  | deliver (k : Nat)
  /-- `fa_update_remote` (src/ipcpd/unicast/fa.c:882-922) -/
  | notify (k : Nat) (hop : Option Nat)
  /-- `ipcp_flow_fini` up to the wait (src/lib/dev.c:2007-2028) -/
  | close (n fd : Nat)
  /-- the rings are empty: `psched_del` and `fa_flow_fini` in `fa_dealloc` (src/lib/dev.c:2030-2032, src/ipcpd/unicast/fa.c:869-875) -/
  | clear (n fd : Nat)
  /-- `ipcp_flow_dealloc` (src/ipcpd/unicast/fa.c:877, src/lib/dev.c:961-1000) -/
  | release (n fd : Nat)
  deriving DecidableEq, Repr

/-- Put a packet on its way, if it was sent (src/ipcpd/unicast/dt.c:838). -/
def post (l : List (Nat × Pkt)) : Option (Nat × Pkt) → List (Nat × Pkt)
  | none => l
  | some p => l ++ [p]

/-- `fa_alloc` up to the sending of the request (src/ipcpd/unicast/fa.c:739-783).  When it fails the descriptor stays in use (src/ipcpd/ipcp.c:530). -/
def stepAlloc (L : Layer) (s : State) (n fd : Nat) (rnd : Option (BitVec 32)) (dst : BitVec 64) (hop : Option Nat) : Option State :=
  let x := s.node n
  if fdOk x fd then
    let i := s.next
    let eid := genEid L fd rnd
    let s' := { s with next := i + 1, home := upd s.home i n, far := upd s.far i dst, asker := upd s.asker i true }
    match dtWrite L n hop dst L.fa (.req i (L.addr n) eid) with
    | none => some (s'.setNode n { x with np1 := upd x.np1 fd (some i) })
    | some p => some ({ s' with transit := s.transit ++ [p], eidOf := upd s.eidOf i (some eid) }.setNode n
        { x with np1 := upd x.np1 fd (some i), allocating := upd x.allocating fd (some (i, eid, dst)) })
  else none

/-- The rest of `fa_alloc` (src/ipcpd/unicast/fa.c:785-797). -/
def stepRegister (s : State) (n fd : Nat) : Option State :=
  let x := s.node n
  match x.allocating fd with
  | none => none
  | some (_, eid, dst) => some (s.setNode n { x with
      flows := upd x.flows fd { flowInit with rAddr := dst, sEid := eid }, allocating := upd x.allocating fd none })

/-- `fa_handle_flow_req` until the daemon has answered (src/ipcpd/unicast/fa.c:473-505, src/ipcpd/ipcp.c:281-303). -/
def stepRequest (s : State) (n k : Nat) (fd : Option Nat) : Option State :=
  let x := s.node n
  if x.worker.isNone ∧ x.allocId.isNone then
    match s.cmds[k]? with
    | some (m, .req src sAddr sEid) =>
      if m = n then
        let s' := { s with cmds := s.cmds.eraseIdx k }
        match fd with
        | none => some s'
        | some fd =>
          if fdOk x fd then
            let j := s.next
            some ({ s' with next := j + 1, home := upd s.home j n, far := upd s.far j sAddr, asker := upd s.asker j false,
                            pairs := s.pairs ++ [(src, j)] }.setNode n
              { x with np1 := upd x.np1 fd (some j), worker := some (fd, j, sEid, sAddr), allocId := some fd })
          else none
      else none
    | _ => none
  else none

/-- The rest of `fa_handle_flow_req` (src/ipcpd/unicast/fa.c:507-519). -/
def stepSetup (L : Layer) (s : State) (n : Nat) (rnd : Option (BitVec 32)) : Option State :=
  let x := s.node n
  match x.worker with
  | none => none
  | some (fd, j, sEid, sAddr) =>
    some ({ s with eidOf := upd s.eidOf j (some (genEid L fd rnd)) }.setNode n { x with
      flows := upd x.flows fd { flowInit with sEid := genEid L fd rnd, rEid := sEid, rAddr := sAddr }, worker := none })

/-- `fa_alloc_resp` (src/ipcpd/unicast/fa.c:802-862) with `ipcp_wait_flow_resp` (src/ipcpd/ipcp.c:321-335). -/
def stepRespond (L : Layer) (s : State) (n fd : Nat) (hop : Option Nat) : Option State :=
  let x := s.node n
  if x.allocId = some fd then
    let f := x.flows fd
    match dtWrite L n hop f.rAddr L.fa (.reply f.rEid f.sEid) with
    | none => some (s.setNode n { x with allocId := none, flows := upd x.flows fd flowFini })
    | some p => some ({ s with transit := s.transit ++ [p], accepted := s.accepted ++ (x.np1 fd).toList }.setNode n
        { x with allocId := none, sched := upd x.sched fd true })
  else none

/-- `fa_handle_flow_reply` (src/ipcpd/unicast/fa.c:522-562). -/
def stepReply (s : State) (n k : Nat) : Option State :=
  let x := s.node n
  if x.worker.isNone then
    match s.cmds[k]? with
    | some (m, .reply rEid sEid) =>
      if m = n then
        let s' := { s with cmds := s.cmds.eraseIdx k }
        match eidToFd x rEid with
        | none => some s'
        | some fd => some ({ s' with told := s.told ++ (x.np1 fd).toList }.setNode n
            { x with flows := upd x.flows fd { x.flows fd with rEid := sEid }, sched := upd x.sched fd true })
      else none
    | _ => none
  else none

/-- `fa_handle_flow_update` (src/ipcpd/unicast/fa.c:564-592). -/
def stepUpdate (s : State) (n k : Nat) : Option State :=
  let x := s.node n
  if x.worker.isNone then
    match s.cmds[k]? with
    | some (m, .update rEid) =>
      if m = n then
        let s' := { s with cmds := s.cmds.eraseIdx k }
        match eidToFd x rEid with
        | none => some s'
        | some fd => some { s' with crashed := s.crashed || !(x.flows fd).ctx }
      else none
    | _ => none
  else none

/-- An application writes to its flow, unless it is down (src/lib/dev.c:1232-1294). -/
def stepWrite (s : State) (i : Nat) (b : List Byte) : Option State :=
  if i < s.next ∧ s.down i = false then
    some { s with ring := upd s.ring i (s.ring i ++ [b]), written := s.written ++ [(i, b)] }
  else none

/-- The scheduler reads (src/ipcpd/unicast/psched.c:105, src/lib/dev.c:1931-1957). -/
def stepRead (s : State) (n fd : Nat) : Option State :=
  let x := s.node n
  if x.sched fd then
    match x.np1 fd with
    | none => none
    | some i =>
      match s.ring i with
      | [] => none
      | b :: bs => some { s with ring := upd s.ring i bs, reading := s.reading ++ [(n, fd, i, b)] }
  else none

/-- `packet_handler` of the flow allocator (src/ipcpd/unicast/fa.c:330-371). -/
def stepSend (L : Layer) (s : State) (k : Nat) (hop : Option Nat) : Option State :=
  match s.reading[k]? with
  | none => none
  | some (n, fd, i, b) =>
    let f := (s.node n).flows fd
    some { s with reading := s.reading.eraseIdx k, crashed := s.crashed || !f.ctx,
                  transit := post s.transit (dtWrite L n hop f.rAddr f.rEid (.data i b)) }

/-- `packet_handler` of DT for a packet to another member (src/ipcpd/unicast/dt.c:457-513). -/
def stepHop (L : Layer) (s : State) (k : Nat) (next : Option Nat) : Option State :=
  match s.transit[k]? with
  | none => none
  | some (n, p) =>
    if p.dst = L.addr n then none
    else
      let l := s.transit.eraseIdx k
      if p.ttl - 1 = 0 then some { s with transit := l }
      else match next with
        | none => some { s with transit := l }
        | some m => some { s with transit := l ++ [(m, { p with ttl := p.ttl - 1 })] }

/-- `packet_handler` of DT for an own packet (src/ipcpd/unicast/dt.c:514-545): data for an id from PROG_RES_FDS on is looked up by `fa_np1_rcv`
(src/ipcpd/unicast/fa.c:924-954), messages to the flow allocator are put on its list (423-449), other packets are for other components. -/
def stepArrive (L : Layer) (s : State) (k : Nat) (report : Bool) : Option State :=
  match s.transit[k]? with
  | none => none
  | some (n, p) =>
    if p.dst ≠ L.addr n then none
    else
      let s' := { s with transit := s.transit.eraseIdx k }
      if 64 ≤ p.eid.toNat then
        match p.body with
        | .data i b =>
          match eidToFd (s.node n) p.eid with
          | none => some s'
          | some fd => some { s' with crashed := s.crashed || !((s.node n).flows fd).ctx, writing := s.writing ++ [(n, fd, i, b)],
                                      updating := s.updating ++ (if report then [(n, fd)] else []) }
        | _ => some s'
      else if p.eid = L.fa then some { s' with cmds := s.cmds ++ [(n, p.body)] }
      else some s'

/-- `ipcp_flow_write` in `fa_np1_rcv` (src/ipcpd/unicast/fa.c:956, src/lib/dev.c:1901-1929): to the flow that has the descriptor now. -/
def stepDeliver (s : State) (k : Nat) : Option State :=
  match s.writing[k]? with
  | none => none
  | some (n, fd, i, b) =>
    let s' := { s with writing := s.writing.eraseIdx k }
    match (s.node n).np1 fd with
    | none => some s'
    | some j => if s.down j then some s' else some { s' with delivered := s.delivered ++ [(j, i, b)] }

/-- `fa_update_remote` (src/ipcpd/unicast/fa.c:882-922). -/
def stepNotify (L : Layer) (s : State) (k : Nat) (hop : Option Nat) : Option State :=
  match s.updating[k]? with
  | none => none
  | some (n, fd) =>
    let f := (s.node n).flows fd
    some { s with updating := s.updating.eraseIdx k, transit := post s.transit (dtWrite L n hop f.rAddr L.fa (.update f.rEid)) }

/-- `ipcp_flow_fini` up to the wait (src/lib/dev.c:2007-2028). -/
def stepClose (s : State) (n fd : Nat) : Option State :=
  match (s.node n).np1 fd with
  | none => none
  | some i => some { s with down := upd s.down i true }

/-- `psched_del` and `fa_flow_fini` (src/ipcpd/unicast/fa.c:871-875), when `ipcp_flow_fini` has seen the ring empty (src/lib/dev.c:2031-2032). -/
def stepClear (s : State) (n fd : Nat) : Option State :=
  let x := s.node n
  match x.np1 fd with
  | none => none
  | some i =>
    if s.down i ∧ s.ring i = [] ∧ x.closing fd = false then
      some (s.setNode n { x with sched := upd x.sched fd false, flows := upd x.flows fd flowFini, closing := upd x.closing fd true })
    else none

/-- `ipcp_flow_dealloc` (src/ipcpd/unicast/fa.c:877, src/lib/dev.c:961-1000). -/
def stepRelease (s : State) (n fd : Nat) : Option State :=
  let x := s.node n
  if x.closing fd then some (s.setNode n { x with np1 := upd x.np1 fd none, closing := upd x.closing fd false }) else none

/-- One step, `none` if it is not possible now; the lines are at the constructors of `Op` (src/ipcpd/unicast/fa.c:301-969). -/
def step (L : Layer) (s : State) : Op → Option State
  | .alloc n fd rnd dst hop => stepAlloc L s n fd rnd dst hop
  | .register n fd => stepRegister s n fd
  | .request n k fd => stepRequest s n k fd
  | .setup n rnd => stepSetup L s n rnd
  | .respond n fd hop => stepRespond L s n fd hop
  | .reply n k => stepReply s n k
  | .update n k => stepUpdate s n k
  | .write i b => stepWrite s i b
  | .read n fd => stepRead s n fd
  | .send k hop => stepSend L s k hop
  | .hop k next => stepHop L s k next
  | .arrive k report => stepArrive L s k report
  | .lose k => if k < s.transit.length then some { s with transit := s.transit.eraseIdx k } else none
  | .dup k => (s.transit[k]?).map fun p => { s with transit := s.transit ++ [p] }
  | .deliver k => stepDeliver s k
  | .notify k hop => stepNotify L s k hop
  | .close n fd => stepClose s n fd
  | .clear n fd => stepClear s n fd
  | .release n fd => stepRelease s n fd

/-- A history (src/ipcpd/unicast/fa.c:301-969). -/
def run (L : Layer) (s : State) : List Op → Option State
  | [] => some s
  | op :: ops => (step L s op).bind fun s => run L s ops

end Ouro.Unicast
