import Verif.Model.Bytes
import Verif.Model.Errno

/-!
# Model of the data transfer component (src/ipcpd/unicast/dt.c)

A packet is the list of its bytes between `du_head` and `du_tail`. The forwarding function of the QoS class in question
(src/ipcpd/unicast/pff.c), the congestion marking (`ca_calc_ecn`) and the success of `ipcp_flow_write` are parameters. Statistics
(`IPCP_FLOW_STATS`) and logging are left out. The machine is little-endian (the code has a FIXME for big-endian, dt.c:111, 129).
-/

namespace Ouro.Dt

/-- `dt_pci_info` (src/ipcpd/unicast/dt.c:88-101). -/
structure Info where
  addrSize : Nat
  eidSize : Nat
  headSize : Nat
  qcO : Nat
  ttlO : Nat
  ecnO : Nat
  eidO : Nat
  maxTtl : Byte

/-- The offsets set in `dt_init` (src/ipcpd/unicast/dt.c:584-597); the endpoint id size is forced to 8. -/
def mkInfo (addrSize : Nat) (maxTtl : Byte) : Info :=
  let qcO := addrSize
  let ttlO := qcO + 1
  let ecnO := ttlO + 1
  let eidO := ecnO + 1
  { addrSize := addrSize, eidSize := 8, headSize := eidO + 8, qcO := qcO, ttlO := ttlO, ecnO := ecnO, eidO := eidO, maxTtl := maxTtl }

/-- `struct dt_pci` (src/ipcpd/unicast/dt.c:80-86). `qc` is an enum of which the low byte is sent. -/
structure Pci where
  dst : BitVec 64
  qc : Byte
  ttl : Byte
  ecn : Byte
  eid : BitVec 64
  deriving DecidableEq, Repr

/-- `dt_pci_ser` (src/ipcpd/unicast/dt.c:103-118). Copying more than 8 bytes from the 64-bit address is undefined. -/
def ser (info : Info) (head : List Byte) (pci : Pci) : Outcome (List Byte) :=
  if 8 < info.addrSize ∨ 8 < info.eidSize then .ub
  else do
    let h ← patch head 0 (leBytes info.addrSize pci.dst.toNat)
    let h ← patch h info.qcO [pci.qc]
    let h ← patch h info.ttlO [info.maxTtl]
    let h ← patch h info.ecnO [pci.ecn]
    patch h info.eidO (leBytes info.eidSize pci.eid.toNat)

/-- `dt_pci_des` (src/ipcpd/unicast/dt.c:120-135) on a zeroed `struct dt_pci` (452). The length of the packet is not checked by the
code: a packet shorter than the header is read beyond its end (`ub`). -/
def des (info : Info) (head : List Byte) : Outcome (List Byte × Pci) :=
  if 8 < info.addrSize ∨ 8 < info.eidSize then .ub
  else do
    let t ← rd head info.ttlO
    let head ← wr head info.ttlO (t - 1)
    let dst ← slice head 0 info.addrSize
    let qc ← rd head info.qcO
    let ttl ← rd head info.ttlO
    let ecn ← rd head info.ecnO
    let eid ← slice head info.eidO info.eidSize
    return (head, ⟨BitVec.ofNat 64 (leVal dst), qc, ttl, ecn, BitVec.ofNat 64 (leVal eid)⟩)

/-- `dt_pci_shrink` (src/ipcpd/unicast/dt.c:137-142); releasing more than the packet fails the assertion in
src/lib/shm_rdrbuff.c:570. -/
def shrink (info : Info) (pkt : List Byte) : Outcome (List Byte) :=
  if info.headSize ≤ pkt.length then .ok (pkt.drop info.headSize) else .ub

/-- What `packet_handler` does with a packet (src/ipcpd/unicast/dt.c:430-546). -/
inductive Action where
  /-- released (460, 477, 496, 526) -/
  | drop
  /-- written to an N-1 flow (491) -/
  | forward (ofd : Int) (pkt : List Byte)
  /-- given to the flow allocator for the flow with this endpoint id (519) -/
  | flow (eid : BitVec 64) (ecn : Byte) (payload : List Byte)
  /-- given to the component registered under this id (543) -/
  | comp (eid : Nat) (payload : List Byte)
  deriving DecidableEq, Repr

/-- What a node contributes to the decision (src/ipcpd/unicast/dt.c:457, 473, 489, 491, 523). -/
structure Env where
  /-- `ipcpi.dt_addr` -/
  addr : BitVec 64
  /-- `pff_nhop` of the QoS class of the incoming flow -/
  nhop : BitVec 64 → Int
  /-- `ca_calc_ecn` -/
  mark : Int → Byte → Byte
  /-- `ipcp_flow_write` returns 0 -/
  write : Int → Bool
  /-- `dt.comps[eid].post_packet != NULL` -/
  comps : Nat → Bool

/-- PROG_RES_FDS (src/lib/config.h.in:66, src/lib/CMakeLists.txt:160), the number of reserved component ids. -/
def resFds : Nat := 64

/-- `packet_handler` (src/ipcpd/unicast/dt.c:430-546). -/
def handler (info : Info) (env : Env) (pkt : List Byte) : Outcome Action := do
  let (head, pci) ← des info pkt
  if pci.dst ≠ env.addr then
    if pci.ttl = 0 then
      return .drop
    else
      let ofd := env.nhop pci.dst
      if ofd < 0 then
        return .drop
      else
        let e ← rd head info.ecnO
        let head ← wr head info.ecnO (env.mark ofd e)
        return if env.write ofd then .forward ofd head else .drop
  else
    let ecn ← rd head info.ecnO
    let payload ← shrink info head
    if resFds ≤ pci.eid.toNat then
      return .flow pci.eid ecn payload
    else if env.comps pci.eid.toNat then
      return .comp pci.eid.toNat payload
    else
      return .drop

/-- Result of `dt_write_packet` (src/ipcpd/unicast/dt.c:777-871). -/
inductive Sent where
  | err (r : Int)
  | sent (fd : Int) (pkt : List Byte)
  deriving DecidableEq, Repr

/-- `dt_write_packet` (src/ipcpd/unicast/dt.c:777-871). `room` is what `shm_du_buff_head_alloc` returns: `none`, or the (arbitrary)
old contents of the header area. Sending to the own address fails the assertion at 789. -/
def writePacket (info : Info) (env : Env) (dst : BitVec 64) (qc : Byte) (eid : BitVec 64) (room : Option (List Byte))
    (payload : List Byte) : Outcome Sent :=
  if dst = env.addr then .ub
  else
    let fd := env.nhop dst
    if fd < 0 then .ok (.err (-EPERM))
    else
      match room with
      | none => .ok (.err (-1))
      | some junk => do
        let pkt ← ser info (junk ++ payload) ⟨dst, qc, 0, env.mark fd 0, eid⟩
        return if env.write fd then .sent fd pkt else .err (-1)

/-- A network of nodes: everything may depend on the number of hops made so far, so tables may change at any moment. This is the
environment of src/ipcpd/unicast/dt.c:430-546: `link t n fd` is the node at the other end of N-1 flow `fd` of node `n`. -/
structure Net (ν : Type) where
  env : Nat → ν → Env
  link : Nat → ν → Int → ν

/-- How often a packet is relayed (src/ipcpd/unicast/dt.c:491), starting at node `n`, looking at the first `fuel` nodes it visits. -/
def relays {ν : Type} (info : Info) (net : Net ν) : Nat → Nat → ν → List Byte → Outcome Nat
  | 0, _, _, _ => .ok 0
  | fuel + 1, t, n, pkt => do
    match ← handler info (net.env t n) pkt with
    | .forward ofd pkt' =>
      let k ← relays info net fuel (t + 1) (net.link t n ofd) pkt'
      return k + 1
    | _ => return 0

/-- The last thing that happens to a packet within `fuel` nodes: `none` if it is still being relayed
(src/ipcpd/unicast/dt.c:430-546). -/
def fate {ν : Type} (info : Info) (net : Net ν) : Nat → Nat → ν → List Byte → Outcome (Option (ν × Action))
  | 0, _, _, _ => .ok none
  | fuel + 1, t, n, pkt => do
    match ← handler info (net.env t n) pkt with
    | .forward ofd pkt' => fate info net fuel (t + 1) (net.link t n ofd) pkt'
    | a => return some (n, a)

end Ouro.Dt
