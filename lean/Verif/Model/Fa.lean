import Verif.Model.Base
import Verif.Model.Errno

/-!
# Model of the flow allocator's endpoint table (src/ipcpd/unicast/fa.c)

All accesses to `fa.flows` happen under `flows_lock`, so each operation below is one atomic step; the two halves of `fa_alloc` (send,
register) are separate steps because another message can be handled in between. `random_buffer` is an argument (`none` when it fails).
The congestion context is a Boolean (`true` is a valid pointer); using a missing one is undefined behaviour (it is dereferenced by the
mb-ecn policy). `ca_ctx_create` is assumed to succeed. Reservation and writing of packets are success flags.
-/

namespace Ouro.Fa

/-- PROG_MAX_FLOWS (src/lib/CMakeLists.txt:158, src/lib/config.h.in:65). -/
def maxFlows : Nat := 4096

/-- `struct fa_flow` without statistics (src/ipcpd/unicast/fa.c:92-110). -/
structure Flow where
  sEid : BitVec 64
  rEid : BitVec 64
  rAddr : BitVec 64
  ctx : Bool
  deriving DecidableEq, Repr

/-- `fa` (src/ipcpd/unicast/fa.c:112-126): the flow table and the component's own id. -/
structure State where
  flows : List Flow
  eid : BitVec 32

/-- `fa` before first use: static storage is zeroed (src/ipcpd/unicast/fa.c:112-126), `fa.eid` is set at 657. -/
def init (eid : BitVec 32) : State := ⟨List.replicate maxFlows ⟨0, 0, 0, false⟩, eid⟩

/-- `eid_to_fd` (src/ipcpd/unicast/fa.c:301-317): `none` for -1. The low 32 bits are converted to `int`. -/
def eidToFd (s : State) (eid : BitVec 64) : Outcome (Option Nat) :=
  let fd := (eid.setWidth 32).toInt
  if fd < 0 ∨ (maxFlows : Int) ≤ fd then .ok none
  else do
    let flow ← rd s.flows fd.toNat
    return if flow.sEid = eid then some fd.toNat else none

/-- `gen_eid` (src/ipcpd/unicast/fa.c:319-329). -/
def genEid (s : State) (fd : Nat) (rnd : Option (BitVec 32)) : BitVec 64 :=
  match rnd with
  | none => s.eid.setWidth 64
  | some r => (r.setWidth 64 <<< 32) + BitVec.ofNat 64 fd

/-- `fa_flow_init` (src/ipcpd/unicast/fa.c:373-396). -/
def flowInit : Flow := ⟨-1, -1, 0, true⟩

/-- `fa_flow_fini` (src/ipcpd/unicast/fa.c:398-411). -/
def flowFini : Flow := ⟨-1, -1, 0, false⟩

/-- The steps of the flow allocator (src/ipcpd/unicast/fa.c:331-371, 473-592, 739-880, 924-969). -/
inductive Op where
  /-- `fa_alloc` up to the sending of the request (739-787) -/
  | send (fd : Nat) (rnd : Option (BitVec 32))
  /-- `fa_alloc`, registration (789-797) -/
  | register (fd : Nat) (rnd : Option (BitVec 32)) (addr : BitVec 64)
  /-- `fa_handle_flow_req` with the descriptor from `ipcp_wait_flow_req_arr` (507-519) -/
  | request (fd : Nat) (rnd : Option (BitVec 32)) (sAddr sEid : BitVec 64)
  /-- `fa_handle_flow_reply` (522-562) -/
  | reply (rEid sEid : BitVec 64) (response : Int)
  /-- `fa_handle_flow_update` (564-592) -/
  | update (rEid : BitVec 64)
  /-- `fa_alloc_resp` after a successful wait (811-861); `sent` is the success of reserving and writing the reply -/
  | respond (fd : Nat) (response : Int) (sent : Bool)
  /-- `fa_dealloc` (864-880); `fini` is `ipcp_flow_fini(fd) >= 0` -/
  | dealloc (fd : Nat) (fini : Bool)
  /-- `fa_np1_rcv` (924-969) -/
  | rcv (eid : BitVec 64)
  /-- `packet_handler` (331-371) -/
  | snd (fd : Nat)
  deriving DecidableEq, Repr

/-- What a step does to the outside (src/ipcpd/unicast/fa.c:331-371, 473-592, 739-880, 924-969). -/
inductive Out where
  /-- flow request sent with this own id (767) -/
  | request (eid : BitVec 64)
  /-- reply sent with these remote and own ids to this address (834-839) -/
  | reply (addr rEid sEid : BitVec 64)
  /-- the application of `fd` is told the result of its request (556) -/
  | allocated (fd : Nat) (response : Int)
  /-- packet written to the application of `fd` (956) -/
  | deliver (fd : Nat)
  /-- packet sent to this address and endpoint (360) -/
  | packet (addr eid : BitVec 64)
  | ret (r : Int)
  deriving DecidableEq, Repr

/-- One step (src/ipcpd/unicast/fa.c:331-371, 473-592, 739-880, 924-969); see the constructors of `Op` for the lines. -/
def step (s : State) : Op → Outcome (State × Out)
  | .send fd rnd => .ok (s, .request (genEid s fd rnd))
  | .register fd rnd addr => do
    let fs ← wr s.flows fd { flowInit with rAddr := addr, sEid := genEid s fd rnd }
    return ({ s with flows := fs }, .ret 0)
  | .request fd rnd sAddr sEid => do
    let fs ← wr s.flows fd { flowInit with sEid := genEid s fd rnd, rEid := sEid, rAddr := sAddr }
    return ({ s with flows := fs }, .ret fd)
  | .reply rEid sEid response => do
    match ← eidToFd s rEid with
    | none => return (s, .ret (-ENOTALLOC))
    | some fd =>
      let flow ← rd s.flows fd
      let fs ← wr s.flows fd (if response < 0 then flowFini else { flow with rEid := sEid })
      return ({ s with flows := fs }, .allocated fd response)
  | .update rEid => do
    match ← eidToFd s rEid with
    | none => return (s, .ret (-EPERM))
    | some fd =>
      let flow ← rd s.flows fd
      if flow.ctx then return (s, .ret 0) else .ub
  | .respond fd response sent => do
    let flow ← rd s.flows fd
    if sent then
      let fs ← wr s.flows fd (if response < 0 then flowFini else flow)
      return ({ s with flows := fs }, .reply flow.rAddr flow.rEid flow.sEid)
    else
      let fs ← wr s.flows fd flowFini
      return ({ s with flows := fs }, .ret (-1))
  | .dealloc fd fini =>
    if fini then do
      let fs ← wr s.flows fd flowFini
      return ({ s with flows := fs }, .ret 0)
    else .ok (s, .ret 0)
  | .rcv eid => do
    match ← eidToFd s eid with
    | none => return (s, .ret (-1))
    | some fd =>
      let flow ← rd s.flows fd
      if flow.ctx then return (s, .deliver fd) else .ub
  | .snd fd => do
    let flow ← rd s.flows fd
    if flow.ctx then return (s, .packet flow.rAddr flow.rEid) else .ub

/-- A history (src/ipcpd/unicast/fa.c:331-371, 473-592, 739-880, 924-969). -/
def run (s : State) : List Op → Outcome (State × List Out)
  | [] => .ok (s, [])
  | op :: ops => do
    let (s, r) ← step s op
    let (s, rs) ← run s ops
    return (s, r :: rs)

end Ouro.Fa
