import Verif.Model.Base
import Verif.Model.Errno

/-!
# The flow descriptors of a process

Model of the table of flows that the library keeps in every process (src/lib/dev.c): creating a
descriptor for a flow the daemon handed out, using it, deallocating it from several threads, the map
from flow ids to descriptors that the IPCPs use, and the clean-up at process exit.

The library's lock makes the body of `flow_init`, of `flow_fini` and of every check a single step.
The calls to the daemon are outside of the lock, so `flow_dealloc` is split into its locked parts.
-/

namespace Ouro.FlowTable

/-- include/ouroboros/errno.h:35 -/ def ECRYPT : Int := 1007
/-- CMakeLists / src/lib/config.h.in: PROG_RES_FDS, the first descriptor (src/lib/dev.c:584) -/
def RES_FDS : Nat := 64
/-- PROG_MAX_FLOWS, the number of entries of `ai.flows` (src/lib/dev.c:602) -/
def MAX_FLOWS : Nat := 4096
/-- SYS_MAX_FLOWS, the number of entries of `ai.id_to_fd` (src/lib/dev.c:611) -/
def SYS_MAX_FLOWS : Nat := 10240

/-- A pointer to a shared memory object held in a flow (src/lib/dev.c:95-112): `NULL`, open, or still
pointing to an object that was closed and freed. -/
inductive Handle | null | opened | stale
  deriving DecidableEq, Repr

/-- `struct flow` (src/lib/dev.c:90-113), reduced to what descriptor handling depends on: `info.id`
(`none` is -1), the two rings, the event set, the reliable transfer state, and whether the flow is in
`ai.flow_list`. -/
structure Slot where
  id : Option Nat
  rx : Handle
  tx : Handle
  set : Handle
  frcti : Handle
  linked : Bool
  deriving DecidableEq, Repr

/-- `flow_clear` (src/lib/dev.c:381-386) -/
def clear : Slot := ⟨none, .null, .null, .null, .null, false⟩

/-- `enum flow_state` (include/ouroboros/flow.h:30-39), the values that dev.c uses. -/
inductive IdState | init | pending | allocated | destroy
  deriving DecidableEq, Repr

/-- `struct fmap` (src/lib/dev.c:81-85); `fd = none` is memory that was never written: the array comes
from `malloc` and only the states are initialised (src/lib/dev.c:611-618). -/
structure IdEnt where
  fd : Option Int
  st : IdState
  deriving DecidableEq, Repr

/-- A deallocation under way in a thread (src/lib/dev.c:887-955 and 957-998): the descriptor, the id to
put in the request once it was read, and whether the outgoing ring was flushed. -/
structure Dealloc where
  fd : Nat
  flushed : Bool
  id : Option (Option Nat)
  deriving DecidableEq, Repr

/-- The library's state `ai` (src/lib/dev.c:127-146): the allocated bits of `ai.fds`, `ai.flows`,
`ai.id_to_fd`, `ai.n_frcti`; plus the threads that are inside a deallocation or that wait for a flow id
to be assigned.  `hung` says that a thread waits in `flow_destroy` while it holds the lock. -/
structure St where
  used : List Nat
  slots : Nat → Slot
  ids : Nat → IdEnt
  nfrct : Nat
  calls : Nat → Option Dealloc
  waits : Nat → Option Nat
  hung : Bool

/-- Assignment to one entry of an array (C semantics, e.g. src/lib/dev.c:506). -/
def upd {α : Type} (f : Nat → α) (i : Nat) (a : α) : Nat → α := fun j => if j = i then a else f j

/-- `init` (src/lib/dev.c:584-618): all descriptors free, all flows cleared, all ids unassigned. -/
def start : St where
  used := []
  slots := fun _ => clear
  ids := fun _ => ⟨none, .init⟩
  nfrct := 0
  calls := fun _ => none
  waits := fun _ => none
  hung := false

/-- `bmp_allocate` on `bmp_create(PROG_MAX_FLOWS - PROG_RES_FDS, PROG_RES_FDS)` (src/lib/bitmap.c:
148-181, src/lib/dev.c:584): the lowest free descriptor.  The bitmap itself is the subject of C01. -/
def lowest (used : List Nat) : Option Nat :=
  (List.range' RES_FDS (MAX_FLOWS - RES_FDS)).find? (fun fd => !used.contains fd)

/-- Where `flow_init` fails, if it does (src/lib/dev.c:462-503). -/
inductive Fail | none | rx | tx | set | crypt | frct | fset
  deriving DecidableEq, Repr

/-- What is left in the flow when `flow_init` fails: the fields were assigned before the failure and the
failure path closes them without clearing them (src/lib/dev.c:459-503, 515-530). -/
def leftover (sl : Slot) (id : Nat) : Fail → Slot
  | .none => sl
  | .rx => { sl with id := some id, rx := .null }
  | .tx => { sl with id := some id, rx := .stale, tx := .null }
  | .set => { sl with id := some id, rx := .stale, tx := .stale, set := .null }
  | .crypt => { sl with id := some id, rx := .stale, tx := .stale, set := .stale }
  | .frct => { sl with id := some id, rx := .stale, tx := .stale, set := .stale, frcti := .null }
  | .fset => { sl with id := some id, rx := .stale, tx := .stale, set := .stale, frcti := .stale }

/-- The failures that can happen for a flow: those of the reliable transfer state only on flows that ask
for in-order delivery (src/lib/dev.c:489-503); `pthread_create` never returns a negative value, so the
failure at 500-502 is not taken. -/
def Fail.possible (rel : Bool) : Fail → Bool
  | .frct | .fset => rel
  | _ => true

/-- `flow_set_state(p, FLOW_ALLOCATED)` with the descriptor written before (src/lib/dev.c:175-189,
506-508). -/
def assign (e : IdEnt) (fd : Nat) : IdEnt :=
  ⟨some (fd : Int), if e.st = .destroy then .destroy else .allocated⟩

/-- `flow_init` (src/lib/dev.c:442-531).  The argument `f` says which of the calls to the other modules
fails.  A failing assertion is undefined behaviour. -/
def flowInit (s : St) (id : Nat) (rel : Bool) (f : Fail) : Outcome (St × Int) :=
  match lowest s.used with
  | none => .ok (s, -EBADF)                                       -- 454-458
  | some fd =>
    if f ≠ .none then                                             -- 515-530
      .ok ({ s with slots := upd s.slots fd (leftover (s.slots fd) id f) }, -ENOMEM)
    else if (s.slots fd).frcti ≠ .null then .ub                   -- 487: assert(flow->frcti == NULL)
    else if SYS_MAX_FLOWS ≤ id then .ub                           -- 506: outside of id_to_fd
    else
      .ok ({ s with
              used := fd :: s.used
              slots := upd s.slots fd ⟨some id, .opened, .opened, .opened, if rel then .opened else .null, true⟩
              ids := upd s.ids id (assign (s.ids id) fd)
              nfrct := if rel then s.nfrct + 1 else s.nfrct }, (fd : Int))

/-- `__flow_fini` (src/lib/dev.c:388-431).  Using a freed object, and unlinking a flow that is not in the
list, is undefined behaviour.  When the id is awaited by another thread, `flow_destroy` waits for that
thread with the library's lock held (148-173). -/
def flowFini (s : St) (fd : Nat) : Outcome St :=
  if (s.slots fd).frcti = .stale then .ub else                    -- 401-403
  match (s.slots fd).id with
  | some i =>
    if (s.ids i).st = .pending then                               -- 157-158, 166-167
      .ok { s with ids := upd s.ids i { s.ids i with st := .destroy }, hung := true }
    else if (s.slots fd).rx = .stale ∨ (s.slots fd).tx = .stale ∨ (s.slots fd).set = .stale then .ub
    else if (s.slots fd).linked = false then .ub                  -- 428
    else .ok { s with
      used := s.used.erase fd                                     -- 408
      slots := upd s.slots fd clear                               -- 430
      ids := if (s.ids i).st = .destroy then s.ids                -- 152-155
             else upd s.ids i ⟨some (-1), .init⟩                  -- 169-170
      nfrct := if (s.slots fd).frcti = .opened then s.nfrct - 1 else s.nfrct }
  | none =>
    if (s.slots fd).rx = .stale ∨ (s.slots fd).tx = .stale ∨ (s.slots fd).set = .stale then .ub
    else if (s.slots fd).linked = false then .ub                  -- 428
    else .ok { s with
      slots := upd s.slots fd clear
      nfrct := if (s.slots fd).frcti = .opened then s.nfrct - 1 else s.nfrct }

/-- The loop of `fini` over the flows at process exit (src/lib/dev.c:712-720): a flow with an id has its
incoming ring shut and drained, and is finalised. -/
def exitLoop (s : St) : List Nat → Outcome St
  | [] => .ok s
  | fd :: fds =>
    if s.hung then .ok s else
    if (s.slots fd).id = none then exitLoop s fds else
    if (s.slots fd).rx ≠ .opened then .ub else
    match flowFini s fd with
    | .ub => .ub
    | .ok s' => exitLoop s' fds

/-- `fini` (src/lib/dev.c:698-720), with no other thread inside of the library any more. -/
def exit (s : St) : Outcome St :=
  exitLoop { s with calls := fun _ => none, waits := fun _ => none } (List.range MAX_FLOWS)

/-- The answer of the daemon to a request for a flow, as `send_recv_msg` and protobuf leave it
(src/lib/sockets.c:135-155, src/lib/serdes-irm.c:136-189): no answer, not a message, a message without a
result, or a result with an optional flow (its id, whether it asks for in-order delivery, whether it is
encrypted) and an optional key. -/
inductive Reply
  | lost
  | garbage
  | noResult
  | result (r : Int) (flow : Option (Nat × Bool × Bool)) (key : Bool)
  deriving DecidableEq, Repr

/-- `flow__irm_result_des` (src/lib/serdes-irm.c:136-189) with the error of `send_recv_msg` before it
(src/lib/dev.c:785-791); `sk` says that the caller takes a key. -/
def replyDes (sk : Bool) : Reply → Except Int (Nat × Bool)
  | .lost => .error (-1)
  | .garbage => .error (-EIRMD)
  | .noResult => .error (-EIRMD)
  | .result r flow key =>
    if r < 0 then .error r else
    match flow with
    | none => .error (-EBADF)
    | some (id, rel, enc) =>
      if enc && sk && !key then .error (-ECRYPT) else .ok (id, rel)

/-- The calls that hand out a descriptor after asking the daemon (src/lib/dev.c:762-885, 1800-1836). -/
inductive Api | accept | alloc | join | reqArr
  deriving DecidableEq, Repr

/-- The codes of the requests (src/lib/serdes-irm.c:47, 124, 133, 377). -/
inductive Code | flowAccept | flowAlloc | flowJoin | ipcpFlowReqArr
  deriving DecidableEq, Repr

/-- The request each call sends: `flow_accept__irm_req_ser`, `flow_alloc__irm_req_ser` for `flow_alloc`
*and* `flow_join`, `ipcp_flow_req_arr__irm_req_ser` (src/lib/dev.c:782, 822, 866, 1816; the codes in
src/lib/serdes-irm.c:47, 118-134, 377). -/
def request : Api → Code
  | .accept => .flowAccept
  | .alloc => .flowAlloc
  | .join => .flowAlloc
  | .reqArr => .ipcpFlowReqArr

/-- Whether the call takes a key from the answer (src/lib/dev.c:789, 829, 872, 1824). -/
def takesKey : Api → Bool
  | .accept | .alloc => true
  | .join | .reqArr => false

/-- The steps of the threads of a process (src/lib/dev.c:762-998, 1732-1836). -/
inductive Op
  /-- `flow_accept`, `flow_alloc`, `flow_join`, `ipcp_flow_req_arr` once the answer is there -/
  | open (c : Api) (r : Reply) (f : Fail)
  /-- `np1_flow_alloc` (src/lib/dev.c:1732-1746) -/
  | np1 (id : Nat) (f : Fail)
  /-- the check at the start of `flow_dealloc` (false) or `ipcp_flow_dealloc` (true) -/
  | check (t : Nat) (ipcp : Bool) (fd : Int)
  /-- `shm_rbuff_fini(flow->tx_rb)` (src/lib/dev.c:934) -/
  | flush (t : Nat)
  /-- the id is read and the request sent (src/lib/dev.c:938-945) -/
  | send (t : Nat)
  /-- the answer arrives (`none`: `send_recv_msg` failed) and `flow_fini` runs -/
  | done (t : Nat) (r : Option Int)
  /-- any other call on a descriptor: reading and writing -/
  | use (fd : Int)
  /-- `np1_flow_dealloc` -/
  | fdOf (id : Nat)
  /-- `np1_flow_resp`, first part -/
  | await (t : Nat) (id : Nat)
  /-- `np1_flow_resp`, woken up -/
  | wake (t : Nat)
  deriving DecidableEq, Repr

/-- What a step gives: a return value, a request for the daemon with a flow id, the flow the call works
on, an indeterminate value, or nothing yet (src/lib/dev.c:762-998, 1732-1836). -/
inductive Out
  | ret (r : Int)
  | sent (id : Option Nat)
  | flow (id : Nat)
  | junk
  | more
  deriving DecidableEq, Repr

/-- The value of `ai.id_to_fd[id].fd` as an output (src/lib/dev.c:1762, 1778). -/
def fdOut (e : IdEnt) : Out := match e.fd with
  | some r => .ret r
  | none => .junk

/-- `flow_init` as the last part of a call that hands out a descriptor (src/lib/dev.c:793, 833, 876, 1745,
1835). -/
def opened (s : St) (id : Nat) (rel : Bool) (f : Fail) : Outcome (St × Out) :=
  match flowInit s id rel f with
  | .ub => .ub
  | .ok (s', r) => .ok (s', .ret r)

/-- One step of a thread; a step that is not possible in the state (for instance `flush` of a thread that
is in no deallocation) does nothing (src/lib/dev.c:762-998, 1732-1836; per case below). -/
def step (s : St) : Op → Outcome (St × Out)
  -- src/lib/dev.c:785-800, 825-840, 868-881, 1820-1836
  | .open c r f => match replyDes (takesKey c) r with
    | .error e => .ok (s, .ret e)
    | .ok (id, rel) => opened s id rel f
  -- src/lib/dev.c:1732-1746; qos_np1 does not ask for in-order delivery (include/ouroboros/np1_flow.h:38-49)
  | .np1 id f => opened s id false f
  -- src/lib/dev.c:898-910, 965-980; the bound is SYS_MAX_FLOWS, the array has PROG_MAX_FLOWS entries
  | .check t ipcp fd =>
    if fd < 0 ∨ (SYS_MAX_FLOWS : Int) ≤ fd then .ok (s, .ret (-EINVAL))
    else if (MAX_FLOWS : Int) ≤ fd then .ub
    else match (s.slots fd.toNat).id with
      | none => .ok (s, .ret (-ENOTALLOC))
      | some i =>
        let d : Dealloc := if ipcp then ⟨fd.toNat, true, some (some i)⟩ else ⟨fd.toNat, false, none⟩
        .ok ({ s with calls := upd s.calls t (some d) }, .more)
  -- src/lib/dev.c:917-936; the reads that wait for the peer's acknowledgments (C16, C58) are left out
  | .flush t => match s.calls t with
    | some d =>
      if d.flushed then .ok (s, .more)
      else if (s.slots d.fd).tx ≠ .opened then .ub
      else .ok ({ s with calls := upd s.calls t (some { d with flushed := true }) }, .more)
    | none => .ok (s, .more)
  -- src/lib/dev.c:938-945, 977-984
  | .send t => match s.calls t with
    | some d =>
      if !d.flushed then .ok (s, .more) else
      match d.id with
      | some i => .ok (s, .sent i)
      | none => .ok ({ s with calls := upd s.calls t (some { d with id := some (s.slots d.fd).id }) },
          .sent (s.slots d.fd).id)
    | none => .ok (s, .more)
  -- src/lib/dev.c:945-954, 987-996
  | .done t r => match s.calls t with
    | some d =>
      if d.id = none then .ok (s, .more) else
      match r with
      | none => .ok ({ s with calls := upd s.calls t none }, .ret (-1))
      | some r => match flowFini { s with calls := upd s.calls t none } d.fd with
        | .ub => .ub
        | .ok s' => .ok (s', .ret r)
    | none => .ok (s, .more)
  -- src/lib/dev.c:1248-1261 (`flow_write`), 1356-1368 (`flow_read`); `fccntl` and the flow sets use the
  -- larger bound, as the deallocations do (1017, 1524, 1560, 1581)
  | .use fd =>
    if fd < 0 ∨ (MAX_FLOWS : Int) ≤ fd then .ok (s, .ret (-EBADF))
    else match (s.slots fd.toNat).id with
      | none => .ok (s, .ret (-ENOTALLOC))
      | some i =>
        if (s.slots fd.toNat).rx = .opened ∧ (s.slots fd.toNat).tx = .opened ∧ (s.slots fd.toNat).set = .opened
        then .ok (s, .flow i) else .ub
  -- src/lib/dev.c:1748-1767
  | .fdOf id => if SYS_MAX_FLOWS ≤ id then .ub else .ok (s, fdOut (s.ids id))
  -- src/lib/dev.c:1769-1783, 191-211
  | .await t id =>
    if SYS_MAX_FLOWS ≤ id then .ub else
    match (s.ids id).st with
    | .allocated => .ok (s, fdOut (s.ids id))
    | .init => .ok ({ s with ids := upd s.ids id { s.ids id with st := .pending },
                             waits := upd s.waits t (some id) }, .more)
    | .pending => .ok ({ s with waits := upd s.waits t (some id) }, .more)
    | .destroy => .ok ({ s with ids := upd s.ids id ⟨some (-1), .init⟩, hung := false }, .ret (-1))
  -- src/lib/dev.c:210-223, 1773-1782; waking up with the id unassigned trips the assertion at 222
  | .wake t => match s.waits t with
    | none => .ok (s, .more)
    | some id => match (s.ids id).st with
      | .pending => .ok (s, .more)
      | .allocated => .ok ({ s with waits := upd s.waits t none }, fdOut (s.ids id))
      | .init => .ub
      | .destroy => .ok ({ s with ids := upd s.ids id ⟨some (-1), .init⟩, hung := false,
                                  waits := upd s.waits t none }, .ret (-1))

/-- A history of steps of src/lib/dev.c:762-998, 1732-1836, with what each of them gave. -/
def run (s : St) : List Op → Outcome (St × List Out)
  | [] => .ok (s, [])
  | op :: ops => match step s op with
    | .ub => .ub
    | .ok (s', o) => match run s' ops with
      | .ub => .ub
      | .ok (s'', os) => .ok (s'', o :: os)

end Ouro.FlowTable
