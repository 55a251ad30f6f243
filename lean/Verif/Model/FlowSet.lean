import Verif.Model.Base
import Verif.Model.Errno

/-!
# Flow sets and flow events

The shared flow set of a process (`src/lib/shm_flow_set.c`) and the calls on top of it in `src/lib/dev.c`
(`fset_*`, `fevent`, `fqueue_*`).

Simplifications, for the whole file: every function body that runs under the lock of the set is one step. A `ssize_t` entry
that is `-1` is `none`. Each set has one event queue object (`fqueue_t`) that is used with it.
-/

namespace Ouro.FlowSet

/-- `SYS_MAX_FLOWS` in the default build (`src/lib/CMakeLists.txt:156`): length of `mtable`
(`src/lib/shm_flow_set.c:59`). -/
def sysMaxFlows : Nat := 10240

/-- `PROG_MAX_FLOWS` (`src/lib/CMakeLists.txt:158`): length of `ai.flows` (`src/lib/dev.c:600`). -/
def progMaxFlows : Nat := 4096

/-- `PROG_MAX_FQUEUES` (`src/lib/CMakeLists.txt:162`): number of sets (`src/lib/shm_flow_set.c:60-62`). -/
def maxSets : Nat := 32

/-- `SHM_BUFFER_SIZE`: events that fit in one queue (`src/lib/shm_flow_set.c:57`). -/
def qSize : Nat := 16384

/-- `FLOW_PKT` (`include/ouroboros/fqueue.h:32`). -/
def FLOW_PKT : Nat := 1
/-- `FLOW_DOWN` (`include/ouroboros/fqueue.h:33`). -/
def FLOW_DOWN : Nat := 2
/-- `FLOW_UP` (`include/ouroboros/fqueue.h:34`). -/
def FLOW_UP : Nat := 4
/-- `FLOW_DEALLOC` (`include/ouroboros/fqueue.h:36`). -/
def FLOW_DEALLOC : Nat := 16

/-- `struct flowevent` (`include/ouroboros/shm_flow_set.h:30-33`; fields used at `src/lib/shm_flow_set.c:315-316`). -/
structure Ev where
  flow : Nat
  event : Nat
  deriving Repr, DecidableEq

/-- `struct shm_flow_set` (`src/lib/shm_flow_set.c:67-75`). `mem` is the one array that holds the queues of all sets, one
after the other (`fqueue_ptr`, line 65). Condition variables and the mutex are not modelled. -/
structure Shm where
  mtable : Nat → Option Nat
  heads : Nat → Nat
  mem : Nat → Ev

/-- Update a function at one point: an array store, as in `src/lib/shm_flow_set.c:253`. -/
def upd {α : Type} (f : Nat → α) (i : Nat) (a : α) : Nat → α := fun x => if x = i then a else f x

/-- `shm_flow_set_create` (`src/lib/shm_flow_set.c:124-190`): no flow is in a set, all queues are empty. -/
def shmCreate (mem : Nat → Ev) : Shm := { mtable := fun _ => none, heads := fun _ => 0, mem := mem }

/-- `shm_flow_set_zero` (`src/lib/shm_flow_set.c:218-235`). -/
def shmZero (m : Shm) (idx : Nat) : Outcome Shm :=
  if idx < maxSets then
    .ok { m with mtable := fun i => if i < sysMaxFlows ∧ m.mtable i = some idx then none else m.mtable i,
                 heads := upd m.heads idx 0 }
  else .ub

/-- `shm_flow_set_add` (`src/lib/shm_flow_set.c:238-258`). -/
def shmAdd (m : Shm) (idx flow : Nat) : Outcome (Shm × Int) :=
  if flow < sysMaxFlows ∧ idx < maxSets then
    if m.mtable flow ≠ none then .ok (m, -EPERM)
    else .ok ({ m with mtable := upd m.mtable flow (some idx) }, 0)
  else .ub

/-- `shm_flow_set_del` (`src/lib/shm_flow_set.c:260-274`). -/
def shmDel (m : Shm) (idx flow : Nat) : Outcome Shm :=
  if flow < sysMaxFlows ∧ idx < maxSets then
    if m.mtable flow = some idx then .ok { m with mtable := upd m.mtable flow none } else .ok m
  else .ub

/-- `shm_flow_set_has` (`src/lib/shm_flow_set.c:276-294`). -/
def shmHas (m : Shm) (idx flow : Nat) : Outcome Int :=
  if flow < sysMaxFlows ∧ idx < maxSets then .ok (if m.mtable flow = some idx then 1 else 0) else .ub

/-- `shm_flow_set_notify` (`src/lib/shm_flow_set.c:296-323`). There is no check that the queue has room: the event goes
to the next cell of the common array, which is the first cell of the next set once the queue is full, and the mutex behind
the last queue of the last set (undefined behaviour). -/
def shmNotify (m : Shm) (flow event : Nat) : Outcome Shm :=
  if flow < sysMaxFlows then
    match m.mtable flow with
    | none => .ok m
    | some idx =>
      let cell := qSize * idx + m.heads idx
      if cell < qSize * maxSets then
        .ok { m with mem := upd m.mem cell ⟨flow, event⟩, heads := upd m.heads idx (m.heads idx + 1) }
      else .ub
  else .ub

/-- `shm_flow_set_wait` (`src/lib/shm_flow_set.c:326-371`) once it is not waiting: all events are copied to the caller's
queue object, which has `SHM_BUFFER_SIZE` cells (more is a heap overflow), and the queue is empty. `none`: the queue is
empty, the call sleeps or times out. -/
def shmWait (m : Shm) (idx : Nat) : Outcome (Shm × Option (List Ev)) :=
  if idx < maxSets then
    if m.heads idx = 0 then .ok (m, none)
    else if m.heads idx ≤ qSize then
      .ok ({ m with heads := upd m.heads idx 0 },
        some ((List.range (m.heads idx)).map fun i => m.mem (qSize * idx + i)))
    else .ub
  else .ub

/-- What a packet in the receive ring of a reliable flow does when it is taken (`flow_rx_sdb`, `src/lib/dev.c:1311-1339`,
then `__frcti_rcv`, `src/lib/frct.c:795-934`): `data`: the next packet for the reader is ready; `ctl`: it is consumed
(acknowledgement, window update, duplicate, out of order); `bad`: it is dropped as invalid (a keepalive, which is empty, or
a checksum or decryption failure; `invalid_pkt`, `src/lib/dev.c:1296-1309`) and `flow_rx_sdb` returns `-EAGAIN`. -/
inductive Pkt where
  | data
  | ctl
  | bad
  deriving Repr, DecidableEq

/-- The part of `struct flow` (`src/lib/dev.c:90-113`) that matters here: the flow id and whether `frcti` is not `NULL`. -/
structure Flow where
  id : Nat
  frct : Bool
  deriving Repr, DecidableEq

/-- `struct fqueue` (`src/lib/dev.c:120-124`): `evs` is `fqueue[0..fqsize)`. `looping`: an `fevent` call is in its loop
(line 1714) with this queue object, after an iteration that found nothing for the user. -/
structure Fq where
  evs : List Ev
  next : Nat
  looping : Bool
  deriving Repr, DecidableEq

/-- The process (`struct ai`, `src/lib/dev.c:126-146`): descriptors, flow id to descriptor map, the sets in use
(`ai.fqueues`), the flow set in shared memory, what is in the receive ring of each flow, whether the next packet of a
reliable flow is ready (`__frcti_pdu_ready`, `src/lib/frct.c:629-645`), and the event queue object of each set. -/
structure Proc where
  flows : Nat → Option Flow
  idToFd : Nat → Option Nat
  sets : Nat → Bool
  shm : Shm
  rx : Nat → List Pkt
  ready : Nat → Bool
  fq : Nat → Fq

/-- A new queue object: `fqueue_create` (`src/lib/dev.c:1492-1503`). -/
def fqCreate : Fq := { evs := [], next := 0, looping := false }

/-- `init` (`src/lib/dev.c:546-666`): no flow, set 0 is taken for reliable flows (line 639). -/
def init (mem : Nat → Ev) : Proc :=
  { flows := fun _ => none, idToFd := fun _ => none, sets := fun s => decide (s = 0), shm := shmCreate mem,
    rx := fun _ => [], ready := fun _ => false, fq := fun _ => fqCreate }

/-- `ai.flows[fd]` for a `fd` that passed the check against `SYS_MAX_FLOWS` (`src/lib/dev.c:1527`): the array has only
`PROG_MAX_FLOWS` entries. -/
def flowAt (p : Proc) (fd : Int) : Outcome (Option Flow) :=
  if fd < progMaxFlows then .ok (p.flows fd.toNat) else .ub

/-- The argument checks of `fset_add`, `fset_del`, `fset_has` (`src/lib/dev.c:1524`, `1560`, `1581`), for a set that is not
`NULL`. -/
def badFd (fd : Int) : Bool := decide (fd < 0 ∨ fd ≥ sysMaxFlows)

/-- `fset_zero` (`src/lib/dev.c:1510-1516`). -/
def fsetZero (p : Proc) (s : Nat) : Outcome Proc := do
  let m ← shmZero p.shm s
  return { p with shm := m }

/-- `fset_create` (`src/lib/dev.c:1449-1474`): the handle `s` is one the bitmap allocator may return (C01: any index not
in use; `none` of them left: `NULL`). A new queue object is made with it. -/
def fsetCreate (p : Proc) (s : Nat) : Proc :=
  { p with sets := upd p.sets s true, fq := upd p.fq s fqCreate }

/-- `fset_destroy` (`src/lib/dev.c:1476-1490`). -/
def fsetDestroy (p : Proc) (s : Nat) : Outcome Proc := do
  let p ← fsetZero p s
  return { p with sets := upd p.sets s false }

/-- A reliable flow leaves set 0 (`src/lib/dev.c:1536-1537`, `392-399`). -/
def leaveFrct (m : Shm) (f : Flow) : Outcome Shm := if f.frct then shmDel m 0 f.id else .ok m

/-- A reliable flow goes back to set 0 (`src/lib/dev.c:1570-1571`); the result of the call is ignored. -/
def joinFrct (m : Shm) (f : Flow) : Outcome Shm := if f.frct then (do let r ← shmAdd m 0 f.id; return r.1) else .ok m

/-- The packet notification of `fset_add` (`src/lib/dev.c:1543-1544`). -/
def notifyQueued (m : Shm) (id : Nat) (rx : List Pkt) : Outcome Shm :=
  if rx ≠ [] then shmNotify m id FLOW_PKT else .ok m

/-- `fset_add` (`src/lib/dev.c:1518-1553`). -/
def fsetAdd (p : Proc) (s : Nat) (fd : Int) : Outcome (Proc × Int) :=
  if badFd fd then .ok (p, -EINVAL)
  else do
    match ← flowAt p fd with
    | none => return (p, -EINVAL)
    | some f =>
      let m ← leaveFrct p.shm f
      let (m, ret) ← shmAdd m s f.id
      if ret < 0 then return ({ p with shm := m }, ret)
      let m ← notifyQueued m f.id (p.rx f.id)
      return ({ p with shm := m }, ret)

/-- `fset_del` (`src/lib/dev.c:1555-1574`). -/
def fsetDel (p : Proc) (s : Nat) (fd : Int) : Outcome Proc :=
  if badFd fd then .ok p
  else do
    match ← flowAt p fd with
    | none => return p
    | some f =>
      let m ← shmDel p.shm s f.id
      let m ← joinFrct m f
      return { p with shm := m }

/-- `fset_has` (`src/lib/dev.c:1576-1596`). -/
def fsetHas (p : Proc) (s : Nat) (fd : Int) : Outcome Bool :=
  if badFd fd then .ok false
  else do
    match ← flowAt p fd with
    | none => return false
    | some f =>
      let r ← shmHas p.shm s f.id
      return decide (r = 1)

/-- `flow_init` (`src/lib/dev.c:442-534`) for the descriptor `fd` that `bmp_allocate` chose: a reliable flow is added to
set 0; if that fails the whole call fails (lines 498-499). Opening the rings and the flow set of the other process does not
fail in the model. -/
def flowInit (p : Proc) (fd : Nat) (id : Nat) (frct : Bool) : Outcome (Proc × Bool) := do
  let p' := { p with flows := upd p.flows fd (some ⟨id, frct⟩), idToFd := upd p.idToFd id (some fd),
                     ready := upd p.ready id false, rx := upd p.rx id [] }
  if frct then
    let (m, ret) ← shmAdd p.shm 0 id
    if ret ≠ 0 then return (p, false)
    return ({ p' with shm := m }, true)
  else return (p', true)

/-- `__flow_fini` (`src/lib/dev.c:388-431`): the flow leaves set 0 if it is reliable, and no other set. The notification of
the other process (line 420) is an event in that process. -/
def flowFini (p : Proc) (fd : Nat) : Outcome Proc :=
  match p.flows fd with
  | none => .ok p
  | some f => do
    let m ← leaveFrct p.shm f
    return { p with flows := upd p.flows fd none, idToFd := upd p.idToFd f.id none, shm := m }

/-- `fqueue_filter` (`src/lib/dev.c:1599-1653`) for the event at `next`, over the events from there on. Returns the
process, the new `next` and the result. The loop of the C code runs over the remaining events. -/
def filter (p : Proc) : List Ev → Nat → Outcome (Proc × Nat × Bool)
  | [], next => .ok (p, next, false)
  | e :: es, next =>
    if e.event ≠ FLOW_PKT then .ok (p, next, true)
    else
      match p.idToFd e.flow with
      | none => filter p es (next + 1)
      | some fd =>
        match p.flows fd with
        | none => .ub
        | some f =>
          if f.frct = false then .ok (p, next, true)
          else if p.ready f.id then .ok (p, next, true)
          else
            match p.rx f.id with
            | [] => .ok (p, next, false)
            | .bad :: q => .ok ({ p with rx := upd p.rx f.id q }, next, false)
            | .data :: q => .ok ({ p with rx := upd p.rx f.id q, ready := upd p.ready f.id true }, next, true)
            | .ctl :: q => filter { p with rx := upd p.rx f.id q } es (next + 1)

/-- `fqueue_filter(fq)` on the queue object of set `s`, for the process `p` (`src/lib/dev.c:1599-1653`). -/
def fqueueFilter (p : Proc) (s : Nat) : Outcome (Proc × Bool) := do
  let (p, next, r) ← filter p ((p.fq s).evs.drop (p.fq s).next) (p.fq s).next
  return ({ p with fq := upd p.fq s { p.fq s with next := next } }, r)

/-- The filter call of `fqueue_next` (`src/lib/dev.c:1666`). -/
def filterNext (p : Proc) (s : Nat) : Outcome (Proc × Bool) :=
  if (p.fq s).next ≠ 0 then fqueueFilter p s else .ok (p, true)

/-- Results of the calls; of src/lib/dev.c:1449-1730; not a C type. `fevent` returns 1, times out, or goes around its loop once more (`again`). -/
inductive Ret where
  | unit
  | int (v : Int)
  | bool (b : Bool)
  | again
  deriving Repr, DecidableEq

/-- `fevent` (`src/lib/dev.c:1693-1728`), one iteration of its loop. A call that comes in while there are events left
in the queue object returns at once (lines 1704-1705); a call that is in the loop does not look at them. -/
def fevent (p : Proc) (s : Nat) : Outcome (Proc × Ret) :=
  let q := p.fq s
  if q.looping = false ∧ q.evs.length > 0 ∧ q.next ≠ q.evs.length then .ok (p, .int 1)
  else do
    match ← shmWait p.shm s with
    | (_, none) => return ({ p with fq := upd p.fq s { q with looping := false } }, .int (-ETIMEDOUT))
    | (m, some evs) =>
      let p := { p with shm := m, fq := upd p.fq s { evs := evs, next := 0, looping := false } }
      let (p, r) ← fqueueFilter p s
      if r then return (p, .int 1)
      return ({ p with fq := upd p.fq s { p.fq s with looping := true } }, .again)

/-- `fqueue_next` (`src/lib/dev.c:1655-1680`): the descriptor (`-1` when the flow is gone) and, for the record, the event it
was taken from. -/
def fqueueNext (p : Proc) (s : Nat) : Outcome (Proc × Int × Option Ev) :=
  let q := p.fq s
  if q.evs.length = 0 ∨ q.next = q.evs.length then .ok (p, -EPERM, none)
  else do
    let (p, r) ← filterNext p s
    if r = false then return (p, -EPERM, none)
    let e ← rd (p.fq s).evs (p.fq s).next
    let fd : Int := match p.idToFd e.flow with | some fd => fd | none => -1
    return ({ p with fq := upd p.fq s { p.fq s with next := (p.fq s).next + 1 } }, fd, some e)

/-- `fqueue_type` (`src/lib/dev.c:1682-1691`). -/
def fqueueType (p : Proc) (s : Nat) : Outcome Int :=
  let q := p.fq s
  if q.evs.length = 0 ∨ q.next = 0 then .ok (-EPERM)
  else do
    let e ← rd q.evs (q.next - 1)
    return e.event

/-- Operations of a history: calls of the process, and what other processes do to it: write a packet in the receive ring
of a flow and notify (`src/lib/dev.c:1212-1220`). `read`: `flow_read` takes a packet of the flow
(`src/lib/dev.c:1341-1445`). -/
inductive Op where
  | create (s : Nat)
  | destroy (s : Nat)
  | zero (s : Nat)
  | add (s : Nat) (fd : Int)
  | del (s : Nat) (fd : Int)
  | has (s : Nat) (fd : Int)
  | flowInit (fd id : Nat) (frct : Bool)
  | flowFini (fd : Nat)
  | push (id : Nat) (k : Pkt)
  | read (id : Nat)
  | notify (id ev : Nat)
  | fevent (s : Nat)
  | next (s : Nat)
  deriving Repr, DecidableEq

/-- One operation; the third component is the event `fqueue_next` took (dispatch to the functions of src/lib/dev.c:148-225, 388-534, 1447-1706). -/
def step (p : Proc) : Op → Outcome (Proc × Ret × Option Ev)
  | .create s => .ok (fsetCreate p s, .unit, none)
  | .destroy s => do return (← fsetDestroy p s, .unit, none)
  | .zero s => do return (← fsetZero p s, .unit, none)
  | .add s fd => do let (p, r) ← fsetAdd p s fd; return (p, .int r, none)
  | .del s fd => do return (← fsetDel p s fd, .unit, none)
  | .has s fd => do return (p, .bool (← fsetHas p s fd), none)
  | .flowInit fd id frct => do let (p, b) ← flowInit p fd id frct; return (p, .bool b, none)
  | .flowFini fd => do return (← flowFini p fd, .unit, none)
  | .push id k => .ok ({ p with rx := upd p.rx id (p.rx id ++ [k]) }, .unit, none)
  | .read id =>
    .ok ({ p with rx := upd p.rx id (if p.ready id then p.rx id else (p.rx id).tail), ready := upd p.ready id false },
      .unit, none)
  | .notify id ev => do let m ← shmNotify p.shm id ev; return ({ p with shm := m }, .unit, none)
  | .fevent s => do let (p, r) ← fevent p s; return (p, r, none)
  | .next s => do let (p, r, e) ← fqueueNext p s; return (p, .int r, e)

end Ouro.FlowSet
