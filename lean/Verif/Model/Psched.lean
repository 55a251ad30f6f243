import Verif.Model.Base

/-!
# Model of the packet scheduler (src/ipcpd/unicast/psched.c)

There are three QoS classes, each with a set of flows, and `mul` reader threads per class (`IPCP_SCHED_THR_MUL`, 2 by default, src/ipcpd/CMakeLists.txt:15).
A reader takes the events of its set, and for each packet event it reads a packet and calls the callback. Reading the packet and calling the callback are
separate steps, and a history is any interleaving of the readers with arrivals.

Simplifications: flows have no retransmission on them (`frcti` is `NULL`), a flow is its descriptor (descriptors are not reused within a history), rings and event
queues do not overflow (that is C02 and C20), packets are natural numbers.
-/

namespace Ouro.Psched

/-- `QOS_CUBE_MAX` (include/ouroboros/qoscube.h:28-33). -/
def cubes : Nat := 3

/-- `enum fqtype` (include/ouroboros/fqueue.h:31-37). -/
inductive Kind where
  | pkt | down | up | dealloc
  deriving DecidableEq, Repr

/-- A reader: the events it has to handle, and the packet it has read (src/ipcpd/unicast/psched.c:66-119). -/
structure Reader where
  fq : List (Nat × Kind)
  held : Option (Nat × Nat)

/-- `struct psched` (src/ipcpd/unicast/psched.c:50-55), the receive rings of the flows, and the set each flow is in. -/
structure State where
  ring : Nat → List Nat
  cls : Nat → Option Nat
  queue : Nat → List (Nat × Kind)
  rdr : Nat → Reader

/-- `psched_create` (src/ipcpd/unicast/psched.c:121-203). -/
def create : State := ⟨fun _ => [], fun _ => none, fun _ => [], fun _ => ⟨[], none⟩⟩

/-- Steps. [src/ipcpd/unicast/psched.c:66-119 and 222-243] -/
inductive Op where
  /-- `psched_add`, the flow has class `qc` -/
  | add (fd qc : Nat)
  /-- `psched_del` -/
  | del (fd : Nat)
  /-- packet `p` arrives on `fd` -/
  | arrive (fd p : Nat)
  /-- something else happens to the flow -/
  | event (fd : Nat) (k : Kind)
  /-- reader `i` calls `fevent` -/
  | fevent (i : Nat)
  /-- reader `i` handles its next event, up to the callback -/
  | next (i : Nat)
  /-- reader `i` calls the callback -/
  | callback (i : Nat)
  deriving DecidableEq, Repr

/-- What is seen: the callback is called with `fd`, class `qc` and packet `p`; a notification; `no`: not possible now.
[src/ipcpd/unicast/psched.c:93-111] -/
inductive Out where
  | called (fd qc p : Nat)
  | notified (k : Kind) (fd : Nat)
  | done
  | no
  deriving DecidableEq, Repr

/-- Function update. [src/ipcpd/unicast/psched.c:136] -/
def upd {α : Type} (f : Nat → α) (i : Nat) (x : α) : Nat → α := fun j => if j = i then x else f j

/-- An event for `fd` (src/lib/shm_flow_set.c:296-323). -/
def notify (s : State) (fd : Nat) (k : Kind) : State := match s.cls fd with
  | none => s
  | some c => { s with queue := upd s.queue c (s.queue c ++ [(fd, k)]) }

/-- One step of a scheduler with `mul` readers per class (src/ipcpd/unicast/psched.c:74-242). -/
def step (mul : Nat) (s : State) : Op → State × Out
  /- src/ipcpd/unicast/psched.c:222-231 and src/lib/dev.c:1518-1553: one event if there are packets -/
  | .add fd qc =>
    if qc < cubes ∧ s.cls fd = none then
      let s := { s with cls := upd s.cls fd (some qc) }
      (if s.ring fd ≠ [] then notify s fd .pkt else s, .done)
    else (s, .no)
  /- src/ipcpd/unicast/psched.c:233-242, src/lib/dev.c:1555-1574 -/
  | .del fd => ({ s with cls := upd s.cls fd none }, .done)
  /- src/lib/dev.c:2047-2063 and 1244-1268: the writer notifies after it wrote -/
  | .arrive fd p => (notify { s with ring := upd s.ring fd (s.ring fd ++ [p]) } fd .pkt, .done)
  | .event fd k => if k = .pkt then (s, .no) else (notify s fd k, .done)
  /- src/ipcpd/unicast/psched.c:88-90, src/lib/dev.c:1693-1724, src/lib/shm_flow_set.c:326-371 -/
  | .fevent i =>
    if i < cubes * mul ∧ (s.rdr i).held = none ∧ (s.rdr i).fq = [] ∧ s.queue (i % cubes) ≠ [] then
      ({ s with rdr := upd s.rdr i ⟨s.queue (i % cubes), none⟩, queue := upd s.queue (i % cubes) [] }, .done)
    else (s, .no)
  /- src/ipcpd/unicast/psched.c:92-108 -/
  | .next i =>
    if i < cubes * mul ∧ (s.rdr i).held = none then
      match (s.rdr i).fq with
      | [] => (s, .no)
      | (fd, .pkt) :: fq => match s.ring fd with
        | [] => ({ s with rdr := upd s.rdr i ⟨fq, none⟩ }, .done)
        | p :: ps => ({ s with rdr := upd s.rdr i ⟨fq, some (fd, p)⟩, ring := upd s.ring fd ps }, .done)
      | (fd, k) :: fq => ({ s with rdr := upd s.rdr i ⟨fq, none⟩ }, .notified k fd)
    else (s, .no)
  /- src/ipcpd/unicast/psched.c:107 -/
  | .callback i =>
    match (s.rdr i).held with
    | some (fd, p) => ({ s with rdr := upd s.rdr i ⟨(s.rdr i).fq, none⟩ }, .called fd (i % cubes) p)
    | none => (s, .no)

/-- A history. [src/ipcpd/unicast/psched.c:86-113] -/
def run (mul : Nat) (s : State) : List Op → State × List (Op × Out)
  | [] => (s, [])
  | op :: l =>
    let r := step mul s op
    let r2 := run mul r.1 l
    (r2.1, (op, r.2) :: r2.2)

end Ouro.Psched
