import Verif.Model.FlowSet
import Verif.Spec.FlowSets

/-!
# Histories of flow set calls

Bookkeeping that runs beside a history of model operations: the user's view (`Spec.FlowSets.User`, changed only by
`Spec.FlowSets.after`), the events notified and the events returned. Used in the statements of C19 and C20.
-/

namespace Ouro.FlowSet

open Spec.FlowSets

/-- What happened so far, from the user's point of view. `stale`: flows that were closed while in a set (and the set, until
it is zeroed). `log s`: events notified for flows that were in `s` at the time, with a mark if the set has been zeroed
since. `out s`: events that `fqueue_next` has returned. `dead`: flows that have been closed at least once. -/
structure Track where
  user : User
  inUse : Nat → Bool
  stale : Nat → Option Nat
  log : Nat → List (Ev × Bool)
  out : Nat → List Ev
  dead : Nat → Bool

def Track.init : Track :=
  { user := nothing, inUse := fun s => decide (s = 0), stale := fun _ => none, log := fun _ => [], out := fun _ => [],
    dead := fun _ => false }

/-- An event notified for a flow is recorded for the set that holds the flow. -/
def Track.notified (t : Track) (id ev : Nat) : Track :=
  match holder t.user id with
  | none => t
  | some s => { t with log := upd t.log s (t.log s ++ [(⟨id, ev⟩, false)]) }

/-- The set is zeroed: undelivered events may be gone. -/
def Track.zeroed (t : Track) (s : Nat) : Track :=
  { t with user := after t.user (.zero s)
           stale := fun i => if t.stale i = some s then none else t.stale i
           log := upd t.log s ((t.log s).map fun e => (e.1, true)) }

/-- Bookkeeping for one call that returned `r` and, if it is `fqueue_next`, took `e`. `queued`: the flow has packets
waiting when it is added. -/
def Track.after (t : Track) (queued : Nat → Bool) (r : Ret) (e : Option Ev) : Op → Track
  | .create s => { t with inUse := upd t.inUse s true, log := upd t.log s [], out := upd t.out s [] }
  | .destroy s => { t.zeroed s with inUse := upd t.inUse s false }
  | .zero s => t.zeroed s
  | .add s fd =>
    let t' := { t with user := Spec.FlowSets.after t.user (.add s fd) }
    match t.user.open_ fd with
    | none => t'
    | some id => if r = .int 0 ∧ queued id = true then t'.notified id FLOW_PKT else t'
  | .del s fd => { t with user := Spec.FlowSets.after t.user (.del s fd) }
  | .has _ _ => t
  | .flowInit fd id _ => if r = .bool true then { t with user := Spec.FlowSets.after t.user (.opened fd id) } else t
  | .flowFini fd =>
    match t.user.open_ fd with
    | none => t
    | some id =>
      { t with user := Spec.FlowSets.after t.user (.closed fd)
               stale := upd t.stale id (t.user.set fd)
               dead := upd t.dead id true }
  | .push _ _ => t
  | .read _ => t
  | .notify id ev => t.notified id ev
  | .fevent _ => t
  | .next s =>
    match e with
    | none => t
    | some ev => { t with out := upd t.out s (t.out s ++ [ev]) }

/-- A descriptor argument that stays inside the descriptor table, or is rejected. -/
def FdOk (fd : Int) : Prop := fd < progMaxFlows ∨ (sysMaxFlows : Int) ≤ fd

/-- The queue of the set the flow is in has room. -/
def Room (p : Proc) (id : Nat) : Prop :=
  match p.shm.mtable id with
  | none => True
  | some s => p.shm.heads s < qSize

/-- Calls that follow the rules: handles of existing sets, descriptors that stay inside the table, flow ids that are free
(in particular not left in a set by a flow that was closed), event queues that have room, and no notification for a flow
that was closed while in a set. -/
def Valid (p : Proc) (t : Track) : Op → Prop
  | .create s => s < maxSets ∧ t.inUse s = false
  | .destroy s => s ≠ 0 ∧ s < maxSets ∧ t.inUse s = true
  | .zero s => s ≠ 0 ∧ s < maxSets ∧ t.inUse s = true
  | .add s fd => s ≠ 0 ∧ s < maxSets ∧ t.inUse s = true ∧ FdOk fd ∧ p.shm.heads s < qSize
  | .del s fd => s ≠ 0 ∧ s < maxSets ∧ t.inUse s = true ∧ FdOk fd
  | .has s fd => s ≠ 0 ∧ s < maxSets ∧ t.inUse s = true ∧ FdOk fd
  | .flowInit fd id _ =>
    fd < progMaxFlows ∧ id < sysMaxFlows ∧ t.user.open_ fd = none ∧ t.user.fdOf id = none ∧ t.stale id = none
  | .flowFini fd => fd < progMaxFlows
  | .push _ _ => True
  | .read _ => True
  | .notify id _ => id < sysMaxFlows ∧ Room p id ∧ t.stale id = none
  | .fevent s => s < maxSets
  | .next s => s < maxSets

/-- Which flows have packets waiting. -/
def queuedOf (p : Proc) : Nat → Bool := fun id => decide (p.rx id ≠ [])

/-- Events in the queue of a set in shared memory. -/
def shmQ (m : Shm) (s : Nat) : List Ev := (List.range (m.heads s)).map fun i => m.mem (qSize * s + i)

/-- Events of a set that were notified and have not been returned by `fqueue_next` yet. -/
def pending (p : Proc) (s : Nat) : List Ev := (p.fq s).evs.drop (p.fq s).next ++ shmQ p.shm s

/-- Events that need not be delivered: those that were undelivered when the set was zeroed, and packet arrivals on a flow
that has been closed. -/
def Lost (dead : Nat → Bool) (e : Ev × Bool) : Prop := e.2 = true ∨ (e.1.event = FLOW_PKT ∧ dead e.1.flow = true)

/-- Some list over `log` reads `es` after losing only what may be lost. -/
def Reads (dead : Nat → Bool) (log : List (Ev × Bool)) (es : List Ev) : Prop :=
  ∃ l, Thinned (Lost dead) log l ∧ l.map Prod.fst = es

/-- Valid operations in a process without reliable flows. -/
def ValidRaw (p : Proc) (t : Track) (o : Op) : Prop :=
  Valid p t o ∧ match o with | .flowInit _ _ frct => frct = false | _ => True

/-- States reachable from a new process by operations that are `ok`, with the bookkeeping. -/
inductive Reach (ok : Proc → Track → Op → Prop) : Proc → Track → Prop
  | init (mem : Nat → Ev) : Reach ok (init mem) Track.init
  | step {p q : Proc} {t : Track} {o : Op} {r : Ret} {e : Option Ev} : Reach ok p t → ok p t o →
      step p o = .ok (q, r, e) → Reach ok q (t.after (queuedOf p) r e o)

end Ouro.FlowSet
