import Verif.Model.FlowTable

/-!
# The flow descriptors of a process: specification

The ledger a user of the library keeps in their head: which descriptor stands for which flow, which
threads are deallocating which descriptor, and which threads wait for the descriptor of a flow.  The
specification gives the result of every step from that ledger alone.
-/

namespace Ouro.FlowTable

/-- How far a deallocation is. -/
inductive Stage | checked | flushed | ready
  deriving DecidableEq, Repr

/-- The live descriptors with their flows, the deallocations under way, the waiting threads, and the flows
that once had a descriptor. -/
structure Ledger where
  live : List (Nat × Nat)
  calls : Nat → Option (Nat × Stage)
  waits : Nat → Option Nat
  known : List Nat

/-- A process that just started. -/
def Ledger.empty : Ledger := ⟨[], fun _ => none, fun _ => none, []⟩

/-- The flow of a descriptor. -/
def Ledger.flowAt (L : Ledger) (fd : Nat) : Option Nat := (L.live.find? (fun p => p.1 == fd)).map (·.2)

/-- The descriptor of a flow. -/
def Ledger.fdFor (L : Ledger) (id : Nat) : Option Nat := (L.live.find? (fun p => p.2 == id)).map (·.1)

/-- A descriptor of this process: 64 up to 4095. -/
def InRange (fd : Nat) : Prop := 64 ≤ fd ∧ fd < 4096

instance (fd : Nat) : Decidable (InRange fd) := inferInstanceAs (Decidable (_ ∧ _))

/-- The lowest descriptor that is not live. -/
def Ledger.free (L : Ledger) : Option Nat :=
  (List.range 4096).find? (fun fd => decide (InRange fd ∧ fd ∉ L.live.map Prod.fst))

/-- The flow that the daemon granted, or the error that the call must return: a call without an answer
gives -1, an answer that makes no sense -EIRMD, a refusal the daemon's error, a grant without a flow
-EBADF, and a grant of an encrypted flow without a key -ECRYPT (except to a call that takes no key). -/
def granted (keyed : Bool) : Reply → Except Int Nat
  | .lost => .error (-1)
  | .garbage | .noResult => .error (-1002)
  | .result r none _ => .error (if r < 0 then r else -9)
  | .result r (some (id, _, false)) _ => if 0 ≤ r then .ok id else .error r
  | .result r (some (id, _, true)) true => if 0 ≤ r then .ok id else .error r
  | .result r (some (id, _, true)) false =>
    if r < 0 then .error r else if keyed then .error (-1007) else .ok id

/-- A new flow gets the lowest free descriptor, or -EBADF if there is none. -/
def Ledger.add (L : Ledger) (id : Nat) : Ledger × Out :=
  match L.free with
  | none => (L, .ret (-9))
  | some fd => ({ L with live := (fd, id) :: L.live, known := id :: L.known }, .ret (fd : Int))

/-- Sets one thread's entry. -/
def put {α : Type} (f : Nat → Option α) (t : Nat) (a : Option α) : Nat → Option α :=
  fun u => if u = t then a else f u

/-- The result of every step, and the ledger after it. -/
def Ledger.step (L : Ledger) : Op → Ledger × Out
  | .open c r _ => match granted (decide (c = .accept ∨ c = .alloc)) r with
    | .error e => (L, .ret e)
    | .ok id => L.add id
  | .np1 id _ => L.add id
  | .check t ipcp fd =>
    if fd < 0 ∨ 10240 ≤ fd then (L, .ret (-22)) else
    match L.flowAt fd.toNat with
    | none => (L, .ret (-1000))
    | some _ => ({ L with calls := put L.calls t (some (fd.toNat, if ipcp then .ready else .checked)) }, .more)
  | .flush t => match L.calls t with
    | some (fd, .checked) => ({ L with calls := put L.calls t (some (fd, .flushed)) }, .more)
    | _ => (L, .more)
  | .send t => match L.calls t with
    | some (_, .checked) => (L, .more)
    | some (fd, _) => ({ L with calls := put L.calls t (some (fd, .ready)) }, .sent (L.flowAt fd))
    | none => (L, .more)
  | .done t r => match L.calls t with
    | some (fd, .ready) => match r with
      | none => ({ L with calls := put L.calls t none }, .ret (-1))
      | some r => ({ L with calls := put L.calls t none, live := L.live.filter (fun p => p.1 ≠ fd) }, .ret r)
    | _ => (L, .more)
  | .use fd =>
    if fd < 0 ∨ 4096 ≤ fd then (L, .ret (-9)) else
    match L.flowAt fd.toNat with
    | none => (L, .ret (-1000))
    | some id => (L, .flow id)
  | .fdOf id => match L.fdFor id with
    | some fd => (L, .ret (fd : Int))
    | none => (L, .ret (-1))
  | .await t id => match L.fdFor id with
    | some fd => (L, .ret (fd : Int))
    | none => ({ L with waits := put L.waits t (some id) }, .more)
  | .wake t => match L.waits t with
    | none => (L, .more)
    | some id => match L.fdFor id with
      | some fd => ({ L with waits := put L.waits t none }, .ret (fd : Int))
      | none => (L, .more)

/-- The daemon grants flow ids below 10240 that have no descriptor in this process. -/
def Fresh (L : Ledger) (id : Nat) : Prop := id < 10240 ∧ id ∉ L.live.map Prod.snd

/-- The use of the library that the results below are about: no resource runs out inside of a call, the
daemon hands out fresh flow ids, a descriptor is deallocated by one thread at a time and is not one of
4096 .. 10239, a flow is not deallocated while a thread waits for its descriptor, and the descriptor of a
flow is asked for only when it once had one. -/
def Proper (L : Ledger) : Op → Prop
  | .open c r f => f = .none ∧ ∀ id, granted (decide (c = .accept ∨ c = .alloc)) r = .ok id → Fresh L id
  | .np1 id f => f = .none ∧ Fresh L id
  | .check t _ fd => L.calls t = none ∧ (∀ u st, L.calls u ≠ some (fd.toNat, st)) ∧ (fd < 4096 ∨ 10240 ≤ fd)
  | .flush _ => True
  | .send _ => True
  | .done t r => r = none ∨ ∀ fd st id, L.calls t = some (fd, st) → (fd, id) ∈ L.live → ∀ u, L.waits u ≠ some id
  | .use _ => True
  | .fdOf id => id < 10240 ∧ id ∈ L.known
  | .await t id => id < 10240 ∧ L.waits t = none
  | .wake _ => True

/-- A history of proper use. -/
def ProperAll : Ledger → List Op → Prop
  | _, [] => True
  | L, op :: ops => Proper L op ∧ ProperAll (L.step op).1 ops

/-- The ledger after a history. -/
def Ledger.run (L : Ledger) (ops : List Op) : Ledger := ops.foldl (fun L op => (L.step op).1) L

/-- The results of a history according to the specification. -/
def Ledger.outs : Ledger → List Op → List Out
  | _, [] => []
  | L, op :: ops => (L.step op).2 :: (L.step op).1.outs ops

/-- Nothing is left in a process: no descriptor is taken and every flow is cleared. -/
def Empty (s : St) : Prop := s.used = [] ∧ (∀ fd, s.slots fd = clear) ∧ s.hung = false

end Ouro.FlowTable
