import Verif.Model.Base
import Verif.Model.Errno

/-!
# Model of the registry and directory of shim IPCPs (src/ipcpd/shim-data.c)

Names are their hashes, of any type `H` with decidable equality (`memcmp` over `ipcp_dir_hash_len()` bytes). The lists are Lean lists in list order
(`Verif/Props/LinkedList.lean`). Functions of the registry and of the directory hold their lock from the first to the last step, so they are atomic.

A directory query is used by three parties: the thread that created it and waits for the answer, a responder, and a thread that destroys it. A call that sleeps
on the condition variable is split at the sleep, so that a history is any interleaving of the parts. `dir_queries_lock` is kept by a responder and by a
destroyer while they sleep; a call that needs it meanwhile is `blocked` and has no effect. Queries get numbers 0, 1, ... in the order of their creation;
using a query that was freed is undefined behaviour.

Not modelled: failing initialisation of locks; `shim_data_destroy` is the sequence of `destroy` calls it consists of (src/ipcpd/shim-data.c:203-240).
-/

namespace Ouro.ShimData

/-- `enum dir_query_state` (src/ipcpd/shim-data.h:32-38). -/
inductive QState where
  | init | pending | response | done | destroy
  deriving DecidableEq, Repr

/-- `struct dir_query` (src/ipcpd/shim-data.h:40-48). `waiter` is the thread sleeping in `shim_data_dir_query_wait`, if any, with whether a wake-up was sent to it
since it went to sleep. `dead` says that this thread was cancelled there: it then owns `lock` forever, because there is no cleanup handler
(src/ipcpd/shim-data.c:572-575). -/
structure Query (H : Type) where
  hash : H
  state : QState
  waiter : Option Bool
  dead : Bool
  deriving DecidableEq, Repr

/-- Who holds `dir_queries_lock` while it sleeps, and whether a wake-up was sent to it (src/ipcpd/shim-data.c:529-530 and 79-80).
`stuck` waits for the lock of a query whose owner was cancelled. -/
inductive Holder where
  | responder (q : Nat) (woken : Bool)
  | destroyer (q : Nat) (woken : Bool)
  | stuck (q : Nat)
  deriving DecidableEq, Repr

/-- `struct shim_data` (src/ipcpd/shim-data.h:50-60). `list` is `dir_queries`, `qs` are the queries that are not freed, `next` is the number of the next one. -/
structure State (H : Type) where
  reg : List H
  dir : List (H × Nat)
  list : List Nat
  qs : Nat → Option (Query H)
  next : Nat
  holder : Option Holder

variable {H : Type} [DecidableEq H]

/-- `shim_data_create` (src/ipcpd/shim-data.c:142-173). -/
def create : State H := ⟨[], [], [], fun _ => none, 0, none⟩

/-- Calls, and the parts of calls that sleep (src/ipcpd/shim-data.h:62-96). `mem` says whether `malloc` succeeds. -/
inductive Op (H : Type) where
  | regAdd (h : H) (mem : Bool)
  | regDel (h : H)
  | regHas (h : H)
  | dirAdd (h : H) (a : Nat) (mem : Bool)
  | dirDel (h : H) (a : Nat)
  | dirHas (h : H)
  | dirGet (h : H)
  | queryCreate (h : H) (mem : Bool)
  /-- `shim_data_dir_query_wait` up to the first sleep -/
  | waitStart (q : Nat)
  /-- the sleeper of query `q` runs: because of a wake-up (or for no reason), or because its time is over -/
  | waitWake (q : Nat) (timeout : Bool)
  /-- the sleeper of query `q` is cancelled -/
  | waitCancel (q : Nat)
  | respond (h : H)
  /-- the sleeping responder runs -/
  | respondWake
  | queryDestroy (q : Nat)
  /-- the sleeping destroyer runs -/
  | destroyWake
  deriving DecidableEq, Repr

/-- What a call shows to the outside. `sleeps`: the call goes (back) to sleep; `answers q`: the responder answers query `q` and sleeps;
`blocked`: the call cannot run now. [src/ipcpd/shim-data.c:287-584] -/
inductive Out where
  | ret (r : Int)
  | bool (b : Bool)
  | addr (a : Nat)
  | query (q : Option Nat)
  | done
  | sleeps
  | answers (q : Nat)
  | blocked
  deriving DecidableEq, Repr

/-- Replace query `q`. [src/ipcpd/shim-data.c:57-92] -/
def upd (f : Nat → Option (Query H)) (q : Nat) (v : Option (Query H)) : Nat → Option (Query H) :=
  fun i => if i = q then v else f i

/-- `find_reg_entry_by_hash` (src/ipcpd/shim-data.c:242-257) finds something. -/
def regFind (s : State H) (h : H) : Bool := s.reg.any (fun x => x = h)

/-- `shim_data_reg_add_entry` (src/ipcpd/shim-data.c:287-322). -/
def regAdd (s : State H) (h : H) (mem : Bool) : State H × Int :=
  if regFind s h then (s, 0)
  else if !mem then (s, -1)
  else ({ s with reg := h :: s.reg }, 0)

/-- `shim_data_reg_del_entry` (src/ipcpd/shim-data.c:324-346). -/
def regDel (s : State H) (h : H) : State H :=
  if regFind s h then { s with reg := s.reg.eraseP (fun x => x = h) } else s

/-- `find_dir_entry` (src/ipcpd/shim-data.c:259-272) finds something. -/
def dirFind (s : State H) (h : H) (a : Nat) : Bool := s.dir.any (fun e => e.2 = a ∧ e.1 = h)

/-- `find_dir_entry_any` (src/ipcpd/shim-data.c:274-285). -/
def dirFindAny (s : State H) (h : H) : Option (H × Nat) := s.dir.find? (fun e => e.1 = h)

/-- `shim_data_dir_add_entry` (src/ipcpd/shim-data.c:365-399). -/
def dirAdd (s : State H) (h : H) (a : Nat) (mem : Bool) : State H × Int :=
  if dirFind s h a then (s, -1)
  else if !mem then (s, -1)
  else ({ s with dir := (h, a) :: s.dir }, 0)

/-- `shim_data_dir_del_entry` (src/ipcpd/shim-data.c:401-424). -/
def dirDel (s : State H) (h : H) (a : Nat) : State H :=
  if dirFind s h a then { s with dir := s.dir.eraseP (fun e => e.2 = a ∧ e.1 = h) } else s

/-- `shim_data_dir_has` (src/ipcpd/shim-data.c:426-438). -/
def dirHas (s : State H) (h : H) : Bool := (dirFindAny s h).isSome

/-- `shim_data_dir_get_addr` (src/ipcpd/shim-data.c:440-460). -/
def dirGet (s : State H) (h : H) : Nat :=
  match dirFindAny s h with
  | none => 0
  | some e => e.2

/-- `shim_data_dir_query_create` (src/ipcpd/shim-data.c:462-494). -/
def queryCreate (s : State H) (h : H) (mem : Bool) : State H × Out :=
  if !mem then (s, .query none)
  else if s.holder.isSome then (s, .blocked)
  else ({ s with qs := upd s.qs s.next (some ⟨h, .init, none, false⟩), list := s.next :: s.list, next := s.next + 1 }, .query (some s.next))

/-- `shim_data_dir_query_wait` up to the first sleep (src/ipcpd/shim-data.c:549-572). -/
def waitStart (s : State H) (q : Nat) : Outcome (State H × Out) :=
  match s.qs q with
  | none => .ub
  | some e =>
    if e.dead then .ok (s, .blocked)
    else if e.state ≠ .init then .ok (s, .ret (-EINVAL))
    else .ok ({ s with qs := upd s.qs q (some { e with state := .pending, waiter := some false }) }, .sleeps)

/-- The responder or destroyer sleeping on query `q` gets a wake-up (src/ipcpd/shim-data.c:579). -/
def wakeHolder (h : Option Holder) (q : Nat) : Option Holder :=
  match h with
  | some (.responder p w) => if p = q then some (.responder p true) else some (.responder p w)
  | some (.destroyer p w) => if p = q then some (.destroyer p true) else some (.destroyer p w)
  | some (.stuck p) => some (.stuck p)
  | none => none

/-- The rest of `shim_data_dir_query_wait` (src/ipcpd/shim-data.c:572-584); `timeout` says that `pthread_cond_timedwait` returned `ETIMEDOUT`. -/
def waitWake (s : State H) (q : Nat) (timeout : Bool) : Outcome (State H × Out) :=
  match s.qs q with
  | none => .ub
  | some e =>
    if e.waiter = none ∨ e.dead then .ok (s, .blocked)
    else if e.state = .pending ∧ !timeout then
      .ok ({ s with qs := upd s.qs q (some { e with waiter := some false }) }, .sleeps)
    else
      .ok ({ s with qs := upd s.qs q (some { e with state := .done, waiter := none }), holder := wakeHolder s.holder q },
        .ret (if e.state = .destroy then -1 else if timeout then -ETIMEDOUT else 0))

/-- The thread sleeping in `shim_data_dir_query_wait` is cancelled (the thread pool is stopped, src/lib/tpm.c:71-85): it keeps the lock of the query. -/
def waitCancel (s : State H) (q : Nat) : Outcome (State H × Out) :=
  match s.qs q with
  | none => .ub
  | some e =>
    if e.waiter = none ∨ e.dead then .ok (s, .blocked)
    else .ok ({ s with qs := upd s.qs q (some { e with dead := true, waiter := none }) }, .done)

/-- The first query for a name (src/ipcpd/shim-data.c:505-512). -/
def findQuery (s : State H) (h : H) : Option (Nat × Query H) :=
  match s.list.find? (fun q => (s.qs q).any (fun e => e.hash = h)) with
  | none => none
  | some q => (s.qs q).map (fun e => (q, e))

/-- `shim_data_dir_query_respond` up to the first sleep (src/ipcpd/shim-data.c:496-529). -/
def respond (s : State H) (h : H) : State H × Out :=
  if s.holder.isSome then (s, .blocked)
  else match findQuery s h with
    | none => (s, .done)
    | some (q, e) =>
      if e.dead then ({ s with holder := some (.stuck q) }, .sleeps)
      else if e.state ≠ .pending then (s, .done)
      else ({ s with
              qs := upd s.qs q (some { e with state := .response, waiter := e.waiter.map (fun _ => true) })
              holder := some (.responder q false) }, .answers q)

/-- The rest of `shim_data_dir_query_respond` (src/ipcpd/shim-data.c:529-536). -/
def respondWake (s : State H) : Outcome (State H × Out) :=
  match s.holder with
  | some (.responder q _) =>
    match s.qs q with
    | none => .ub
    | some e =>
      if e.dead then .ok (s, .blocked)
      else if e.state = .response then .ok ({ s with holder := some (.responder q false) }, .sleeps)
      else .ok ({ s with holder := none }, .done)
  | _ => .ok (s, .blocked)

/-- `shim_data_dir_query_destroy` with `destroy_dir_query` up to the first sleep (src/ipcpd/shim-data.c:538-547 and 57-80). -/
def queryDestroy (s : State H) (q : Nat) : Outcome (State H × Out) :=
  match s.qs q with
  | none => .ub
  | some e =>
    if s.holder.isSome then .ok (s, .blocked)
    else
      let list := s.list.erase q
      if e.dead then .ok ({ s with list := list, holder := some (.stuck q) }, .sleeps)
      else match e.state with
        | .init => .ok ({ s with list := list, qs := upd s.qs q none }, .done)
        | .pending =>
          .ok ({ s with
                 list := list
                 qs := upd s.qs q (some { e with state := .destroy, waiter := e.waiter.map (fun _ => true) })
                 holder := some (.destroyer q false) }, .sleeps)
        | .response => .ok ({ s with list := list, holder := some (.destroyer q false) }, .sleeps)
        | .done => .ok ({ s with list := list, qs := upd s.qs q none }, .done)
        | .destroy => .ok ({ s with list := list }, .done)

/-- The rest of `destroy_dir_query` (src/ipcpd/shim-data.c:79-92). -/
def destroyWake (s : State H) : Outcome (State H × Out) :=
  match s.holder with
  | some (.destroyer q _) =>
    match s.qs q with
    | none => .ub
    | some e =>
      if e.dead then .ok (s, .blocked)
      else if e.state ≠ .done then .ok ({ s with holder := some (.destroyer q false) }, .sleeps)
      else .ok ({ s with qs := upd s.qs q none, holder := none }, .done)
  | _ => .ok (s, .blocked)

/-- One step. [src/ipcpd/shim-data.c:287-584] -/
def step (s : State H) : Op H → Outcome (State H × Out)
  | .regAdd h mem => let r := regAdd s h mem; .ok (r.1, .ret r.2)
  | .regDel h => .ok (regDel s h, .ret 0)
  | .regHas h => .ok (s, .bool (regFind s h))
  | .dirAdd h a mem => let r := dirAdd s h a mem; .ok (r.1, .ret r.2)
  | .dirDel h a => .ok (dirDel s h a, .ret 0)
  | .dirHas h => .ok (s, .bool (dirHas s h))
  | .dirGet h => .ok (s, .addr (dirGet s h))
  | .queryCreate h mem => .ok (queryCreate s h mem)
  | .waitStart q => waitStart s q
  | .waitWake q t => waitWake s q t
  | .waitCancel q => waitCancel s q
  | .respond h => .ok (respond s h)
  | .respondWake => respondWake s
  | .queryDestroy q => queryDestroy s q
  | .destroyWake => destroyWake s

/-- A history. [src/ipcpd/shim-data.c:287-584] -/
def run (s : State H) : List (Op H) → Outcome (State H × List (Op H × Out))
  | [] => .ok (s, [])
  | op :: ops => do
    let r ← step s op
    let r2 ← run r.1 ops
    return (r2.1, (op, r.2) :: r2.2)

end Ouro.ShimData
