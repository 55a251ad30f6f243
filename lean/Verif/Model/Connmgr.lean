import Verif.Model.Base

/-!
# Model of the connection manager of an IPCP (src/ipcpd/common/connmgr.c)

A component is registered with `connmgr_comp_init`; the acceptor thread hands incoming connections to the component (`connmgr_wait`), commands connect and
disconnect, and events of flows are looked up by descriptor. A step is one critical section; the results of the flow calls and of the exchange of connection
information are parameters, so a history is any interleaving with any environment.

Every connection gets a number (`Conn.num`) that is not in the C code: it identifies the list element. Simplifications: `malloc` succeeds, QoS and addresses are
left out, components are not removed (`connmgr_comp_fini`), strings are lists of characters.
-/

namespace Ouro.Connmgr

/-- Strings without the final zero. [src/ipcpd/common/connmgr.c:68] -/
abbrev Str := List Char

/-- `struct conn_info` (include/ouroboros/cep.h:32-40). -/
structure Info where
  name : Str
  proto : Str
  version : Nat
  syntax_ : Nat
  deriving DecidableEq, Repr

/-- `struct conn` (src/ipcpd/common/comp.h:37-44). `dst` is `none` where the code leaves it uninitialised. -/
structure Conn where
  num : Nat
  fd : Nat
  info : Info
  dst : Option Str
  deriving DecidableEq, Repr

/-- `struct comp` (src/ipcpd/common/connmgr.c:51-59). -/
structure Comp where
  info : Info
  conns : List Conn
  pending : List Conn

/-- `COMPID_DT` (src/ipcpd/common/comp.h:31). -/
def DT : Nat := 0
/-- `COMPID_MAX` (src/ipcpd/common/comp.h:34). -/
def maxId : Nat := 3
/-- `DST_MAX_STRLEN` (src/ipcpd/common/comp.h:28). -/
def dstMax : Nat := 64

/-- The components, `none` if not registered (src/ipcpd/common/connmgr.c:61-66); connects whose element is not in the list yet and disconnects that hold an element. -/
structure State where
  comps : Nat → Option Comp
  next : Nat
  opening : List (Nat × Conn)
  closing : List (Nat × Conn)

/-- `connmgr_init` (src/ipcpd/common/connmgr.c:231-241). -/
def init : State := ⟨fun _ => none, 0, [], []⟩

/-- Steps. [src/ipcpd/common/connmgr.c:130-564] -/
inductive Op where
  /-- `connmgr_comp_init` -/
  | compInit (id : Nat) (info : Info)
  /-- a flow is accepted on `fd`, and `rcv` was received; whether the answer can be sent -/
  | accept (fd : Nat) (rcv : Info) (sent : Bool)
  /-- `connmgr_wait` -/
  | wait (id : Nat)
  /-- `connmgr_ipcp_connect`, up to the insertion; `flow` is the new flow, `peer` what the peer answers -/
  | connect (dst comp : Str) (flow : Option Nat) (peer : Option Info)
  /-- the insertion -/
  | insert (num : Nat)
  /-- `connmgr_ipcp_disconnect`, up to where the lock is released -/
  | disconnect (dst comp : Str)
  /-- the rest of it -/
  | remove (num : Nat)
  /-- an event of a flow, looked up by descriptor -/
  | event (fd : Nat)
  deriving DecidableEq, Repr

/-- What is seen: a connection is accepted for component `id`, returned by `connmgr_wait(id)`, opened by a connect, inserted, closed by a disconnect; a flow is deallocated
because the connection is refused; the connection found for an event; a result; `no`: not possible now. [src/ipcpd/common/connmgr.c:130-564] -/
inductive Out where
  | accepted (id : Nat) (c : Conn)
  | returned (id : Nat) (c : Conn)
  | opened (id : Nat) (c : Conn)
  | inserted (id : Nat) (c : Conn)
  | closed (id : Nat) (c : Conn)
  | refused (fd : Nat)
  | found (c : Option Conn)
  | ret (r : Int)
  | done
  | no
  deriving DecidableEq, Repr

/-- The name of a component: empty if it is not registered, because `connmgr` is a static variable (src/ipcpd/common/connmgr.c:61-66). -/
def nameOf : Option Comp → Str
  | none => []
  | some c => c.info.name

/-- `get_id_by_name` (src/ipcpd/common/connmgr.c:68-77). -/
def getId (s : State) (name : Str) : Option Nat := (List.range maxId).find? (fun i => nameOf (s.comps i) = name)

/-- The search of `connmgr_ipcp_disconnect` (src/ipcpd/common/connmgr.c:411-413): comparing an uninitialised name is undefined. -/
def scan (dst : Str) : List Conn → Outcome (Option Conn)
  | [] => .ok none
  | c :: l => match c.dst with
    | none => .ub
    | some d => if d = dst then .ok (some c) else scan dst l

/-- Function update. [src/ipcpd/common/connmgr.c:298] -/
def upd {α : Type} (f : Nat → α) (i : Nat) (x : α) : Nat → α := fun j => if j = i then x else f j

/-- The checks of `connmgr_alloc` (src/ipcpd/common/connmgr.c:470-486). -/
def matches_ (i j : Info) : Bool := i.proto = j.proto ∧ i.version = j.version ∧ i.syntax_ = j.syntax_

/-- One step (src/ipcpd/common/connmgr.c:103-564, piece by piece below). -/
def step (s : State) : Op → Outcome (State × Out)
  /- src/ipcpd/common/connmgr.c:272-304 -/
  | .compInit id info =>
    if id < maxId ∧ (s.comps id).isNone then .ok ({ s with comps := upd s.comps id (some ⟨info, [], []⟩) }, .done) else .ok (s, .no)
  /- src/ipcpd/common/connmgr.c:166-194 and 103-128; the lists and the lock of a component that is not registered are not initialised -/
  | .accept fd rcv sent =>
    match getId s rcv.name with
    | none => .ok (s, .refused fd)
    | some id =>
      if !sent then .ok (s, .refused fd)
      else match s.comps id with
        | none => .ub
        | some c =>
          let x : Conn := ⟨s.next, fd, rcv, none⟩
          .ok ({ s with comps := upd s.comps id (some { c with pending := x :: c.pending }), next := s.next + 1 }, .accepted id x)
  /- src/ipcpd/common/connmgr.c:529-564 -/
  | .wait id =>
    match s.comps id with
    | none => .ub
    | some c => match c.pending with
      | [] => .ok (s, .no)
      | x :: l => .ok ({ s with comps := upd s.comps id (some { c with pending := l, conns := x :: c.conns }) }, .returned id x)
  /- src/ipcpd/common/connmgr.c:348-378 and 428-507 -/
  | .connect dst comp flow peer =>
    match getId s comp with
    | none => .ok (s, .ret (-1))
    | some id => match s.comps id with
      | none => .ub
      | some c => match flow with
        | none => .ok (s, .ret (-1))
        | some fd => match peer with
          | none => .ok (s, .refused fd)
          | some p =>
            if matches_ c.info p then
              let x : Conn := ⟨s.next, fd, p, some (dst.take dstMax)⟩
              .ok ({ s with opening := (id, x) :: s.opening, next := s.next + 1 }, .opened id x)
            else .ok (s, .refused fd)
  /- src/ipcpd/common/connmgr.c:380-386 -/
  | .insert num =>
    match s.opening.find? (fun e => e.2.num = num) with
    | none => .ok (s, .no)
    | some e => match s.comps e.1 with
      | none => .ub
      | some c => .ok ({ s with comps := upd s.comps e.1 (some { c with conns := e.2 :: c.conns }), opening := s.opening.erase e }, .inserted e.1 e.2)
  /- src/ipcpd/common/connmgr.c:403-425 -/
  | .disconnect dst comp =>
    match getId s comp with
    | none => .ok (s, .ret (-1))
    | some id => match s.comps id with
      | none => .ub
      | some c => do
        match ← scan dst c.conns with
        | none => return (s, .ret 0)
        | some x => return ({ s with closing := (id, x) :: s.closing }, .done)
  /- src/ipcpd/common/connmgr.c:416-419: the element is removed without the lock, and freed -/
  | .remove num =>
    match s.closing.find? (fun e => e.2.num = num) with
    | none => .ok (s, .no)
    | some e => match s.comps e.1 with
      | none => .ub
      | some c =>
        if e.2 ∈ c.conns then
          .ok ({ s with comps := upd s.comps e.1 (some { c with conns := c.conns.erase e.2 }), closing := s.closing.erase e }, .closed e.1 e.2)
        else .ub
  /- src/ipcpd/common/connmgr.c:199-229 and 79-101 -/
  | .event fd =>
    match s.comps DT with
    | none => .ub
    | some c => .ok (s, .found (c.conns.find? (fun x => x.fd = fd)))

/-- A history. [src/ipcpd/common/connmgr.c:130-564] -/
def run (s : State) : List Op → Outcome (State × List (Op × Out))
  | [] => .ok (s, [])
  | op :: ops => do
    let r ← step s op
    let r2 ← run r.1 ops
    return (r2.1, (op, r.2) :: r2.2)

end Ouro.Connmgr
