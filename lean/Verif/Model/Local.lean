import Verif.Model.Base
import Verif.Model.Errno

/-!
# Model of the local IPCP (src/ipcpd/local/main.c)

The IPCP has two descriptors for each flow between two applications, one per end, and `in_out` maps each to the other. Allocation, response, deallocation and
the packet loop run in different threads; their steps are split where they take and release the lock, so that a history is any interleaving.

Every time a descriptor is given to a flow a new number is used for this end of a flow (`State.next`); these numbers, and which two ends belong to the same flow
(`State.peer`), are not in the C code: they are what the statements speak about. Packets are natural numbers.

Simplifications: the rings of the flows are not modelled, the packet loop may read any packet from any flow that is not deallocated; whether a flow is in the set of
the packet loop is left out; replies of the daemon are arbitrary.
-/

namespace Ouro.Local

/-- Number of entries of `in_out` (src/ipcpd/local/main.c:57, `SYS_MAX_FLOWS` is set in src/lib/CMakeLists.txt:156). -/
def maxFlows : Nat := 10240

/-- A flow end that has a descriptor: its number, and whether it is being deallocated (after src/ipcpd/local/main.c:283, before the descriptor is released). -/
structure End where
  num : Nat
  closing : Bool
  deriving DecidableEq, Repr

/-- An allocation in progress: the descriptors it holds, with the ends they had when it got them (src/ipcpd/local/main.c:189-212). -/
structure Alloc where
  fd : Nat
  num : Nat
  out : Option (Nat × Nat)
  deriving DecidableEq, Repr

/-- What the packet loop has: nothing, a packet read from `fd`, or a packet and the descriptor to write it to (src/ipcpd/local/main.c:115-134). -/
inductive Loop where
  | idle
  | got (fd : Nat) (num : Nat) (p : Nat)
  | to (fd : Int) (num : Nat) (p : Nat)
  deriving DecidableEq, Repr

/-- `local_data` (src/ipcpd/local/main.c:54-64), and the flows. -/
structure State where
  inOut : Nat → Int
  ends : Nat → Option End
  next : Nat
  peer : Nat → Option Nat
  home : Nat → Nat
  allocs : List Alloc
  loop : Loop

/-- `local_data_init` (src/ipcpd/local/main.c:66-70). -/
def init : State := ⟨fun _ => -1, fun _ => none, 0, fun _ => none, fun _ => 0, [], .idle⟩

/-- Steps. [src/ipcpd/local/main.c:106-294] -/
inductive Op where
  /-- a flow is requested; its end here has descriptor `fd` (`np1_flow_alloc`, src/ipcpd/ipcp.c:522) -/
  | alloc (fd : Nat)
  /-- the daemon accepts the request of `fd` and the other end gets descriptor `out`, or it does not -/
  | arrived (fd : Nat) (out : Option Nat)
  /-- the two descriptors are linked -/
  | link (fd : Nat)
  /-- a positive response for the end with descriptor `fd` -/
  | respond (fd : Nat)
  /-- a negative response -/
  | reject
  /-- deallocation, first part: the entry is cleared -/
  | clear (fd : Nat)
  /-- deallocation, second part: the descriptor is released -/
  | free (fd : Nat)
  /-- the packet loop reads packet `p` from `fd` -/
  | read (fd : Nat) (p : Nat)
  /-- it looks up where to write it -/
  | look
  /-- it writes it -/
  | write
  deriving DecidableEq, Repr

/-- What is seen: packet `p` of end `src` is taken by the packet loop, arrives at end `dst`; ends `n` and `m` are a flow; the reply to the allocation goes to end `n`; a packet is lost; `no`: not possible now.
[src/ipcpd/local/main.c:106-294] -/
inductive Out where
  | took (src : Nat) (p : Nat)
  | delivered (src dst : Nat) (p : Nat)
  | linked (n m : Nat)
  | lost (src : Nat) (p : Nat)
  | replied (n : Nat)
  | ret (r : Int)
  | opened (n : Nat)
  | done
  | no
  deriving DecidableEq, Repr

/-- Function update. [src/ipcpd/local/main.c:207-208] -/
def upd {α : Type} (f : Nat → α) (i : Nat) (x : α) : Nat → α := fun j => if j = i then x else f j

/-- A new end gets descriptor `fd` (`flow_init`, src/lib/dev.c:442-515). -/
def openEnd (s : State) (fd : Nat) : State :=
  { s with ends := upd s.ends fd (some ⟨s.next, false⟩), home := upd s.home s.next fd, next := s.next + 1 }

/-- One step (src/ipcpd/local/main.c:106-292, lines at each case). -/
def step (s : State) : Op → Outcome (State × Out)
  | .alloc fd =>
    if fd < maxFlows ∧ s.ends fd = none then
      .ok ({ openEnd s fd with allocs := ⟨fd, s.next, none⟩ :: s.allocs }, .opened s.next)
    else .ok (s, .no)
  /- src/ipcpd/local/main.c:200-204 -/
  | .arrived fd out =>
    match s.allocs.find? (fun a => a.fd = fd ∧ a.out = none) with
    | none => .ok (s, .no)
    | some a =>
      match out with
      | none => .ok ({ s with allocs := s.allocs.erase a }, .ret (-1))
      | some o =>
        if o < maxFlows ∧ s.ends o = none then
          .ok ({ openEnd s o with allocs := ⟨fd, a.num, some (o, s.next)⟩ :: s.allocs.erase a }, .opened s.next)
        else .ok (s, .no)
  /- src/ipcpd/local/main.c:206-217 -/
  | .link fd =>
    match s.allocs.find? (fun a => a.fd = fd ∧ a.out ≠ none) with
    | some a =>
      match a.out with
      | some (o, m) =>
        .ok ({ s with
               inOut := upd (upd s.inOut fd o) o fd
               peer := upd (upd s.peer a.num (some m)) m (some a.num)
               allocs := s.allocs.erase a }, .linked a.num m)
      | none => .ok (s, .no)
    | none => .ok (s, .no)
  /- src/ipcpd/local/main.c:242-268 -/
  | .respond fd =>
    match s.ends fd with
    | none => .ok (s, .no)
    | some _ =>
      if s.inOut fd = -1 then .ok (s, .ret (-1))
      else match s.ends (s.inOut fd).toNat with
        | none => .ok (s, .ret (-1))
        | some e => .ok (s, .replied e.num)
  /- src/ipcpd/ipcp.c:592-601 and src/ipcpd/local/main.c:233-240: the descriptor is -1, `in_out[-1]` is read -/
  | .reject => .ub
  /- src/ipcpd/local/main.c:275-285 -/
  | .clear fd =>
    match s.ends fd with
    | some e => if e.closing then .ok (s, .no) else
        .ok ({ s with inOut := upd s.inOut fd (-1), ends := upd s.ends fd (some { e with closing := true }) }, .done)
    | none => .ok (s, .no)
  /- src/ipcpd/local/main.c:287, src/lib/dev.c:996 -/
  | .free fd =>
    match s.ends fd with
    | some e => if e.closing then .ok ({ s with ends := upd s.ends fd none }, .done) else .ok (s, .no)
    | none => .ok (s, .no)
  /- src/ipcpd/local/main.c:119-121 -/
  | .read fd p =>
    match s.loop, s.ends fd with
    | .idle, some e => if e.closing then .ok (s, .no) else .ok ({ s with loop := .got fd e.num p }, .took e.num p)
    | _, _ => .ok (s, .no)
  /- src/ipcpd/local/main.c:125-132 -/
  | .look =>
    match s.loop with
    | .got fd n p => if s.inOut fd = -1 then .ok ({ s with loop := .idle }, .lost n p) else .ok ({ s with loop := .to (s.inOut fd) n p }, .done)
    | _ => .ok (s, .no)
  /- src/ipcpd/local/main.c:131-132, src/lib/dev.c:2084-2111: a flow that is being deallocated takes no packets -/
  | .write =>
    match s.loop with
    | .to fd n p =>
      match s.ends fd.toNat with
      | some e => if e.closing then .ok ({ s with loop := .idle }, .lost n p) else .ok ({ s with loop := .idle }, .delivered n e.num p)
      | none => .ok ({ s with loop := .idle }, .lost n p)
    | _ => .ok (s, .no)

/-- A history. [src/ipcpd/local/main.c:106-294] -/
def run (s : State) : List Op → Outcome (State × List (Op × Out))
  | [] => .ok (s, [])
  | op :: ops => do
    let r ← step s op
    let r2 ← run r.1 ops
    return (r2.1, (op, r.2) :: r2.2)

end Ouro.Local
