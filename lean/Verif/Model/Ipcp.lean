import Verif.Model.Base
import Verif.Model.Errno

/-!
# Model of the life cycle of an IPCP and of the hand-over of incoming flows (src/ipcpd/ipcp.c)

Worker threads execute commands from the daemon, and the main thread handles signals. The state of the process is read and written under its own mutex
(src/ipcpd/ipcp.c:1074-1095), a single read or write is one step, and a command consists of several steps: the test of the state, the call of the operation,
its return. A history is any interleaving of these steps.

Simplifications: messages are well formed (an assertion on the length of the hash fails otherwise, src/ipcpd/ipcp.c:700-727), the results of the operations of
the IPCP and of `np1_flow_*` are arbitrary.
-/

namespace Ouro.Ipcp

/-- `enum ipcp_state` (include/ouroboros/ipcp.h:35-43). -/
inductive IState where
  | init | boot | operational | bootstrapped | enrolled | shutdown | null
  deriving DecidableEq, Repr

/-- The commands (src/ipcpd/ipcp.c:685-740). `resp` is the response the daemon sends. -/
inductive Cmd where
  | bootstrap | enroll | connect | disconnect | reg | unreg | query | flowAlloc | flowJoin
  | flowAllocResp (resp : Int)
  | flowDealloc
  | unknown
  deriving DecidableEq, Repr

/-- Which operations the IPCP has: `struct ipcp_ops` (src/ipcpd/ipcp.h:37-70), false for `NULL`. -/
structure Ops where
  bootstrap : Bool
  enroll : Bool
  connect : Bool
  disconnect : Bool
  reg : Bool
  unreg : Bool
  query : Bool
  flowAlloc : Bool
  flowJoin : Bool
  flowAllocResp : Bool
  flowDealloc : Bool

/-- Where a worker is in its command: after the tests, or in the operation. [src/ipcpd/ipcp.c:349-638] -/
inductive Phase where
  | tested | inside
  deriving DecidableEq, Repr

/-- Where the main thread is in the handling of a signal of the daemon (src/ipcpd/ipcp.c:996-1034): `looping` is the test of the loop,
`over`: it left the loop. -/
inductive Sig where
  | waiting | setNull | testOper | setShutdown | looping | over
  deriving DecidableEq, Repr

/-- The process: its state, what each worker does, what the main thread does. [src/ipcpd/ipcp.h:75-104] -/
structure State where
  st : IState
  workers : Nat → Option (Cmd × Phase)
  sig : Sig

/-- After `ipcp_init` (src/ipcpd/ipcp.c:903). -/
def create : State := ⟨.init, fun _ => none, .looping⟩

/-- Steps. [src/ipcpd/ipcp.c:349-638 and 996-1034] -/
inductive Op where
  /-- worker `w` starts command `c`, up to the call of `np1_flow_*` or of the operation -/
  | test (w : Nat) (c : Cmd)
  /-- worker `w` goes on; `np1` is the result of `np1_flow_*`, where it is called -/
  | call (w : Nat) (np1 : Int)
  /-- the operation returns `r`; a failing one may set the state to `IPCP_INIT`
  (src/ipcpd/unicast/main.c:101, src/ipcpd/local/main.c:153, src/ipcpd/broadcast/main.c:69) -/
  | finish (w : Nat) (r : Int) (reset : Bool)
  /-- a signal of the daemon arrives -/
  | signal
  /-- the main thread goes on -/
  | sigNext
  deriving DecidableEq, Repr

/-- What is seen from outside: the reply `ret`, the command goes on, the operation is called (with the descriptor, for flows),
the operation returned `r`, which is the reply, the signal handler sets the state; `no`: not possible now.
[src/ipcpd/ipcp.c:349-638] -/
inductive Out where
  | ret (r : Int)
  | goesOn
  | invoked (fd : Int)
  | finished (c : Cmd) (r : Int)
  | becomes (st : IState)
  | done
  | no
  deriving DecidableEq, Repr

/-- The tests at the start of a command: `none` if the command goes on, else its result. [src/ipcpd/ipcp.c:296-620] -/
def tests (ops : Ops) (st : IState) : Cmd → Option Int
  /- src/ipcpd/ipcp.c:356-366 -/
  | .bootstrap => if !ops.bootstrap then some (-ENOTSUP) else if st ≠ .init then some (-EIPCPSTATE) else none
  /- src/ipcpd/ipcp.c:385-395 -/
  | .enroll => if !ops.enroll then some (-ENOTSUP) else if st ≠ .init then some (-EIPCPSTATE) else none
  /- src/ipcpd/ipcp.c:413-417 -/
  | .connect => if !ops.connect then some (-ENOTSUP) else none
  /- src/ipcpd/ipcp.c:430-434 -/
  | .disconnect => if !ops.disconnect then some (-ENOTSUP) else none
  /- src/ipcpd/ipcp.c:449-453 -/
  | .reg => if !ops.reg then some (-ENOTSUP) else none
  /- src/ipcpd/ipcp.c:466-470 -/
  | .unreg => if !ops.unreg then some (-ENOTSUP) else none
  /- src/ipcpd/ipcp.c:483-493 -/
  | .query => if !ops.query then some (-ENOTSUP) else if st ≠ .operational then some (-EIPCPSTATE) else none
  /- src/ipcpd/ipcp.c:510-520 -/
  | .flowAlloc => if !ops.flowAlloc then some (-ENOTSUP) else if st ≠ .operational then some (-EIPCPSTATE) else none
  /- src/ipcpd/ipcp.c:547-557 -/
  | .flowJoin => if !ops.flowJoin then some (-ENOTSUP) else if st ≠ .operational then some (-EIPCPSTATE) else none
  /- src/ipcpd/ipcp.c:580-590 -/
  | .flowAllocResp _ => if !ops.flowAllocResp then some (-ENOTSUP) else if st ≠ .operational then some (-EIPCPSTATE) else none
  /- src/ipcpd/ipcp.c:615-625 -/
  | .flowDealloc => if !ops.flowDealloc then some (-ENOTSUP) else if st ≠ .operational then some (-EIPCPSTATE) else none
  /- src/ipcpd/ipcp.c:736-739 -/
  | .unknown => some (-1)

/-- What comes before the call of the operation: an error, or the descriptor it is called with (src/ipcpd/ipcp.c:522-634). -/
def prepare (np1 : Int) : Cmd → Int ⊕ Int
  /- src/ipcpd/ipcp.c:522-530 -/
  | .flowAlloc => if np1 < 0 then .inl (-EFLOWDOWN) else .inr np1
  /- src/ipcpd/ipcp.c:559-566 -/
  | .flowJoin => if np1 < 0 then .inl (-1) else .inr np1
  /- src/ipcpd/ipcp.c:592-601 -/
  | .flowAllocResp resp => if resp = 0 then (if np1 < 0 then .inl (-1) else .inr np1) else .inr (-1)
  /- src/ipcpd/ipcp.c:627-634 -/
  | .flowDealloc => if np1 < 0 then .inl (-1) else .inr np1
  /- no descriptor (src/ipcpd/ipcp.c:369, 397, 419, 436, 455, 472, 495) -/
  | _ => .inr 0

/-- The workers, with `w` set to `x`. [src/ipcpd/ipcp.c:640-682] -/
def setW (f : Nat → Option (Cmd × Phase)) (w : Nat) (x : Option (Cmd × Phase)) : Nat → Option (Cmd × Phase) :=
  fun i => if i = w then x else f i

/-- One step (src/ipcpd/ipcp.c:349-682 and 996-1034). -/
def step (ops : Ops) (s : State) : Op → State × Out
  /- src/ipcpd/ipcp.c:640-682 and the tests above -/
  | .test w c =>
    match s.workers w with
    | some _ => (s, .no)
    | none => match tests ops s.st c with
      | some r => (s, .ret r)
      | none => ({ s with workers := setW s.workers w (some (c, .tested)) }, .goesOn)
  | .call w np1 =>
    match s.workers w with
    | some (c, .tested) => match prepare np1 c with
      | .inl r => ({ s with workers := setW s.workers w none }, .ret r)
      | .inr fd => ({ s with workers := setW s.workers w (some (c, .inside)) }, .invoked fd)
    | _ => (s, .no)
  /- src/ipcpd/ipcp.c:369-373, 397-401, 419, 436, 455, 472, 495, 530, 566, 601, 634 -/
  | .finish w r reset =>
    match s.workers w with
    | some (c, .inside) =>
      let st1 := if r ≠ 0 ∧ reset ∧ (c = .bootstrap ∨ c = .enroll) then .init else s.st
      let st2 := if r = 0 ∧ (c = .bootstrap ∨ c = .enroll) then .operational else st1
      ({ s with st := st2, workers := setW s.workers w none }, .finished c r)
    | _ => (s, .no)
  /- src/ipcpd/ipcp.c:1020-1021 -/
  | .signal =>
    match s.sig with
    | .waiting => if s.st = .init then ({ s with sig := .setNull }, .done) else ({ s with sig := .testOper }, .done)
    | _ => (s, .no)
  /- src/ipcpd/ipcp.c:1022-1025 and 996-997 -/
  | .sigNext =>
    match s.sig with
    | .setNull => ({ s with st := .null, sig := .testOper }, .becomes .null)
    | .testOper => if s.st = .operational then ({ s with sig := .setShutdown }, .done) else ({ s with sig := .looping }, .done)
    | .setShutdown => ({ s with st := .shutdown, sig := .looping }, .becomes .shutdown)
    | .looping => if s.st = .null ∨ s.st = .shutdown then ({ s with sig := .over }, .done) else ({ s with sig := .waiting }, .done)
    | _ => (s, .no)

/-- A history. [src/ipcpd/ipcp.c:349-638 and 996-1034] -/
def run (ops : Ops) (s : State) : List Op → State × List (Op × Out)
  | [] => (s, [])
  | op :: l =>
    let r := step ops s op
    let r2 := run ops r.1 l
    (r2.1, (op, r.2) :: r2.2)

end Ouro.Ipcp
