import Verif.Model.Base
import Verif.Model.Errno

/-!
# Model of the hand-over of incoming flows to the daemon (src/ipcpd/ipcp.c:264-341)

A thread of the IPCP hands an incoming request to the daemon with `ipcp_wait_flow_req_arr`; the daemon's response comes as a command, whose handler calls
`ipcp_wait_flow_resp`. `alloc_id` is the descriptor of the flow whose response is awaited, -1 if there is none. Both functions hold `alloc_lock` except while they
sleep on the condition variable; a requester holds it also while it waits for the daemon's answer to `ipcp_flow_req_arr`. A call that cannot have the lock
now is `blocked` and has no effect. The sleep is a timed wait in a loop, so a sleeper may run again at any moment.

Simplification: the process is operational from the start until it is told to stop (`Model/Ipcp`).
-/

namespace Ouro.AllocId

/-- What a thread sleeps for: to hand over a request, or to respond for descriptor `fd`. [src/ipcpd/ipcp.c:281-286 and 321-326] -/
inductive Sleep where
  | request
  | response (fd : Int)
  deriving DecidableEq, Repr

/-- `alloc_id`, whether the process is operational, who sleeps, and who is in the call to the daemon. [src/ipcpd/ipcp.h:100-102] -/
structure State where
  allocId : Int
  oper : Bool
  sleeping : Nat → Option Sleep
  calling : Option Nat

/-- `alloc_id` is -1 at the start (src/ipcpd/ipcp.c:899). -/
def create : State := ⟨-1, true, fun _ => none, none⟩

/-- Steps. [src/ipcpd/ipcp.c:264-341] -/
inductive Op where
  /-- thread `w` has an incoming request -/
  | request (w : Nat)
  /-- the daemon answers the request that is being handed over: a descriptor, or an error -/
  | answer (r : Int)
  /-- thread `w` handles a response for descriptor `fd` -/
  | respond (w : Nat) (fd : Int)
  /-- the sleeping thread `w` runs -/
  | wake (w : Nat)
  /-- the process stops being operational -/
  | stop
  deriving DecidableEq, Repr

/-- What is seen: `asks`: the request is handed to the daemon; `ret r`: the function returns;
`responded fd`: `ipcp_wait_flow_resp(fd)` returns 0; it sleeps; `blocked`: not possible now. [src/ipcpd/ipcp.c:264-341] -/
inductive Out where
  | asks
  | ret (r : Int)
  | responded (fd : Int)
  | sleeps
  | done
  | blocked
  deriving DecidableEq, Repr

/-- Thread `w` sleeps, or not. [src/ipcpd/ipcp.c:282-284] -/
def setS (f : Nat → Option Sleep) (w : Nat) (x : Option Sleep) : Nat → Option Sleep := fun i => if i = w then x else f i

/-- `ipcp_wait_flow_req_arr` with the lock held, up to the sleep or the call to the daemon (src/ipcpd/ipcp.c:281-296). -/
def tryRequest (s : State) (w : Nat) : State × Out :=
  if s.allocId ≠ -1 ∧ s.oper then ({ s with sleeping := setS s.sleeping w (some .request) }, .sleeps)
  else if !s.oper then ({ s with sleeping := setS s.sleeping w none }, .ret (-EIPCPSTATE))
  else ({ s with sleeping := setS s.sleeping w none, calling := some w }, .asks)

/-- `ipcp_wait_flow_resp` with the lock held, up to the sleep or the return (src/ipcpd/ipcp.c:321-338). -/
def tryRespond (s : State) (w : Nat) (fd : Int) : State × Out :=
  if s.allocId ≠ fd ∧ s.oper then ({ s with sleeping := setS s.sleeping w (some (.response fd)) }, .sleeps)
  else if !s.oper then ({ s with sleeping := setS s.sleeping w none }, .ret (-1))
  else ({ s with sleeping := setS s.sleeping w none, allocId := -1 }, .responded fd)

/-- One step (src/ipcpd/ipcp.c:264-341 and 1022-1025). -/
def step (s : State) : Op → State × Out
  /- src/ipcpd/ipcp.c:264-296 -/
  | .request w => if s.calling.isSome ∨ (s.sleeping w).isSome then (s, .blocked) else tryRequest s w
  /- src/ipcpd/ipcp.c:296-309 -/
  | .answer r =>
    match s.calling with
    | none => (s, .blocked)
    | some _ =>
      if r < 0 then ({ s with calling := none }, .ret r)
      else ({ s with allocId := r, calling := none }, .ret r)
  /- src/ipcpd/ipcp.c:312-338 -/
  | .respond w fd => if s.calling.isSome ∨ (s.sleeping w).isSome then (s, .blocked) else tryRespond s w fd
  /- src/ipcpd/ipcp.c:281-286 and 321-326: the lock is taken again and the loop tests again -/
  | .wake w =>
    if s.calling.isSome then (s, .blocked)
    else match s.sleeping w with
      | none => (s, .blocked)
      | some .request => tryRequest s w
      | some (.response fd) => tryRespond s w fd
  /- src/ipcpd/ipcp.c:1022-1025 -/
  | .stop => ({ s with oper := false }, .done)

/-- A history. [src/ipcpd/ipcp.c:264-341] -/
def run (s : State) : List Op → State × List (Op × Out)
  | [] => (s, [])
  | op :: l =>
    let r := step s op
    let r2 := run r.1 l
    (r2.1, (op, r.2) :: r2.2)

end Ouro.AllocId
