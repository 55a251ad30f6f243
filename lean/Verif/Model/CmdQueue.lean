import Verif.Model.Base

/-!
# Model of the command queues

The daemon (src/irmd/main.c:1260-1310 and 1508-1535), an IPCP (src/ipcpd/ipcp.c:214-262 and 640-675) and the flow allocator
(src/ipcpd/unicast/fa.c:414-471) use the same code: one thread adds commands at the head of a list under a lock and signals a condition
variable; worker threads take the last command, and sleep on the condition variable while the list is empty.

A worker's call is split at its sleep. `pthread_cond_signal` wakes one of the sleeping threads, which one is arbitrary; a thread may wake up for no reason; a
thread that is cancelled while it sleeps does not consume a signal (POSIX), its signal goes to another sleeper.
Not modelled: allocation failure and unreadable commands, in which cases nothing is posted.
-/

namespace Ouro.CmdQueue

/-- What a worker does: something else, or sleeping in `pthread_cond_wait`, woken or not, or gone. [src/ipcpd/ipcp.c:660-661] -/
inductive Worker where
  | busy
  | asleep (woken : Bool)
  | gone
  deriving DecidableEq, Repr

/-- The list of commands, first to last, and the workers. [src/ipcpd/ipcp.h:96-98, src/irmd/main.c:101-103] -/
structure State (α : Type) where
  cmds : List α
  workers : List Worker

/-- `list_head_init` (src/ipcpd/ipcp.c:897, src/irmd/main.c:1791), and some worker threads. -/
def init {α : Type} (n : Nat) : State α := ⟨[], List.replicate n .busy⟩

/-- `pthread_cond_signal` (src/ipcpd/ipcp.c:256): the sleeper `i` is woken, if it is one. -/
def wake (ws : List Worker) (i : Nat) : List Worker :=
  if ws[i]? = some (.asleep false) then ws.set i (.asleep true) else ws

/-- `pthread_cond_signal` may choose `i`: it is a sleeper that was not woken, or there is none. [src/ipcpd/ipcp.c:256] -/
def mayWake (ws : List Worker) (i : Nat) : Bool :=
  ws[i]? = some (.asleep false) || !(ws.any (· == .asleep false))

/-- What happens. [src/ipcpd/ipcp.c:214-262 and 640-675] -/
inductive Op (α : Type) where
  /-- a command is posted; the signal wakes worker `i` -/
  | post (x : α) (i : Nat)
  /-- worker `w` comes to take a command -/
  | fetch (w : Nat)
  /-- worker `w` runs after its sleep -/
  | wakeUp (w : Nat)
  /-- a worker is started -/
  | spawn
  /-- worker `w` is cancelled in its sleep; if it was woken, its signal goes to `i` -/
  | cancel (w : Nat) (i : Nat)
  deriving DecidableEq, Repr

/-- What it shows to the outside; `no`: this cannot happen now. [src/ipcpd/ipcp.c:655-668] -/
inductive Out (α : Type) where
  | posted
  | took (x : α)
  | sleeps
  | done
  | no
  deriving DecidableEq, Repr

/-- `while (list_is_empty()) pthread_cond_wait(); cmd = list_last_entry(); list_del(cmd)` (src/ipcpd/ipcp.c:660-664, src/irmd/main.c:1524-1528,
src/ipcpd/unicast/fa.c:449-453), by worker `w`. -/
def take {α : Type} (s : State α) (w : Nat) : State α × Out α :=
  match s.cmds.getLast? with
  | none => ({ s with workers := s.workers.set w (.asleep false) }, .sleeps)
  | some x => ({ cmds := s.cmds.dropLast, workers := s.workers.set w .busy }, .took x)

/-- One step. `list_add` adds at the head (src/ipcpd/ipcp.c:254, src/irmd/main.c:1301, src/ipcpd/unicast/fa.c:433). -/
def step {α : Type} (s : State α) : Op α → State α × Out α
  | .post x i => if mayWake s.workers i then (⟨x :: s.cmds, wake s.workers i⟩, .posted) else (s, .no)
  | .fetch w => if s.workers[w]? = some .busy then take s w else (s, .no)
  | .wakeUp w => if s.workers[w]? = some (.asleep true) ∨ s.workers[w]? = some (.asleep false) then take s w else (s, .no)
  | .spawn => ({ s with workers := s.workers ++ [.busy] }, .done)
  | .cancel w i =>
    if s.workers[w]? = some (.asleep false) then ({ s with workers := s.workers.set w .gone }, .done)
    else if s.workers[w]? = some (.asleep true) ∧ mayWake (s.workers.set w .gone) i then
      ({ s with workers := wake (s.workers.set w .gone) i }, .done)
    else (s, .no)

/-- A history. [src/ipcpd/ipcp.c:214-262 and 640-675] -/
def run {α : Type} (s : State α) : List (Op α) → State α × List (Op α × Out α)
  | [] => (s, [])
  | op :: ops =>
    let r := step s op
    let r2 := run r.1 ops
    (r2.1, (op, r.2) :: r2.2)

end Ouro.CmdQueue
