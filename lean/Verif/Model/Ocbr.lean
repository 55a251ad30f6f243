import Verif.Model.Oping

/-!
# Model of the server of ocbr (src/tools/ocbr/ocbr_server.c)

The listener and the workers share `fds`, `fds_index` and `fds_count` under a lock and one condition variable.  A step is what a thread does while it holds the
lock.  Flows are named by the order in which they are accepted.  Simplifications: a failing `flow_accept`, which ends the server, and cancellation are left out;
the counters of `handle_flow` do not wrap.
-/

namespace Ouro.Ocbr

open Oping (Time diffUs)

/-- `THREADS_SIZE` (src/tools/ocbr/ocbr_server.c:53). -/
def threads : Nat := 10

/-- Where the listener is: before its test of `fds_count`, waiting for the condition variable, or in `flow_accept` (src/tools/ocbr/ocbr_server.c:190-200). -/
inductive Lst where
  | check
  | wait
  | accept
  deriving DecidableEq, Repr

/-- The shared variables (src/tools/ocbr/ocbr_server.c:57-61) and the threads: workers that are about to look at the slot, workers that wait, the flows that are
handled and, for the statements, those that were, and the number of flows accepted. -/
structure St where
  slots : List (Option Nat)
  index : Nat
  count : Nat
  lst : Lst
  ready : Nat
  waiting : Nat
  busy : List Nat
  done : List Nat
  next : Nat
  deriving DecidableEq, Repr

/-- `server_main` (src/tools/ocbr/ocbr_server.c:221-258). -/
def St.init : St := ⟨List.replicate threads none, 0, 0, .check, threads, 0, [], [], 0⟩

/-- What workers look at: `fds[fds_index]` (src/tools/ocbr/ocbr_server.c:159-162). -/
def St.slot (s : St) : Option Nat := (s.slots.getD s.index none)

/-- `pthread_cond_signal(&fds_signal)` (src/tools/ocbr/ocbr_server.c:172, 214): wakes one thread that waits; `l` says whether it is the listener if it may be any. -/
def St.signal (l : Bool) (s : St) : St :=
  if s.lst = .wait ∧ (l = true ∨ s.waiting = 0) then { s with lst := .check }
  else if 0 < s.waiting then { s with ready := s.ready + 1, waiting := s.waiting - 1 }
  else s

/-- The steps; `wakeL` and `wakeW` are wake-ups without a signal, which POSIX allows. -/
inductive Act where
  | listen
  | accept
  | look
  | finish (k : Nat) (l : Bool)
  | wakeL
  | wakeW
  deriving DecidableEq, Repr

/-- The listener tests whether there is room (src/tools/ocbr/ocbr_server.c:190-198). -/
def listen (s : St) : Option St := if s.lst = .check then some { s with lst := if s.count = threads then .wait else .accept } else none

/-- The listener has accepted a flow (src/tools/ocbr/ocbr_server.c:200-215). -/
def accept (s : St) : Option St :=
  if s.lst = .accept then
    let i := (s.index + 1) % threads
    some (St.signal false { s with count := s.count + 1, index := i, slots := s.slots.set i (some s.next), next := s.next + 1, lst := .check })
  else none

/-- A worker looks for a flow (src/tools/ocbr/ocbr_server.c:157-167). -/
def look (s : St) : Option St :=
  if 0 < s.ready then
    match s.slot with
    | none => some { s with ready := s.ready - 1, waiting := s.waiting + 1 }
    | some k => some { s with ready := s.ready - 1, slots := s.slots.set s.index none, busy := k :: s.busy }
  else none

/-- A worker has handled a flow (src/tools/ocbr/ocbr_server.c:167-173). -/
def finish (k : Nat) (l : Bool) (s : St) : Option St :=
  if k ∈ s.busy then some (let t := St.signal l { s with count := s.count - 1, busy := s.busy.erase k, done := k :: s.done }
    { t with ready := t.ready + 1 }) else none

/-- A step of the server (src/tools/ocbr/ocbr_server.c:150-219). -/
def step (s : St) : Act → Option St
  | .listen => listen s
  | .accept => accept s
  | .look => look s
  | .finish k l => finish k l s
  | .wakeL => if s.lst = .wait then some { s with lst := .check } else none
  | .wakeW => if 0 < s.waiting then some { s with ready := s.ready + 1, waiting := s.waiting - 1 } else none

/-- A run of the server: the steps of its threads in any order (src/tools/ocbr/ocbr_server.c:150-219). -/
def run : List Act → St → Option St
  | [], s => some s
  | a :: l, s => (step s a).bind (run l)

/-- `ts_diff_ms` (src/tools/time_utils.h:60-61). -/
def diffMs (a b : Time) : Int := (b.sec - a.sec) * 1000 + (b.nsec - a.nsec).tdiv 1000000

/-- `ts_add` of whole seconds to a time with less than a second of nanoseconds (src/tools/time_utils.h:71-81). -/
def addSec (t : Time) (n : Int) : Time := ⟨t.sec + n, t.nsec⟩

/-- The variables of `handle_flow` (src/tools/ocbr/ocbr_server.c:80-96). -/
structure Flow where
  alive : Time
  ivStart : Time
  ivEnd : Time
  packets : Nat
  packetsIntv : Nat
  bytes : Nat
  bytesIntv : Nat
  deriving DecidableEq, Repr

/-- What a round sees: the time, what `flow_read` returns, and the time after it (src/tools/ocbr/ocbr_server.c:107-112). -/
structure Read where
  now : Time
  count : Int
  after : Time
  deriving DecidableEq, Repr

/-- A line of the report: packets, bytes and microseconds (src/tools/ocbr/ocbr_server.c:125-134). -/
structure Report where
  packets : Int
  bytes : Int
  us : Int
  deriving DecidableEq, Repr

/-- `handle_flow` starts (src/tools/ocbr/ocbr_server.c:80-101). -/
def Flow.init (now : Time) (interval : Int) : Flow := ⟨now, now, addSec now interval, 0, 0, 0, 0⟩

/-- A packet is counted (src/tools/ocbr/ocbr_server.c:111-115). -/
def Flow.read (f : Flow) (r : Read) : Flow :=
  if 0 < r.count then { f with alive := r.after, packets := f.packets + 1, bytes := f.bytes + r.count.toNat } else f

/-- The line of the report (src/tools/ocbr/ocbr_server.c:124-134). -/
def Flow.report (f : Flow) (now : Time) : Report := ⟨f.packets - f.packetsIntv, f.bytes - f.bytesIntv, diffUs f.ivStart now⟩

/-- The next interval (src/tools/ocbr/ocbr_server.c:135-138). -/
def Flow.nextIv (f : Flow) (interval : Int) : Flow :=
  { f with ivStart := f.ivEnd, packetsIntv := f.packets, bytesIntv := f.bytes, ivEnd := addSec f.ivEnd interval }

/-- `handle_flow` (src/tools/ocbr/ocbr_server.c:106-140): the lines it prints, and whether it has stopped. -/
def handle (interval timeout : Int) : List Read → Flow → List Report × Bool
  | [], _ => ([], false)
  | r :: l, f =>
    let f := f.read r
    if timeout * 1000000 < diffUs f.alive r.now then ([f.report r.now], true)
    else if diffMs r.now f.ivEnd < 0 then
      let p := handle interval timeout l (f.nextIv interval)
      (f.report r.now :: p.1, p.2)
    else handle interval timeout l f

end Ouro.Ocbr
