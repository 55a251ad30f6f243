import Verif.Model.Base

/-!
# Model of joining a directory, src/ipcpd/unicast/dir/dht.c

The thread that joins (`join_thr`, `kad_join`, `wait_resp`, `kad_req_wait`), the thread that handles the response (`kad_handle_response`,
`kad_handle_join_resp`, `kad_req_respond`, `kad_req_destroy`) and the worker that gives up on requests, interleaved between the regions protected by
`dht->lock` or the lock of the request. Memory does not run out and threads can be created. A thread that waits on a condition may look at it at any time.
-/

namespace Ouro.DhtJoin

/-- `enum kad_req_state`, src/ipcpd/unicast/dir/dht.c:100-107. -/
inductive RSt where
  | null | init | pending | response | done | destroy
  deriving DecidableEq, Repr

/-- Where the joining thread is in an attempt, src/ipcpd/unicast/dir/dht.c:1811-1843, 1595-1614, 472-514: the message is on its way; the request is
listed; it was found by `wait_resp`; the thread waits; it has returned (`true`: with success). -/
inductive WPc where
  | sent | listed | found | waiting | returned (ok : Bool)
  deriving DecidableEq, Repr

/-- Where the thread is that took the request off the list, src/ipcpd/unicast/dir/dht.c:2206-2243, 2121-2179, 440-470: none yet; it has the request and
the response accepts or refuses (the worker has it: refuses); it waits to destroy the request; it has freed it. -/
inductive HPc where
  | idle | taken (accept : Bool) | destroying | freed
  deriving DecidableEq, Repr

/-- One attempt to join (`kad_join`, src/ipcpd/unicast/dir/dht.c:1811-1852) with its request. -/
structure Att where
  st : RSt
  w : WPc
  h : HPc
  /-- A join was accepted: a worker thread was started and the buckets were made (src/ipcpd/unicast/dir/dht.c:2143-2166). -/
  accepted : Bool
  deriving DecidableEq, Repr

/-- A new attempt: the message is out, src/ipcpd/unicast/dir/dht.c:1834, 1515. -/
def Att.new : Att := ⟨.init, .sent, .idle, false⟩

/-- What the threads of an attempt do (src/ipcpd/unicast/dir/dht.c:405-524, 1604-1612, 2143-2225; the lines of each are at `step`). -/
inductive Op where
  /-- The request is put on the list. -/
  | list
  /-- `wait_resp` looks for it. -/
  | find
  /-- `kad_req_wait` begins. -/
  | enter
  /-- The waiting thread looks at the state. -/
  | wake
  /-- The waiting thread has waited 8 seconds. -/
  | timeout
  /-- The request is taken off the list, because of a response that accepts or not, or by the worker. -/
  | take (accept : Bool)
  /-- The response accepts: worker started, request marked. -/
  | respond
  /-- `kad_req_destroy` begins. -/
  | destroy
  /-- `kad_req_destroy` looks at the state. -/
  | reap
  deriving DecidableEq, Repr

/-- How `kad_req_wait` ends: the state left behind and the result, src/ipcpd/unicast/dir/dht.c:494-513. `timedOut`: the last wait timed out. -/
def leave (st : RSt) (timedOut : Bool) : RSt × Bool := match st with
  | .destroy => (.null, false)
  | .pending => (.done, !timedOut)
  | .response => (.done, !timedOut)
  | s => (s, !timedOut)

/-- One region of one thread. What is not possible changes nothing. The joining thread touching a request that is freed is `ub`.
[src/ipcpd/unicast/dir/dht.c:405-524, 1604-1612, 2143-2225] -/
def step (a : Att) : Op → Outcome Att
  | .list => /- src/ipcpd/unicast/dir/dht.c:405-409, 1528-1529 -/
    if a.w = .sent then .ok { a with w := .listed } else .ok a
  | .find => /- src/ipcpd/unicast/dir/dht.c:1604-1612 -/
    if a.w = .listed then
      if a.h = .idle then .ok { a with w := .found } else .ok { a with w := .returned false }
    else .ok a
  | .enter => /- src/ipcpd/unicast/dir/dht.c:485-487 -/
    if a.w = .found then
      if a.h = .freed then .ub else .ok { a with w := .waiting, st := .pending }
    else .ok a
  | .wake => /- src/ipcpd/unicast/dir/dht.c:491-513 -/
    if a.w = .waiting then
      if a.h = .freed then .ub
      else if a.st = .pending then .ok a
      else .ok { a with w := .returned (leave a.st false).2, st := (leave a.st false).1 }
    else .ok a
  | .timeout => /- src/ipcpd/unicast/dir/dht.c:491-513 -/
    if a.w = .waiting then
      if a.h = .freed then .ub
      else .ok { a with w := .returned (leave a.st true).2, st := (leave a.st true).1 }
    else .ok a
  | .take accept => /- src/ipcpd/unicast/dir/dht.c:2214-2225, 2090-2094 -/
    if a.h = .idle ∧ a.w ≠ .sent then .ok { a with h := .taken accept } else .ok a
  | .respond => /- src/ipcpd/unicast/dir/dht.c:2143-2172, 516-524 -/
    if a.h = .taken true ∧ a.accepted = false then .ok { a with st := .response, accepted := true } else .ok a
  | .destroy => /- src/ipcpd/unicast/dir/dht.c:440-461 -/
    if a.h = .taken false ∨ (a.h = .taken true ∧ a.accepted = true) then
      .ok { a with h := .destroying, st := match a.st with
        | .pending => .destroy
        | .init => .null
        | .done => .null
        | s => s }
    else .ok a
  | .reap => /- src/ipcpd/unicast/dir/dht.c:463-469, 426-438 -/
    if a.h = .destroying ∧ (a.st = .null ∨ a.st = .done) then .ok { a with h := .freed } else .ok a

/-- `join_thr`, src/ipcpd/unicast/dir/dht.c:2724-2760: the attempts so far, oldest first, and whether the directory is running. -/
structure Sys where
  atts : List Att
  running : Bool

/-- What happens while joining (src/ipcpd/unicast/dir/dht.c:2724-2760). -/
inductive Act where
  /-- A step of a thread of attempt `i`. -/
  | at (i : Nat) (op : Op)
  /-- The last attempt failed, another one is made (there are 9 at most). -/
  | retry
  /-- The last attempt succeeded. -/
  | run
  deriving DecidableEq, Repr

/-- `KAD_JOIN_RETR`, src/ipcpd/unicast/dir/dht.c:79. -/
def retries : Nat := 8

/-- The first attempt, src/ipcpd/unicast/dir/dht.c:2732. -/
def start : Sys := ⟨[.new], false⟩

/-- One action, with the loop of `join_thr` (src/ipcpd/unicast/dir/dht.c:2724-2760). -/
def act (s : Sys) : Act → Outcome Sys
  | .at i op => /- src/ipcpd/unicast/dir/dht.c:1811-1852 -/
    match s.atts[i]? with
    | some a => match step a op with
      | .ok a' => .ok { s with atts := s.atts.set i a' }
      | .ub => .ub
    | none => .ok s
  | .retry => /- src/ipcpd/unicast/dir/dht.c:2732-2745 -/
    match s.atts.getLast? with
    | some a => if a.w = .returned false ∧ s.atts.length < retries + 1 then .ok { s with atts := s.atts ++ [.new] } else .ok s
    | none => .ok s
  | .run => /- src/ipcpd/unicast/dir/dht.c:2747 -/
    match s.atts.getLast? with
    | some a => if a.w = .returned true then .ok { s with running := true } else .ok s
    | none => .ok s

end Ouro.DhtJoin
