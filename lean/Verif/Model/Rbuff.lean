import Verif.Model.Base
import Verif.Model.Errno

/-!
# Model of the shared-memory ring buffer (`src/lib/shm_rbuff.c`, `src/lib/shm_rbuff_pthr.c`, mutex variant)

All functions run under `rb->lock`, so each critical section is one atomic step. A blocking call is split at its
`__timedwait`: the part up to the wait is one step, every return from the wait (signalled, spurious, timed out, owner
died) is another one, with arbitrary steps of other threads in between. Threads asleep on a condition variable are kept
in a list, with a mark whether a broadcast has been issued for them since they went to sleep.
-/

namespace Ouro.Rbuff

/-- include/ouroboros/shm_rbuff.h:30 -/ def ACL_RDWR : Nat := 0
/-- include/ouroboros/shm_rbuff.h:31 -/ def ACL_RDONLY : Nat := 1
/-- include/ouroboros/shm_rbuff.h:32 -/ def ACL_FLOWDOWN : Nat := 2
/-- include/ouroboros/shm_rbuff.h:33 -/ def ACL_FLOWPEER : Nat := 4

/-- `struct shm_rbuff` (src/lib/shm_rbuff.c:60-70): the cells, the two indices and the access word. `size` stands for
`SHM_RBUFF_SIZE`, which CMake requires to be a power of two. -/
structure Ring where
  size  : Nat
  cells : List Int
  head  : Nat
  tail  : Nat
  acl   : Nat
  deriving Repr, DecidableEq

/-- `shm_rbuff_create` (src/lib/shm_rbuff.c:131-195): empty ring, `ACL_RDWR`. (File creation and locks not modelled.) -/
def create (size : Nat) : Ring := { size, cells := List.replicate size 0, head := 0, tail := 0, acl := ACL_RDWR }

/-- `shm_rbuff_used` (src/lib/shm_rbuff.c:53-54). -/
def Ring.used (r : Ring) : Nat := (r.head + r.size - r.tail) &&& (r.size - 1)

/-- `shm_rbuff_free` (src/lib/shm_rbuff.c:55). -/
def Ring.free (r : Ring) : Bool := r.used + 1 < r.size

/-- `shm_rbuff_empty` (src/lib/shm_rbuff.c:56). -/
def Ring.empty (r : Ring) : Bool := r.head == r.tail

/-- store at `head_el_ptr` and advance the head (src/lib/shm_rbuff_pthr.c:77-78 and 127-128). -/
def Ring.push (r : Ring) (idx : Nat) : Outcome Ring := do
  let c ← wr r.cells r.head (idx : Int)
  return { r with cells := c, head := (r.head + 1) &&& (r.size - 1) }

/-- load from `tail_el_ptr` and advance the tail (src/lib/shm_rbuff_pthr.c:171-172 and 212-213). -/
def Ring.pop (r : Ring) : Outcome (Ring × Int) := do
  let x ← rd r.cells r.tail
  return ({ r with tail := (r.tail + 1) &&& (r.size - 1) }, x)

/-- `check_rb_acl` (src/lib/shm_rbuff_pthr.c:139-150). -/
def Ring.checkAcl (r : Ring) : Int :=
  if r.acl &&& ACL_FLOWDOWN ≠ 0 then -EFLOWDOWN
  else if r.acl &&& ACL_FLOWPEER ≠ 0 then -EFLOWPEER
  else -EAGAIN

/-- The return value on the access-check exit of both writes (src/lib/shm_rbuff_pthr.c:61-67, 104-110). -/
def Ring.denyCode (r : Ring) : Int :=
  if r.acl &&& ACL_FLOWDOWN ≠ 0 then -EFLOWDOWN
  else if r.acl &&& ACL_RDONLY ≠ 0 then -ENOTALLOC
  else 0

/-- What a sleeping thread is executing (waits at src/lib/shm_rbuff_pthr.c:117, 204, 278). -/
inductive Waiter where
  | writer (idx : Nat)   -- in `shm_rbuff_write_b`, waiting on `del`
  | reader               -- in `shm_rbuff_read_b`, waiting on `add`
  | finisher             -- in `shm_rbuff_fini`, waiting on `del`
  deriving Repr, DecidableEq

/-- The condition variable a waiter sleeps on: `true` for `add` (src/lib/shm_rbuff_pthr.c:117, 204, 278).  -/
def Waiter.onAdd : Waiter → Bool
  | .reader => true
  | _ => false

/-- The ring together with the threads asleep in it; the `Bool` says a broadcast was issued for that thread (src/lib/shm_rbuff_pthr.c:117, 204, 278). -/
structure Sys where
  ring : Ring
  waiting : List (Waiter × Bool)
  deriving Repr, DecidableEq

/-- `pthread_cond_broadcast` on `add` (`a = true`) or `del`.  [src/lib/shm_rbuff_pthr.c:75, 126, 173, 214, 239-240] -/
def Sys.broadcast (s : Sys) (a : Bool) : Sys :=
  { s with waiting := s.waiting.map (fun (w, b) => (w, b || w.onAdd == a)) }

/-- One atomic step of some thread. `wake i rc`: the `i`-th sleeping thread returns from its wait, `rc` being the return
value of `__timedwait` (0: signalled or spurious; otherwise a positive errno). [src/lib/shm_rbuff_pthr.c:46-304] -/
inductive Op where
  | write (idx : Nat)
  | read
  | writeB (idx : Nat)
  | readB
  | setAcl (flags : Nat)
  | getAcl
  | queued
  | fini
  | wake (i : Nat) (rc : Int)
  deriving Repr, DecidableEq

/-- What the caller sees: the call returns a value, or goes (back) to sleep. [src/lib/shm_rbuff_pthr.c:46-304] -/
inductive Out where
  | ret (v : Int)
  | sleep
  deriving Repr, DecidableEq

/-- `shm_rbuff_write` (src/lib/shm_rbuff_pthr.c:46-86). The `assert(idx < SHM_BUFFER_SIZE)` is a precondition of the caller. -/
def write (s : Sys) (idx : Nat) : Outcome (Sys × Out) := do
  if s.ring.acl ≠ ACL_RDWR then return (s, .ret s.ring.denyCode)
  else if !s.ring.free then return (s, .ret (-EAGAIN))
  else
    let s := if s.ring.empty then s.broadcast true else s
    let r ← s.ring.push idx
    return ({ s with ring := r }, .ret 0)

/-- The loop test and the tail of `shm_rbuff_write_b` (src/lib/shm_rbuff_pthr.c:114-133), with `ret` the current value. -/
def writeBLoop (s : Sys) (idx : Nat) (ret : Int) : Outcome (Sys × Out) := do
  if !s.ring.free && ret != -ETIMEDOUT && (s.ring.acl &&& ACL_FLOWDOWN == 0) then
    return ({ s with waiting := s.waiting ++ [(.writer idx, false)] }, .sleep)
  else if ret ≠ -ETIMEDOUT then
    let s := if s.ring.empty then s.broadcast true else s
    let r ← s.ring.push idx
    return ({ s with ring := r }, .ret ret)
  else return (s, .ret ret)

/-- Entry of `shm_rbuff_write_b` (src/lib/shm_rbuff_pthr.c:88-112). -/
def writeB (s : Sys) (idx : Nat) : Outcome (Sys × Out) :=
  if s.ring.acl ≠ ACL_RDWR then .ok (s, .ret s.ring.denyCode) else writeBLoop s idx 0

/-- `shm_rbuff_read` (src/lib/shm_rbuff_pthr.c:152-178). -/
def read (s : Sys) : Outcome (Sys × Out) := do
  if s.ring.empty then return (s, .ret s.ring.checkAcl)
  else
    let (r, x) ← s.ring.pop
    return ({ s with ring := r }.broadcast false, .ret x)

/-- The loop test and the tail of `shm_rbuff_read_b` (src/lib/shm_rbuff_pthr.c:201-223), with `idx` the current value; the
`assert(idx != -EAGAIN)` of line 221 is checked. -/
def readBLoop (s : Sys) (idx : Int) : Outcome (Sys × Out) := do
  if s.ring.empty && idx != -ETIMEDOUT && s.ring.checkAcl == -EAGAIN then
    return ({ s with waiting := s.waiting ++ [(.reader, false)] }, .sleep)
  else if !s.ring.empty then
    let (r, x) ← s.ring.pop
    if x = -EAGAIN then .ub else return ({ s with ring := r }.broadcast false, .ret x)
  else
    let x := if idx ≠ -ETIMEDOUT then s.ring.checkAcl else idx
    if x = -EAGAIN then .ub else return (s, .ret x)

/-- Entry of `shm_rbuff_read_b` (src/lib/shm_rbuff_pthr.c:180-199); `idx` starts as -1. -/
def readB (s : Sys) : Outcome (Sys × Out) :=
  if s.ring.empty && (s.ring.acl &&& ACL_FLOWDOWN != 0) then .ok (s, .ret (-EFLOWDOWN)) else readBLoop s (-1)

/-- `shm_rbuff_set_acl` (src/lib/shm_rbuff_pthr.c:226-243). -/
def setAcl (s : Sys) (flags : Nat) : Sys :=
  ({ s with ring := { s.ring with acl := flags } }.broadcast false).broadcast true

/-- `shm_rbuff_fini` (src/lib/shm_rbuff_pthr.c:264-284): waits until the ring is empty. Reported as returning 0. -/
def finiLoop (s : Sys) : Sys × Out :=
  if !s.ring.empty then ({ s with waiting := s.waiting ++ [(.finisher, false)] }, .sleep) else (s, .ret 0)

/-- A sleeping thread returns from its wait with `rc` and re-evaluates its loop (src/lib/shm_rbuff_pthr.c:114-120, 201-208, 274-283).  -/
def wake (s : Sys) (i : Nat) (rc : Int) : Outcome (Sys × Out) :=
  match s.waiting[i]? with
  | none => .ok (s, .sleep)
  | some (w, _) =>
    let s := { s with waiting := s.waiting.eraseIdx i }
    match w with
    | .writer idx => writeBLoop s idx (-rc)
    | .reader => readBLoop s (-rc)
    | .finisher => .ok (finiLoop s)

/-- Dispatch; `getAcl` is src/lib/shm_rbuff_pthr.c:245-262, `queued` is 286-304. -/
def step (s : Sys) : Op → Outcome (Sys × Out)
  | .write i => write s i
  | .read => read s
  | .writeB i => writeB s i
  | .readB => readB s
  | .setAcl f => .ok (setAcl s f, .ret 0)
  | .getAcl => .ok (s, .ret s.ring.acl)
  | .queued => .ok (s, .ret s.ring.used)
  | .fini => .ok (finiLoop s)
  | .wake i rc => wake s i rc

/-- A whole interleaving. [src/lib/shm_rbuff_pthr.c:46-304] -/
def run (s : Sys) : List Op → Outcome (Sys × List Out)
  | [] => .ok (s, [])
  | op :: ops => do
    let (s1, o) ← step s op
    let (s2, os) ← run s1 ops
    return (s2, o :: os)

end Ouro.Rbuff
