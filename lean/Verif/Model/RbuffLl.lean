import Verif.Model.Base

/-!
# Model of the lockless ring (src/lib/shm_rbuff_ll.c)

Threads take atomic steps in any order: each load, store and compare-and-swap of the shared words is a step of its own.  The memory is sequentially consistent,
as all accesses to the indices that decide are `__sync` operations.

Simplifications: the access rights are left out; the lock that blocking readers hold is left out, as writers do not take it; there are no spurious wake-ups;
`_sync_fetch_and_add`, which does not exist, is read as `__sync_fetch_and_add`.  The size is a parameter, `SHM_RBUFF_SIZE`;
the mask `& (SHM_RBUFF_SIZE - 1)` is a remainder, as the size must be a power of two.  The head is read before the tail, an order C leaves open.
`shm_rbuff_write_b` (src/lib/shm_rbuff_ll.c:84-132) is left out.
-/

namespace Ouro.RbuffLl

/-- Where a thread is, with its variables: writing `v` (src/lib/shm_rbuff_ll.c:44-81), reading, `b` if blocking (src/lib/shm_rbuff_ll.c:134-201). -/
inductive Pc where
  | idle
  /-- Line 61, `shm_rbuff_free` is about to read the head (src/lib/shm_rbuff.c:53-55). -/
  | wHead (v : Nat)
  /-- Line 61, it is about to read the tail. -/
  | wTail (v h : Nat)
  /-- Line 64, `shm_rbuff_empty` is about to read the head (src/lib/shm_rbuff.c:56). -/
  | wEmptyH (v : Nat)
  /-- Line 64, it is about to read the tail. -/
  | wEmptyT (v h : Nat)
  /-- Line 67. -/
  | wLoad (v : Nat) (we : Bool)
  /-- Line 69. -/
  | wStore (v n : Nat) (we : Bool)
  /-- Lines 71 to 75. -/
  | wCas (v o : Nat) (we : Bool)
  /-- Lines 77 and 78. -/
  | wWake (we : Bool)
  /-- Line 141, about to read the head. -/
  | rHead (b : Bool)
  /-- Line 141, about to read the tail. -/
  | rTail (b : Bool) (h : Nat)
  /-- Line 151. -/
  | rLoad
  /-- Lines 153 to 157. -/
  | rCas (t : Nat)
  /-- Line 161. -/
  | rGet (t : Nat)
  /-- Line 184, about to read the head. -/
  | rLockH
  /-- Line 184, about to read the tail. -/
  | rLockT (h : Nat)
  /-- Line 185. -/
  | waiting
  deriving DecidableEq, Repr

/-- What the calls return: 0 for a value, -EAGAIN, a value, -EAGAIN (src/lib/shm_rbuff_ll.c:62, 80, 148, 161). -/
inductive Ev where
  | wrote (v : Nat)
  | full (v : Nat)
  | got (v : Nat)
  | empty
  deriving DecidableEq, Repr

/-- The ring, the threads, and what calls have returned (src/lib/shm_rbuff.c:60-70). -/
structure St where
  cells : Nat → Nat
  head : Nat
  tail : Nat
  pc : Nat → Pc
  log : List Ev

/-- `shm_rbuff_create` (src/lib/shm_rbuff.c:171-173): the file is filled with zeros. -/
def init : St := ⟨fun _ => 0, 0, 0, fun _ => .idle, []⟩

/-- What a thread does: a call if it is in none, or its next step (src/lib/shm_rbuff_ll.c:44-201). -/
inductive Act where
  | write (v : Nat)
  | read
  | readB
  | go
  deriving DecidableEq, Repr

/-- Thread `i` is at `p` (src/lib/shm_rbuff_ll.c:44-201). -/
def St.at (s : St) (i : Nat) (p : Pc) : St := { s with pc := fun j => if j = i then p else s.pc j }

/-- A call returns (src/lib/shm_rbuff_ll.c:62, 80, 148, 161). -/
def St.ret (s : St) (i : Nat) (e : Ev) : St := { s.at i .idle with log := s.log ++ [e] }

/-- `pthread_cond_broadcast(rb->add)` (src/lib/shm_rbuff_ll.c:78, 185): those that wait check again. -/
def St.wake (s : St) : St := { s with pc := fun j => if s.pc j = .waiting then .rLockH else s.pc j }

/-- The next step of a thread in a call; `n` is SHM_RBUFF_SIZE (src/lib/shm_rbuff_ll.c:44-81, 134-201).  The value is accepted when the compare-and-swap
succeeds. -/
def go (n : Nat) (s : St) (i : Nat) : St := match s.pc i with
  | .idle => s
  | .wHead v => s.at i (.wTail v s.head)
  | .wTail v h => if (h + n - s.tail) % n + 1 < n then s.at i (.wEmptyH v) else s.ret i (.full v)
  | .wEmptyH v => s.at i (.wEmptyT v s.head)
  | .wEmptyT v h => s.at i (.wLoad v (h = s.tail))
  | .wLoad v we => s.at i (.wStore v s.head we)
  | .wStore v k we => { s with cells := fun j => if j = k then v else s.cells j }.at i (.wCas v k we)
  | .wCas v o we =>
    if s.head = o then { { s with head := (o + 1) % n }.at i (.wWake we) with log := s.log ++ [.wrote v] } else s.at i (.wCas v s.head we)
  | .wWake we => (if we then s.wake else s).at i .idle
  | .rHead b => s.at i (.rTail b s.head)
  | .rTail b h => if h = s.tail then (if b then s.at i .rLockH else s.ret i .empty) else s.at i .rLoad
  | .rLoad => s.at i (.rCas s.tail)
  | .rCas t => if s.tail = t then { s with tail := (t + 1) % n }.at i (.rGet t) else s.at i (.rCas s.tail)
  | .rGet t => s.ret i (.got (s.cells t))
  | .rLockH => s.at i (.rLockT s.head)
  | .rLockT h => if h = s.tail then s.at i .waiting else s.at i (.rHead false)
  | .waiting => s

/-- An action of a thread (src/lib/shm_rbuff_ll.c:44-46, 134, 164-174). -/
def step (n : Nat) (s : St) (x : Nat × Act) : St := match x.2 with
  | .go => go n s x.1
  | .write v => if s.pc x.1 = .idle then s.at x.1 (.wHead v) else s
  | .read => if s.pc x.1 = .idle then s.at x.1 (.rHead false) else s
  | .readB => if s.pc x.1 = .idle then s.at x.1 (.rHead true) else s

/-- A schedule (src/lib/shm_rbuff_ll.c:44-201). -/
def run (n : Nat) (l : List (Nat × Act)) : St := l.foldl (step n) init

end Ouro.RbuffLl
