import Verif.Model.Base

/-!
# The lock file of the IRM daemon

Model of src/lib/lockfile.c and of its use when the daemon starts and stops (src/irmd/main.c:1632-1633,
1673-1679, 1734-1763), for any number of processes that start, stop and die at any point.  A shared memory
object has a name until it is unlinked; processes that mapped it keep their mapping.
-/

namespace Ouro.Lockfile

/-- Where a process is in the start-up of src/irmd/main.c:1734-1763.  `o` is the object the process has mapped. -/
inductive Pc
  /-- no such process, or it ended -/
  | gone
  /-- a process that is not a daemon -/
  | other
  /-- before `lockfile_create` (src/irmd/main.c:1734) -/
  | begin1
  /-- before `lockfile_open` (1736) -/
  | opening
  /-- before the check of the owner (1742) -/
  | mapped (o : Nat)
  /-- before `shm_rdrbuff_purge` (1675) -/
  | stale (o : Nat)
  /-- before `lockfile_destroy` (1676) -/
  | purged (o : Nat)
  /-- before the second `lockfile_create` (1751) -/
  | begin2
  /-- after `shm_open(O_CREAT | O_EXCL)` (src/lib/lockfile.c:54), before `ftruncate` (58) -/
  | created (o : Nat)
  /-- after `ftruncate`, before the process id is written (91) -/
  | sized (o : Nat)
  /-- the daemon has the lock -/
  | running (o : Nat)
  deriving DecidableEq, Repr

/-- The system (src/lib/lockfile.c:46-119): the object that has the name `SHM_LOCKFILE_NAME`, the contents of the objects (`none`: the
object has size zero and reading it raises SIGBUS), the number of objects so far, the processes, the
processes that run with the file creation mask cleared, and how often the packet buffer was purged. -/
structure St where
  name : Option Nat
  objs : Nat → Option Nat
  count : Nat
  pc : Nat → Pc
  mask0 : Nat → Bool
  purges : Nat

/-- A system without daemons and lock (before src/irmd/main.c:1734). -/
def start : St := ⟨none, fun _ => none, 0, fun _ => .gone, fun _ => false, 0⟩

/-- Assignment to one entry (of the arrays that stand for memory and the process table; src/lib/lockfile.c:91). -/
def upd {α : Type} (f : Nat → α) (i : Nat) (a : α) : Nat → α := fun j => if j = i then a else f j

/-- `kill(q, 0) == 0` (src/lib/lockfile.c:112, src/irmd/main.c:1742): the process exists; 0 means the caller's
own process group, which always exists. -/
def alive (s : St) (q : Nat) : Bool := decide (q = 0) || decide (s.pc q ≠ .gone)

/-- `shm_open(O_CREAT | O_EXCL | O_RDWR)` by `p` (src/lib/lockfile.c:54-56, 80-87).  When it fails `lockfile_create`
returns without restoring the file creation mask that it cleared.  `full` is the state to go to when the
name is taken. -/
def create (s : St) (p : Nat) (full : Pc) : St :=
  match s.name with
  | some _ => { s with pc := upd s.pc p full, mask0 := upd s.mask0 p true }
  | none => { s with
      name := some s.count
      objs := upd s.objs s.count none
      count := s.count + 1
      pc := upd s.pc p (.created s.count) }

/-- What a daemon does next (src/irmd/main.c:1734-1763, 1632-1633, and src/lib/lockfile.c:46-119). -/
def next (s : St) (p : Nat) : St :=
  match s.pc p with
  | .gone | .other => s
  | .begin1 => create s p .opening                                       -- src/irmd/main.c:1734-1735
  | .opening => match s.name with                                        -- src/irmd/main.c:1736-1740
    | none => { s with pc := upd s.pc p .gone }
    | some o => { s with pc := upd s.pc p (.mapped o) }
  | .mapped o => match s.objs o with                                     -- src/irmd/main.c:1742
    | none => { s with pc := upd s.pc p .gone }                          -- SIGBUS
    | some q =>
      if alive s q then { s with pc := upd s.pc p .gone }                -- 1752-1757
      else { s with pc := upd s.pc p (.stale o) }
  | .stale o => { s with pc := upd s.pc p (.purged o), purges := s.purges + 1 }   -- 1675
  | .purged o =>                                                         -- src/lib/lockfile.c:108-119
    if s.objs o ≠ some p ∧ (s.objs o).any (alive s) = true then { s with pc := upd s.pc p .begin2 }
    else { s with name := none, pc := upd s.pc p .begin2 }
  | .begin2 => create s p .gone                                          -- src/irmd/main.c:1751, 1760-1763
  | .created o => { s with objs := upd s.objs o (some 0), pc := upd s.pc p (.sized o) }      -- lockfile.c:58
  | .sized o => { s with objs := upd s.objs o (some p), pc := upd s.pc p (.running o) }      -- lockfile.c:91
  | .running o =>                                                        -- src/irmd/main.c:1632-1633: stop
    if s.objs o ≠ some p ∧ (s.objs o).any (alive s) = true then { s with pc := upd s.pc p .gone }
    else { s with name := none, pc := upd s.pc p .gone }

/-- A call that a daemon makes on the lock file fails: `ftruncate` (the name stays, src/lib/lockfile.c:58-59,
70-71) or `mmap` (the name is removed, 61-63, 68-69).  After a failure in the first `lockfile_create` the daemon
goes on to open the lock file, after one in the second it ends (src/irmd/main.c:1735-1736, 1760-1763). -/
def fail (s : St) (p : Nat) : St :=
  match s.pc p with
  | .opening => match s.name with
    | none => s
    | some _ => { s with name := none, pc := upd s.pc p .gone }
  | .created _ => { s with
      pc := upd s.pc p (if s.mask0 p then .gone else .opening), mask0 := upd s.mask0 p true }
  | .sized _ => { s with
      name := none
      pc := upd s.pc p (if s.mask0 p then .gone else .opening), mask0 := upd s.mask0 p true }
  | _ => s

/-- What happens in the system (src/irmd/main.c:1734-1763); see `step`. -/
inductive Act
  | start (p : Nat)
  | spawn (p : Nat)
  | next (p : Nat)
  | fail (p : Nat)
  | die (p : Nat)
  deriving DecidableEq, Repr

/-- One step: a daemon is started or another process appears with a free process id (ids start at 1), a
daemon takes its next step, a call that it makes fails, or a process dies (src/irmd/main.c:1734-1763 for the daemons). -/
def step (s : St) : Act → St
  | .start p => if p ≠ 0 ∧ s.pc p = .gone then
      { s with pc := upd s.pc p .begin1, mask0 := upd s.mask0 p false } else s
  | .spawn p => if p ≠ 0 ∧ s.pc p = .gone then { s with pc := upd s.pc p .other } else s
  | .next p => next s p
  | .fail p => fail s p
  | .die p => { s with pc := upd s.pc p .gone }

/-- A history of steps (of src/irmd/main.c:1734-1763 and src/lib/lockfile.c). -/
def run (s : St) (acts : List Act) : St := acts.foldl step s

end Ouro.Lockfile
