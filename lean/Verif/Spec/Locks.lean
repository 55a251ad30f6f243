import Verif.Model.Locks
import Mathlib.Logic.Relation

/-!
# What it means that threads do not block each other
-/

namespace Ouro.Locks

/-- Everything that can happen from `s` on. -/
def Reach : State → State → Prop := Relation.ReflTransGen Next

/-- Everything that can happen from `s` on while `c` does not hold. -/
def ReachWithout (c : Cond) : State → State → Prop :=
  Relation.ReflTransGen (fun s t => Next s t ∧ ¬ t.avail c)

/-- Thread `i` has something left to do. -/
def Unfinished (s : State) (i : Nat) : Prop := (s.thr i).prog ≠ []

/-- Thread `i` can go on. -/
def CanStep (s : State) (i : Nat) : Prop := ∃ t, Step s i t

/-- Thread `i` waits for something that other processes have to provide. -/
def Waiting (s : State) (i : Nat) : Prop := ∃ c p, (s.thr i).prog = .wait c :: p ∧ ¬ s.avail c

/-- Two ways to hold a lock that exclude each other. -/
def Conflict (m m' : Mode) : Prop := m = .wr ∨ m' = .wr

/-- Thread `i` wants a lock that thread `j` holds. -/
def WaitsFor (s : State) (i j : Nat) : Prop :=
  ∃ l m p m', (s.thr i).prog = .acq l m :: p ∧ (l, m') ∈ (s.thr j).held ∧ Conflict m m'

/-- Thread `i` gets a lock in the end if the others go on: following who waits for whom one comes to a thread that can go
on, or that waits for another process. -/
def Alive (s : State) (i : Nat) : Prop :=
  ∃ j, Relation.ReflTransGen (WaitsFor s) i j ∧ (CanStep s j ∨ Waiting s j)

/-- The same, and the only wait for another process is the thread's own. -/
def Independent (s : State) (i : Nat) : Prop :=
  ∃ j, Relation.ReflTransGen (WaitsFor s) i j ∧ (CanStep s j ∨ (j = i ∧ Waiting s i))

/-- Thread `i` will never go on, whatever the other threads and processes do. -/
def Dead (s : State) (i : Nat) : Prop :=
  Unfinished s i ∧ ∀ t, Reach s t → t.thr i = s.thr i

/-- The call is not a read of the statistics of an FRCT flow. -/
def Call.noStatistics : Call → Prop
  | .ribRead _ => False
  | _ => True

/-- An entry of the timer wheel that is not sent: no retransmission and no acknowledgement. -/
def Entry.silent : Entry → Prop
  | .stale | .acked _ | .expired _ | .staleAck | .ack _ none => True
  | _ => False

/-- A packet for which FRCT sends nothing. -/
def Rcv.silent : Rcv → Prop
  | .rdv _ => False
  | .drop _ (some _) => False
  | _ => True

/-- Calls that do not write while they hold a lock: reads, blocking or not, for which FRCT sends nothing; writes with
`FLOWFWNOBLOCK` for which FRCT sends nothing else; and everything around them. -/
def Call.quiet : Call → Prop
  | .writeFails => True
  | .writeWait _ w => w = .noFrct ∨ w = .test none ∨ w = .test (some none)
  | .write _ w frct block _ =>
    block = false ∧ (w = .noFrct ∨ w = .test none ∨ w = .test (some none)) ∧
      ∀ es rtx, frct = some (es, rtx) → ∀ e ∈ es, e.silent
  | .read _ _ _ rounds _ => ∀ r ∈ rounds, ∀ x, r.rcv = some x → x.silent
  | .np1Write _ _ => True
  | .look _ => True
  | .alloc _ => True
  | .ipcpDealloc _ _ _ => True
  | .ipcpFini _ => True
  | .fcntl _ _ => True
  | .fsetMake => True
  | .fsetUse _ => True
  | .event _ es => ∀ f v r, Filter.pkt f v r ∈ es → r.silent
  | .tick es => ∀ e ∈ es, e.silent
  | .keepalive _ => True
  | .ribList => True
  | _ => False

/-- Calls that begin with an exclusive use of the flows: writes, allocations and `fccntl`, on any flow. -/
def Call.exclusive : Call → Prop
  | .writeFails | .writeWait _ _ | .write _ _ _ _ _ | .ipcpWrite _ _ _ | .alloc _ | .fcntl _ _ => True
  | _ => False

/-- Thread 0 can come to a state in which it waits for `c`, and in which no other thread that begins with such a call gets
anything done until `c` holds. -/
def Stalls (cs : Nat → List Call) (c : Cond) : Prop :=
  ∃ s, Reach (start cs) s ∧ (∃ p, (s.thr 0).prog = .wait c :: p) ∧ ¬ s.avail c ∧
    ∀ j x xs, j ≠ 0 → cs j = x :: xs → x.exclusive →
      ∀ t, ReachWithout c s t → t.thr j = thread (cs j)

end Ouro.Locks
