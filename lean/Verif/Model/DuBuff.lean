import Verif.Model.Rdrbuff

/-!
# Moving the head and tail of a packet (`src/lib/shm_rdrbuff.c:506-597`)

`size_t` arithmetic wraps modulo `2^64`. The payload area behind the header is a list of bytes; returned pointers are
offsets into it.
-/

namespace Ouro.Rdrbuff

/-- `size_t` wrap-around, src/lib/shm_rdrbuff.c:547-597. -/
def wrap (x : Nat) : Nat := x % SZ

/-- `size_t` subtraction, src/lib/shm_rdrbuff.c:531, 570, 583. -/
def sub (a b : Nat) : Nat := (a + (SZ - b % SZ)) % SZ

/-- `shm_du_buff_len`, src/lib/shm_rdrbuff.c:527-532. -/
def duLen (s : Sdb) : Nat := sub s.duTail s.duHead

/-- `shm_du_buff_head_alloc`, src/lib/shm_rdrbuff.c:534-545. -/
def headAlloc (s : Sdb) (n : Nat) : Sdb × Option Nat :=
  if s.duHead < n then (s, none)
  else
    let s := { s with duHead := s.duHead - n }
    (s, some s.duHead)

/-- `shm_du_buff_tail_alloc`, src/lib/shm_rdrbuff.c:547-562. -/
def tailAlloc (s : Sdb) (n : Nat) : Sdb × Option Nat :=
  if wrap (s.duTail + n) ≥ s.size then (s, none)
  else ({ s with duTail := wrap (s.duTail + n) }, some s.duTail)

/-- `shm_du_buff_head_release`, src/lib/shm_rdrbuff.c:564-577. -/
def headRelease (s : Sdb) (n : Nat) : Outcome (Sdb × Nat) :=
  if n > sub s.duTail s.duHead then .ub
  else .ok ({ s with duHead := wrap (s.duHead + n) }, s.duHead)

/-- `shm_du_buff_tail_release`, src/lib/shm_rdrbuff.c:579-588. -/
def tailRelease (s : Sdb) (n : Nat) : Outcome (Sdb × Nat) :=
  if n > sub s.duTail s.duHead then .ub
  else
    let s := { s with duTail := sub s.duTail n }
    .ok (s, s.duTail)

/-- `shm_du_buff_truncate`, src/lib/shm_rdrbuff.c:590-597. -/
def truncate (s : Sdb) (len : Nat) : Outcome Sdb :=
  if len ≤ s.size then .ok { s with duTail := wrap (s.duHead + len) } else .ub

/-- The calls of src/lib/shm_rdrbuff.c:534-597. -/
inductive DuOp where
  | headAlloc (n : Nat)
  | tailAlloc (n : Nat)
  | headRelease (n : Nat)
  | tailRelease (n : Nat)
  | truncate (n : Nat)
  deriving Repr, DecidableEq

/-- One call on a packet; the result is what the call returns (`none` for `NULL`; `truncate` returns nothing).
src/lib/shm_rdrbuff.c:534-597. -/
def duStep (s : Sdb) : DuOp → Outcome (Sdb × Option Nat)
  | .headAlloc n => .ok (headAlloc s n)
  | .tailAlloc n => .ok (tailAlloc s n)
  | .headRelease n => do let r ← headRelease s n; return (r.1, some r.2)
  | .tailRelease n => do let r ← tailRelease s n; return (r.1, some r.2)
  | .truncate n => do let r ← truncate s n; return (r, none)

/-- A sequence of calls (src/lib/shm_rdrbuff.c:534-597). -/
def duRun (s : Sdb) : List DuOp → Outcome Sdb
  | [] => .ok s
  | o :: os => do let r ← duStep s o; duRun r.1 os

end Ouro.Rdrbuff
