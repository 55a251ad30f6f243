import Verif.Model.Base
import Verif.Model.Errno

/-!
# The shared packet pool (`src/lib/shm_rdrbuff.c`)

The configuration modelled is the default one: `SHM_RDRB_MULTI_BLOCK` set and `HAVE_ROBUST_MUTEX` set. Every function takes
`rdrb->lock` for its whole effect on the ring, so one call is one step of the model; `alloc_b` is split at its wait. A
process can die inside a critical section: `crashAlloc` and `crashRemove` stop at each point where the shared state
differs, and the `sanitize` that the next locker performs is part of that step (in between only lock-free operations on
live packets can run, and these commute with it).

Only block headers are modelled. A header is stored in the first bytes of a packet's first block; the later blocks of a
packet hold user data, so their header words are arbitrary (`scribble`).
-/

namespace Ouro.Rdrbuff

/-- `struct shm_du_buff`, src/lib/shm_rdrbuff.c:67-76. -/
structure Sdb where
  size : Nat
  blocks : Nat
  duHead : Nat
  duTail : Nat
  refs : Nat
  idx : Nat
  deriving Repr, DecidableEq

/-- `DU_BUFF_HEADSPACE`, src/lib/CMakeLists.txt (256); src/lib/config.h.in:69. -/
def HEADSPACE : Nat := 256
/-- `DU_BUFF_TAILSPACE`, src/lib/CMakeLists.txt (32); src/lib/config.h.in:70. -/
def TAILSPACE : Nat := 32
/-- `DU_BUFF_OVERHEAD`, src/lib/shm_rdrbuff.c:46. -/
def OVERHEAD : Nat := HEADSPACE + TAILSPACE
/-- `sizeof(struct shm_du_buff)`, six `size_t` of src/lib/shm_rdrbuff.c:67-76 on a 64-bit machine. -/
def HDR : Nat := 48
/-- Range of `size_t`, used in src/lib/shm_rdrbuff.c:287-292. -/
def SZ : Nat := 2 ^ 64

/-- A thread asleep in `alloc_b` at src/lib/shm_rdrbuff.c:403: its request and its local `blocks` and `padblocks`. -/
structure Waiter where
  len : Nat
  blocks : Nat
  pad : Nat
  deriving Repr, DecidableEq

/-- `struct shm_rdrbuff`, src/lib/shm_rdrbuff.c:78-85: `n` is `SHM_BUFFER_SIZE`, `mem i` the header words of block `i`,
`waiters` the threads on `healthy`. -/
structure Pool where
  n : Nat
  head : Nat
  tail : Nat
  mem : Nat → Sdb
  waiters : List Waiter

/-- Store to a block header; src/lib/shm_rdrbuff.c:54-55 (`idx_to_du_buff_ptr`). -/
def setMem (mem : Nat → Sdb) (i : Nat) (v : Sdb) : Nat → Sdb := fun j => if j = i then v else mem j

/-- `shm_rdrb_used`, src/lib/shm_rdrbuff.c:57-59. -/
def used (p : Pool) : Nat := ((p.head + p.n - p.tail) + 1) &&& (p.n - 1)

/-- `shm_rdrb_free`, src/lib/shm_rdrbuff.c:61-62. -/
def free (p : Pool) (i : Nat) : Bool := used p + i < p.n

/-- The loop of src/lib/shm_rdrbuff.c:301-304 (and 382-385) on a signed `sz`; the first argument bounds the number of rounds. -/
def countBlocks (B : Nat) : Nat → Int → Nat
  | 0, _ => 0
  | fuel + 1, sz => if 0 < sz then 1 + countBlocks B fuel (sz - B) else 0

/-- The `ssize_t sz` of src/lib/shm_rdrbuff.c:292: a `size_t` sum converted to signed. -/
def signedSize (len : Nat) : Int :=
  let u := ((OVERHEAD + len) % SZ + HDR) % SZ
  if u < 2 ^ 63 then (u : Int) else (u : Int) - SZ

/-- Blocks of a request, src/lib/shm_rdrbuff.c:287-304. As each round takes a positive block size off `sz`, `sz` rounds are
enough. -/
def blocksFor (B len : Nat) : Nat := countBlocks B (signedSize len).toNat (signedSize len)

/-- `padblocks` as first computed, src/lib/shm_rdrbuff.c:313-314 (and 396-397). -/
def padFor (p : Pool) (blocks : Nat) : Nat := if blocks + p.head > p.n then p.n - p.head else 0

/-- The recomputation after a wait, src/lib/shm_rdrbuff.c:405-406: no reset to zero. -/
def padAgain (p : Pool) (blocks old : Nat) : Nat := if blocks + p.head > p.n then p.n - p.head else old

/-- Inserting the padding entry, src/lib/shm_rdrbuff.c:325-335 (and 412-422). -/
def putPad (p : Pool) (pad : Nat) : Pool :=
  if pad = 0 then p
  else { p with mem := setMem p.mem p.head { size := 0, blocks := pad, duHead := 0, duTail := 0, refs := 0, idx := p.head },
                head := 0 }

/-- Claiming the header at the head, src/lib/shm_rdrbuff.c:337-341 (and 424-428), without moving the head. -/
def claim (p : Pool) (blocks : Nat) : Pool :=
  { p with mem := setMem p.mem p.head { p.mem p.head with refs := 1, idx := p.head, blocks := blocks } }

/-- Moving the head, src/lib/shm_rdrbuff.c:343 (and 430). -/
def moveHead (p : Pool) (blocks : Nat) : Pool := { p with head := (p.head + blocks) &&& (p.n - 1) }

/-- The rest of the initialisation, src/lib/shm_rdrbuff.c:349-351 (and 441-443). Done after unlocking, on a header only this
thread knows. -/
def initSdb (p : Pool) (i len : Nat) : Pool :=
  { p with mem := setMem p.mem i { p.mem i with size := (OVERHEAD + len) % SZ, duHead := HEADSPACE,
                                                duTail := (HEADSPACE + len) % SZ } }

/-- The successful part of an allocation, src/lib/shm_rdrbuff.c:325-357 (and 411-449). Returns the index. -/
def commit (p : Pool) (blocks pad len : Nat) : Pool × Nat :=
  let p := putPad p pad
  let i := p.head
  (initSdb (moveHead (claim p blocks) blocks) i len, i)

/-- `shm_rdrbuff_alloc`, src/lib/shm_rdrbuff.c:281-358. -/
def alloc (B : Nat) (p : Pool) (len : Nat) : Pool × Int :=
  let blocks := blocksFor B len
  let pad := padFor p blocks
  if free p (blocks + pad) then
    let r := commit p blocks pad len
    (r.1, (r.2 : Int))
  else (p, -EAGAIN)

/-- `garbage_collect`, src/lib/shm_rdrbuff.c:87-100. The `fuel` bounds the loop; running out of it stands for not
terminating (a chain of empty entries) and is reported as undefined behaviour. -/
def gc (n : Nat) (mem : Nat → Sdb) (head : Nat) : Nat → Nat → Outcome Nat
  | 0, _ => .ub
  | fuel + 1, t =>
    if t = head then .ok t
    else if (mem t).refs = 0 then gc n mem head fuel ((t + (mem t).blocks) &&& (n - 1))
    else .ok t

/-- `garbage_collect` on the pool, src/lib/shm_rdrbuff.c:87-100. -/
def collect (p : Pool) : Outcome Pool := do
  let t ← gc p.n p.mem p.head (p.n + 1) p.tail
  return { p with tail := t }

/-- `sanitize`, src/lib/shm_rdrbuff.c:102-108. -/
def sanitize (p : Pool) : Outcome Pool :=
  collect { p with mem := setMem p.mem p.head { p.mem p.head with refs := ((p.mem p.head).refs + (SZ - 1)) % SZ } }

/-- `shm_rdrbuff_remove`, src/lib/shm_rdrbuff.c:477-504. -/
def remove (p : Pool) (i : Nat) : Outcome Pool :=
  if p.n ≤ i then .ub
  else if (p.mem i).refs = 1 then
    let q := { p with mem := setMem p.mem i { p.mem i with refs := 0 } }
    if i = p.tail then collect q else .ok q
  else .ok p

/-- `shm_rdrbuff_get`, src/lib/shm_rdrbuff.c:468-475 (the header behind the returned pointer). -/
def get (p : Pool) (i : Nat) : Outcome Sdb := if p.n ≤ i then .ub else .ok (p.mem i)

/-- Result of a call (src/lib/shm_rdrbuff.c:281-504). -/
inductive Ret where
  | ret (v : Int)
  | sleep
  deriving Repr, DecidableEq

/-- Calls, wake-ups, lock-free header operations and crashes (src/lib/shm_rdrbuff.c:87-108, 281-610). -/
inductive Op where
  | alloc (len : Nat)
  | allocB (len : Nat)
  | wake (w : Nat)
  | expire (w : Nat)
  | remove (i : Nat)
  | hold (i : Nat)
  | unhold (i : Nat)
  | move (i duHead duTail : Nat)
  | scribble (i j : Nat) (v : Sdb)
  | crashAlloc (len point : Nat)
  | crashRemove (i : Nat) (marked : Bool)
  deriving Repr, DecidableEq

/-- First part of `shm_rdrbuff_alloc_b`, src/lib/shm_rdrbuff.c:360-403: succeed at once or go to sleep. -/
def allocB (B : Nat) (p : Pool) (len : Nat) : Pool × Ret :=
  let blocks := blocksFor B len
  let pad := padFor p blocks
  if free p (blocks + pad) then
    let r := commit p blocks pad len
    (r.1, .ret r.2)
  else ({ p with waiters := p.waiters ++ [{ len := len, blocks := blocks, pad := pad }] }, .sleep)

/-- A waiter of `alloc_b` woken by a broadcast, src/lib/shm_rdrbuff.c:399-449. -/
def wake (p : Pool) (w : Nat) : Pool × Ret :=
  match p.waiters[w]? with
  | none => (p, .ret 0)
  | some x =>
    let pad := padAgain p x.blocks x.pad
    if free p (x.blocks + pad) then
      let r := commit { p with waiters := p.waiters.eraseIdx w } x.blocks pad x.len
      (r.1, .ret r.2)
    else ({ p with waiters := p.waiters.set w { x with pad := pad } }, .sleep)

/-- A process dying in the critical section of `alloc` at src/lib/shm_rdrbuff.c:313 (point 0), 336 (after the padding,
point 1), 342 (header claimed, point 2) or 346 (head moved, point 3); then `sanitize` by the next locker. -/
def crashAlloc (B : Nat) (p : Pool) (len point : Nat) : Outcome Pool :=
  let blocks := blocksFor B len
  let pad := padFor p blocks
  if free p (blocks + pad) then
    match point with
    | 0 => sanitize p
    | 1 => sanitize (putPad p pad)
    | 2 => sanitize (claim (putPad p pad) blocks)
    | _ => sanitize (moveHead (claim (putPad p pad) blocks) blocks)
  else sanitize p

/-- A process dying in the critical section of `remove`, src/lib/shm_rdrbuff.c:493-501: before the packet was marked free or
after it (the loop of `garbage_collect` may have run partly: `sanitize` runs it to its end anyway). -/
def crashRemove (p : Pool) (i : Nat) (marked : Bool) : Outcome Pool :=
  if p.n ≤ i then .ub
  else if marked && (p.mem i).refs == 1 then sanitize { p with mem := setMem p.mem i { p.mem i with refs := 0 } }
  else sanitize p

/-- One step. `hold` is `shm_du_buff_wait_ack` (src/lib/shm_rdrbuff.c:599-604), `unhold` is `shm_du_buff_ack` (606-610),
`move` any change of `du_head`/`du_tail` by the owner (534-597), `scribble` the owner writing to a later block of a packet,
`expire` a wait of `alloc_b` timing out (438-439). -/
def step (B : Nat) (p : Pool) : Op → Outcome (Pool × Ret)
  | .alloc len => let r := alloc B p len; .ok (r.1, .ret r.2)
  | .allocB len => .ok (allocB B p len)
  | .wake w => .ok (wake p w)
  | .expire w => .ok ({ p with waiters := p.waiters.eraseIdx w }, .ret (-ETIMEDOUT))
  | .remove i => do let q ← remove p i; return (q, .ret 0)
  | .hold i => .ok ({ p with mem := setMem p.mem i { p.mem i with refs := (p.mem i).refs + 1 } }, .ret 0)
  | .unhold i => .ok ({ p with mem := setMem p.mem i { p.mem i with refs := (p.mem i).refs - 1 } }, .ret 0)
  | .move i h t => .ok ({ p with mem := setMem p.mem i { p.mem i with duHead := h, duTail := t } }, .ret 0)
  | .scribble i j v => .ok ({ p with mem := setMem p.mem (i + j) v }, .ret 0)
  | .crashAlloc len pt => do let q ← crashAlloc B p len pt; return (q, .ret 0)
  | .crashRemove i m => do let q ← crashRemove p i m; return (q, .ret 0)

/-- `shm_rdrbuff_create`, src/lib/shm_rdrbuff.c:206-262: an empty ring over memory with any content. -/
def create (k : Nat) (mem : Nat → Sdb) : Pool := { n := 2 ^ k, head := 0, tail := 0, mem := mem, waiters := [] }

end Ouro.Rdrbuff
