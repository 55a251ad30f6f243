import Verif.Model.Base

/-!
# Model of the thread pool (src/lib/tpm.c)

A manager thread keeps enough idle workers. Everything is done under one lock, except that the manager releases it while it joins a worker and while it sleeps;
a step is one critical section, a history is any interleaving. A worker calls `tpm_dec` when it starts on a command and `tpm_inc` when it is done
(src/ipcpd/ipcp.c:678, 752-778, src/irmd/main.c:1543, 1599-1606, src/ipcpd/unicast/dir/dht.c:2506, 2607-2616). `pthread_cancel` is a request: the worker
terminates at some later moment.

Simplification: the counters are integers; since the code uses only their difference, and takes it modulo 2^64, this is exact.
-/

namespace Ouro.Tpm

/-- `struct pthr_el` (src/lib/tpm.c:38-45). -/
structure El where
  id : Nat
  kill : Bool
  busy : Bool
  deriving DecidableEq, Repr

/-- Where the manager is: it does not run; before a round; joining worker `t` (`all`: on its way out, src/lib/tpm.c:129-133);
sleeping, `signalled` or not. [src/lib/tpm.c:117-168] -/
inductive Mgr where
  | off
  | top
  | joining (t : Nat) (all : Bool)
  | waiting (signalled : Bool)
  deriving DecidableEq, Repr

/-- `struct tpm` (src/lib/tpm.c:53-69) and the threads: which are alive, which were cancelled, which are working on a command (between `tpm_dec` and `tpm_inc`). `next`
is the next new thread, `short` tells that threads could not be created in the last round. -/
structure State where
  min : Nat
  inc : Nat
  cur : Int
  wrk : Int
  pool : List El
  running : Bool
  mgr : Mgr
  live : List Nat
  cancelled : Nat → Bool
  working : Nat → Bool
  next : Nat
  short : Bool

/-- `tpm_create` (src/lib/tpm.c:170-216). -/
def create (min inc : Nat) : State := ⟨min, inc, 0, 0, [], false, .off, [], fun _ => false, fun _ => false, 0, false⟩

/-- `cur - wrk` as `size_t` (src/lib/tpm.c:137 and 161). -/
def idle64 (s : State) : Nat := ((s.cur - s.wrk) % 2 ^ 64).toNat

/-- Function update. [src/lib/tpm.c:80-82] -/
def upd (f : Nat → Bool) (i : Nat) (b : Bool) : Nat → Bool := fun j => if j = i then b else f j

/-- Steps. [src/lib/tpm.c:218-299] -/
inductive Op where
  | start
  | stop
  /-- the manager goes on; `n` threads can be created -/
  | mgr (n : Nat)
  /-- the sleep of the manager ends by timeout -/
  | timeout
  /-- worker `t` calls `tpm_dec` -/
  | dec (t : Nat)
  /-- worker `t` calls `tpm_inc` -/
  | inc (t : Nat)
  /-- worker `t`, which was cancelled, terminates -/
  | exit (t : Nat)
  deriving DecidableEq, Repr

/-- What is seen: `created k`: the round ends, with `k` new threads; `killed t`; `stopped`: the manager ends, and `tpm_stop` returns; `blocked`: not possible now.
[src/lib/tpm.c:117-168] -/
inductive Out where
  | created (k : Nat)
  | killed (t : Nat)
  | stopped
  | done
  | blocked
  deriving DecidableEq, Repr

/-- New threads, and the sleep (src/lib/tpm.c:137-160). -/
def grow (s : State) (n : Nat) : State × Out :=
  if idle64 s < s.min then
    let k := Nat.min n s.inc
    ({ s with
       pool := (List.range' s.next k).reverse.map (fun i => ⟨i, false, false⟩) ++ s.pool
       live := (List.range' s.next k).reverse ++ s.live
       next := s.next + k
       cur := s.cur + k
       mgr := .waiting false
       short := k < s.inc }, .created k)
  else ({ s with mgr := .waiting false, short := false }, .created 0)

/-- The second loop of `tpm_join`, up to the next join (src/lib/tpm.c:87-99), and what follows it (src/lib/tpm.c:129-160). -/
def joinNext (s : State) (all : Bool) (n : Nat) : State × Out :=
  match s.pool.find? (·.kill) with
  | some e => ({ s with pool := s.pool.erase e, mgr := .joining e.id all }, .done)
  | none => if all then ({ s with mgr := .off }, .stopped) else grow s n

/-- The first loop of `tpm_join` when the pool is stopped (src/lib/tpm.c:76-85). -/
def killAll (s : State) : State :=
  { s with
    cancelled := fun t => s.cancelled t || s.pool.any (fun e => e.id == t && !e.kill)
    cur := s.cur - s.pool.countP (fun e => !e.kill)
    pool := s.pool.map (fun e => { e with kill := true }) }

/-- `tpm_kill` (src/lib/tpm.c:102-115). -/
def kill (s : State) : State × Out :=
  match s.pool.find? (fun e => !e.busy && !e.kill) with
  | some e => ({ s with
                 pool := s.pool.map (fun x => if x.id = e.id then { x with kill := true } else x)
                 cancelled := upd s.cancelled e.id true
                 cur := s.cur - 1 }, .killed e.id)
  | none => (s, .done)

/-- Set `busy` of the element of worker `t`, if it has one (src/lib/tpm.c:253-267). -/
def setBusy (l : List El) (t : Nat) (b : Bool) : List El := l.map (fun e => if e.id = t then { e with busy := b } else e)

/-- Whether worker `t` has an element (src/lib/tpm.c:253-267). -/
def has (l : List El) (t : Nat) : Bool := l.any (·.id == t)

/-- One step. [src/lib/tpm.c:117-299] -/
def step (s : State) : Op → State × Out
  /- src/lib/tpm.c:218-232 -/
  | .start => if s.mgr = .off then ({ s with running := true, mgr := .top }, .done) else (s, .blocked)
  /- src/lib/tpm.c:234-243 -/
  | .stop => ({ s with running := false }, .done)
  | .mgr n =>
    match s.mgr with
    | .off => (s, .blocked)
    /- src/lib/tpm.c:127-135 -/
    | .top => if !s.running then joinNext (killAll s) true n else joinNext s false n
    /- src/lib/tpm.c:95-97 -/
    | .joining t all => if t ∈ s.live then (s, .blocked) else joinNext s all n
    /- src/lib/tpm.c:159-163, no timeout -/
    | .waiting _ => ({ s with mgr := .top }, .done)
  /- src/lib/tpm.c:159-163 -/
  | .timeout =>
    match s.mgr with
    | .waiting _ => if idle64 s > s.min then kill { s with mgr := .top } else ({ s with mgr := .top }, .done)
    | _ => (s, .blocked)
  /- src/lib/tpm.c:284-299 -/
  | .dec t =>
    if t ∈ s.live ∧ s.working t = false then
      ({ s with
         working := upd s.working t true
         pool := setBusy s.pool t true
         wrk := if has s.pool t then s.wrk + 1 else s.wrk
         mgr := match s.mgr with | .waiting _ => .waiting true | m => m }, .done)
    else (s, .blocked)
  /- src/lib/tpm.c:269-282 -/
  | .inc t =>
    if t ∈ s.live ∧ s.working t = true then
      ({ s with
         working := upd s.working t false
         pool := setBusy s.pool t false
         wrk := if has s.pool t then s.wrk - 1 else s.wrk }, .done)
    else (s, .blocked)
  /- src/lib/tpm.c:81 and 110 -/
  | .exit t =>
    if t ∈ s.live ∧ s.cancelled t then ({ s with live := s.live.erase t }, .done) else (s, .blocked)

/-- A history. [src/lib/tpm.c:117-299] -/
def run (s : State) : List Op → State × List (Op × Out)
  | [] => (s, [])
  | op :: l =>
    let r := step s op
    let r2 := run r.1 l
    (r2.1, (op, r.2) :: r2.2)

end Ouro.Tpm
