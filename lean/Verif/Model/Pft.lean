import Verif.Model.Base
import Verif.Model.Errno

/-!
# Model of the forwarding table (src/ipcpd/unicast/pff/pft.c)

Bucket lists are Lean lists in list order (see `Verif/Props/LinkedList.lean`). The MD5 hash of `hash()` (pft.c:116-123) is an
arbitrary function on 64-bit words. Memory allocation for an entry is a Boolean parameter.
-/

namespace Ouro.Pft

/-- `struct pft_entry` (src/ipcpd/unicast/pff/pft.c:36-42). `fds` is the whole allocated array, `len` the stored length
(the alternate policy allocates one cell more than `len`). -/
structure Entry where
  dst : BitVec 64
  fds : List Int
  len : Nat
  deriving DecidableEq, Repr

/-- `struct pft` (src/ipcpd/unicast/pff/pft.c:44-48). `hash = none` is `hash_key == false`. -/
structure Pft where
  buckets : List (List Entry)
  hash : Option (BitVec 64 → BitVec 64)
  size : BitVec 64

/-- The rounding up of the number of buckets (src/ipcpd/unicast/pff/pft.c:59-66), on `uint64_t`. -/
def roundUp (b : BitVec 64) : BitVec 64 :=
  let b := b - 1
  let b := b ||| (b >>> 1)
  let b := b ||| (b >>> 2)
  let b := b ||| (b >>> 4)
  let b := b ||| (b >>> 8)
  let b := b ||| (b >>> 16)
  let b := b ||| (b >>> 32)
  b + 1

/-- `pft_create` (src/ipcpd/unicast/pff/pft.c:50-85), `malloc` succeeding. The initialisation loop uses an `unsigned int`, so the model
is only faithful below 2^32 buckets. -/
def create (buckets : BitVec 64) (hash : Option (BitVec 64 → BitVec 64)) : Option Pft :=
  if buckets = 0 then none
  else some ⟨List.replicate (roundUp buckets).toNat [], hash, roundUp buckets⟩

/-- `pft_flush` (src/ipcpd/unicast/pff/pft.c:97-114). -/
def flush (p : Pft) : Pft := { p with buckets := p.buckets.map (fun _ => []) }

/-- `calc_key` (src/ipcpd/unicast/pff/pft.c:125-132). -/
def calcKey (p : Pft) (dst : BitVec 64) : BitVec 64 :=
  let dst := match p.hash with | some h => h dst | none => dst
  dst &&& (p.size - 1)

/-- `pft_insert` (src/ipcpd/unicast/pff/pft.c:134-165); `assert(len > 0)` is `ub`. -/
def insert (p : Pft) (dst : BitVec 64) (fds : List Int) (len : Nat) (mem : Bool) : Outcome (Pft × Int) :=
  if len = 0 then .ub
  else do
    let k := (calcKey p dst).toNat
    let b ← rd p.buckets k
    if b.any (fun e => e.dst == dst) then
      return (p, -EPERM)
    else if !mem then
      return (p, -ENOMEM)
    else
      let bs ← wr p.buckets k (⟨dst, fds, len⟩ :: b)
      return ({ p with buckets := bs }, 0)

/-- `pft_lookup` (src/ipcpd/unicast/pff/pft.c:167-190): the entry found, `none` for -1. -/
def lookup (p : Pft) (dst : BitVec 64) : Outcome (Option Entry) := do
  let b ← rd p.buckets (calcKey p dst).toNat
  return b.find? (fun e => e.dst == dst)

/-- `pft_delete` (src/ipcpd/unicast/pff/pft.c:192-215). -/
def delete (p : Pft) (dst : BitVec 64) : Outcome (Pft × Int) := do
  let k := (calcKey p dst).toNat
  let b ← rd p.buckets k
  if b.any (fun e => e.dst == dst) then
    let bs ← wr p.buckets k (b.eraseP (fun e => e.dst == dst))
    return ({ p with buckets := bs }, 0)
  else
    return (p, -1)

/-- A write through the `fds` pointer that `pft_lookup` returned (src/ipcpd/unicast/pff/pft.c:183; used at
src/ipcpd/unicast/pff/multipath.c:193-195 and src/ipcpd/unicast/pff/alternate.c:374-376, 387-389). -/
def modify (p : Pft) (dst : BitVec 64) (f : List Int → List Int) : Outcome Pft := do
  let k := (calcKey p dst).toNat
  let b ← rd p.buckets k
  let bs ← wr p.buckets k (b.map (fun e => if e.dst = dst then { e with fds := f e.fds } else e))
  return { p with buckets := bs }

/-- The API calls on one table (src/ipcpd/unicast/pff/pft.c:97-215). -/
inductive Op where
  | insert (dst : BitVec 64) (fds : List Int) (mem : Bool)
  | lookup (dst : BitVec 64)
  | delete (dst : BitVec 64)
  | flush
  deriving DecidableEq, Repr

/-- What a call shows to its caller (src/ipcpd/unicast/pff/pft.c:97-215). -/
inductive Out where
  | ret (r : Int)
  | found (fds : List Int) (len : Nat)
  deriving DecidableEq, Repr

/-- One API call (src/ipcpd/unicast/pff/pft.c:97-215). -/
def step (p : Pft) : Op → Outcome (Pft × Out)
  | .insert dst fds mem => do
    let (p, r) ← insert p dst fds fds.length mem
    return (p, .ret r)
  | .lookup dst => do
    match ← lookup p dst with
    | some e => return (p, .found e.fds e.len)
    | none => return (p, .ret (-1))
  | .delete dst => do
    let (p, r) ← delete p dst
    return (p, .ret r)
  | .flush => .ok (flush p, .ret 0)

/-- A history of calls (src/ipcpd/unicast/pff/pft.c:97-215). -/
def run (p : Pft) : List Op → Outcome (Pft × List Out)
  | [] => .ok (p, [])
  | op :: ops => do
    let (p, o) ← step p op
    let (p, os) ← run p ops
    return (p, o :: os)

end Ouro.Pft
