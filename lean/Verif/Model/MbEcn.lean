import Verif.Model.Base

/-!
# Model of multi-bit ECN congestion avoidance (src/ipcpd/unicast/ca/mb-ecn.c)

`size_t` values are natural numbers below `2 ^ 64`; every operation that can leave that range is reduced explicitly. A shift by 64 or
more is undefined, and so is (here) a loop that never ends. The clock reading in nanoseconds is an argument.
-/

namespace Ouro.MbEcn

/-- Reduction to `size_t` (src/ipcpd/unicast/ca/mb-ecn.c:53-66). -/
def u64 (x : Nat) : Nat := x % 2 ^ 64

/-- `a << b` on `size_t` (src/ipcpd/unicast/ca/mb-ecn.c:133, 156, 166, 180). -/
def shl (a b : Nat) : Outcome Nat := if b < 64 then .ok (u64 (a * 2 ^ b)) else .ub

/-- `a >> b` on `size_t` (src/ipcpd/unicast/ca/mb-ecn.c:117, 151, 167). -/
def shr (a b : Nat) : Outcome Nat := if b < 64 then .ok (a / 2 ^ b) else .ub

/-- `a - b` on `size_t` (src/ipcpd/unicast/ca/mb-ecn.c:105, 136, 165). -/
def sub (a b : Nat) : Nat := u64 (a + 2 ^ 64 - b)

/-- The receiving half of `struct mb_ecn_ctx` (src/ipcpd/unicast/ca/mb-ecn.c:54-55). -/
structure Rx where
  ece : BitVec 16
  ctr : BitVec 64
  deriving DecidableEq, Repr

/-- The sending half of `struct mb_ecn_ctx` (src/ipcpd/unicast/ca/mb-ecn.c:57-65). -/
structure Tx where
  ece : Nat
  ctr : Nat
  wbc : Nat
  wpc : Nat
  wbl : Nat
  cav : Bool
  mul : Nat
  inc : Nat
  slot : Nat
  deriving DecidableEq, Repr

/-- `mb_ecn_ctx_create`, receiving half (src/ipcpd/unicast/ca/mb-ecn.c:79-98). -/
def rxInit : Rx := ⟨0, 0⟩

/-- `mb_ecn_ctx_create`, sending half (src/ipcpd/unicast/ca/mb-ecn.c:79-98). -/
def create (now : Nat) : Tx :=
  { ece := 0, ctr := 0, wbc := 0, wpc := 0, wbl := 2 ^ 16, cav := false, mul := 24, inc := 2 ^ 16, slot := now / 2 ^ 24 }

/-- `mb_ecn_ctx_update_rcv` (src/ipcpd/unicast/ca/mb-ecn.c:200-231): new state, result, and the value stored in `*ece`, if any. -/
def updateRcv (c : Rx) (ecn : BitVec 8) : Rx × Bool × Option (BitVec 16) :=
  if c.ece ||| ecn.setWidth 16 = 0 then (c, false, none)
  else if ecn = 0 then
    let ece := c.ece >>> 2
    ({ c with ece := ece }, ece == 0, some ece)
  else if c.ece = 0 then
    (⟨ecn.setWidth 16, 0⟩, true, some (ecn.setWidth 16))
  else
    let ece := c.ece - (c.ece >>> 5) + ecn.setWidth 16
    (⟨ece, c.ctr + 1⟩, (c.ctr &&& 7) == 1, some ece)

/-- `mb_ecn_ctx_update_ece` (src/ipcpd/unicast/ca/mb-ecn.c:234-242). -/
def updateEce (c : Tx) (ece : BitVec 16) : Tx := { c with ece := ece.toNat, ctr := 0, cav := true }

/-- `mb_ecn_calc_ecn` (src/ipcpd/unicast/ca/mb-ecn.c:244-259), `q` packets queued. -/
def calcEcn (q : Nat) (ecn : BitVec 8) : BitVec 8 := ecn ||| BitVec.ofNat 8 (q / 2 ^ 4)

/-- The loop at src/ipcpd/unicast/ca/mb-ecn.c:146-149. A `size_t` below 8 after 64 doublings is 0 and stays 0: the loop never ends. -/
def loopUp : Nat → Nat → Nat → Outcome Nat
  | 0, _, _ => .ub
  | fuel + 1, pkts, fact => if pkts < 8 then loopUp fuel (u64 (pkts * 2)) (fact + 1) else .ok fact

/-- The loop at src/ipcpd/unicast/ca/mb-ecn.c:161-164. -/
def loopDown : Nat → Nat → Nat → Outcome Nat
  | 0, _, _ => .ub
  | fuel + 1, pkts, fact => if 64 < pkts then loopDown fuel (pkts / 2) (fact + 1) else .ok fact

/-- `_slot_after` (src/ipcpd/unicast/ca/mb-ecn.c:105). -/
def slotAfter (new old : Nat) : Bool := 2 ^ 63 ≤ sub old new

/-- The new window limit (src/ipcpd/unicast/ca/mb-ecn.c:131-140). -/
def limit (c : Tx) : Nat :=
  if !c.cav then
    if c.wbl < c.wbc then u64 (c.wbl * 2) else c.wbl
  else if c.ece ≠ 0 then sub c.wbl (u64 (c.wbl * c.ece) / 2 ^ 13)
  else u64 (c.wbc + c.inc)

/-- Window scaling (src/ipcpd/unicast/ca/mb-ecn.c:142-171), with the carry. -/
def scale (c : Tx) (slot : Nat) : Outcome (Tx × Bool) :=
  if c.wpc < 8 then do
    let fact ← loopUp 65 c.wpc 0
    let s ← shr c.slot fact
    let carry := s % 2 ^ fact == 0
    let wbl ← shl c.wbl fact
    let inc ← shl c.inc fact
    return ({ c with mul := u64 (c.mul + fact), slot := if carry then u64 (s + 1) else s, wbl := wbl, inc := inc }, carry)
  else if 64 < c.wpc then do
    let fact ← loopDown 65 c.wpc 0
    let s ← shl c.slot fact
    let wbl ← shr c.wbl fact
    let inc ← shr c.inc fact
    return ({ c with mul := sub c.mul fact, slot := s, wbl := wbl, inc := inc }, false)
  else
    return ({ c with slot := slot }, false)

/-- The counters (src/ipcpd/unicast/ca/mb-ecn.c:119-124). -/
def count (c : Tx) (len : Nat) : Tx :=
  { c with ctr := u64 (c.ctr + 1), wpc := u64 (c.wpc + 1), wbc := u64 (c.wbc + len),
           ece := if 32 < u64 (c.ctr + 1) then 0 else c.ece }

/-- A new slot (src/ipcpd/unicast/ca/mb-ecn.c:126-177). -/
def turn (c : Tx) (slot : Nat) : Outcome Tx := do
  let (c, carry) ← scale { c with slot := slot, wbl := limit c } slot
  return if carry then c else { c with wbc := 0, wpc := 0 }

/-- The slot check (src/ipcpd/unicast/ca/mb-ecn.c:126). -/
def advance (c : Tx) (slot : Nat) : Outcome Tx := if slotAfter slot c.slot then turn c slot else .ok c

/-- `wnd.wait` (src/ipcpd/unicast/ca/mb-ecn.c:179-182). -/
def waitFor (c : Tx) (now : Nat) : Outcome Nat :=
  if c.wbl < c.wbc then do
    let e ← shl (u64 (c.slot + 1)) c.mul
    return sub e now
  else return 0

/-- `mb_ecn_ctx_update_snd` (src/ipcpd/unicast/ca/mb-ecn.c:107-185): the new state and `wnd.wait`. -/
def updateSnd (c : Tx) (now len : Nat) : Outcome (Tx × Nat) := do
  let slot ← shr now c.mul
  let c ← advance (count c len) slot
  let w ← waitFor c now
  return (c, w)

/-- What happens to the sending half: a packet, or a report from the receiver (src/ipcpd/unicast/fa.c:351, 587). -/
inductive Op where
  | send (now len : Nat)
  | report (ece : BitVec 16)
  deriving DecidableEq, Repr

/-- A history (src/ipcpd/unicast/fa.c:351, 587); for each packet the slot size and the wait. -/
def run (c : Tx) : List Op → Outcome (Tx × List (Nat × Nat))
  | [] => .ok (c, [])
  | .send now len :: ops => do
    let p ← updateSnd c now len
    let q ← run p.1 ops
    return (q.1, (2 ^ p.1.mul, p.2) :: q.2)
  | .report ece :: ops => run (updateEce c ece) ops

end Ouro.MbEcn
