import Verif.Model.Frct

/-!
# Model of the timer wheel (`src/lib/timerwheel.c`)

Times are nanoseconds of the monotonic clock. Every function is one critical section of `rw.lock`. Entries carry bookkeeping (`id`,
`lvl`, `at_`, `rto`) that no modelled function reads: which entry it is, and on which level, when and for how long it was scheduled
last. The flows of the process are a table from descriptor to flow id and FRCT instance. Build configuration: `RXM_BUFFER_ON_HEAP`
off, `RXM_BLOCKING` on.
-/

namespace Ouro.TimerWheel

open Ouro Ouro.Frct

/-- src/lib/config.h.in:92 with src/lib/CMakeLists.txt:225: `RXMQ_SLOTS`; `ACKQ_SLOTS` (94, 227) likewise. -/
def SLOTS : Nat := 256
/-- `RXMQ_LVLS`, src/lib/config.h.in:91 with src/lib/CMakeLists.txt:223. -/
def LVLS : Nat := 3

/-- The resolution of a level in ns: `RXMQ_RES` = 20 bits, each level `RXMQ_BUMP` = 4 bits coarser (src/lib/timerwheel.c:27, 52-56). -/
def res (l : Nat) : Nat := 2 ^ (20 + 4 * l)

/-- `struct rxm`, src/lib/timerwheel.c:30-42, with bookkeeping. -/
structure Ent where
  fd : Nat
  flowId : Nat
  rxm : Rxm
  id : Nat
  lvl : Nat
  at_ : Nat
  rto : Nat
  deriving Repr, DecidableEq

/-- What examining an entry resulted in, src/lib/timerwheel.c:180-267. -/
inductive Res where
  | gone            -- the flow was closed (180-182)
  | acked           -- 192-193
  | down            -- 258-260
  | resent (p : Pkt) -- 244-255
  | kept            -- no buffer (232)
  deriving Repr, DecidableEq

/-- A record of one examination (bookkeeping of src/lib/timerwheel.c:170-267): the entry, the time, the time of the turn before, the
    FRCT instance it was checked against, the result and the entry as it was scheduled again. -/
structure Ev where
  ent : Ent
  now : Nat
  prev : Nat
  ep : Option Ep
  res : Res
  again : Option Ent

/-- `rw` (src/lib/timerwheel.c:51-64), the flows of the process (`ai.flows`), and bookkeeping: the record, the number of entries made so
    far and the time of the last turn. -/
structure St where
  rxms : Nat → Nat → List Ent
  prv : Nat → Nat
  flows : Nat → Option (Nat × Ep)
  out : List Ev
  next : Nat
  last : Nat

/-- The loop that looks for a level, src/lib/timerwheel.c:216-220 and 348-352. -/
def climb (lvl rslot slot : Nat) : Nat × Nat × Nat :=
  if h : SLOTS ≤ rslot then climb (lvl + 1) (rslot / 16) (slot / 16) else (lvl, rslot, slot)
termination_by rslot
decreasing_by unfold SLOTS at h; omega

/-- Level and slot of an entry scheduled at `now` for `rto`, src/lib/timerwheel.c:209-225 and 340-362; `none` = out of range. -/
def place (now rto : Nat) : Option (Nat × Nat) :=
  let (lvl, rslot, slot) := climb 0 (rto / res 0) (now / res 0)
  if lvl ≥ LVLS then none else some (lvl, (slot + rslot + 1) % SLOTS)

/-- `timerwheel_init`, src/lib/timerwheel.c:105-129. -/
def init (now : Nat) (flows : Nat → Option (Nat × Ep)) : St :=
  { rxms := fun _ _ => [], prv := fun l => (now / res 0 - 1) / 16 ^ l % SLOTS, flows := flows, out := [], next := 0
    last := (now / res 0 - 1) * res 0 }

/-- Adding an entry to a slot, at the head (src/lib/timerwheel.c:255) or at the tail (366). -/
def put (s : St) (l k : Nat) (x : Ent) (head : Bool) : St :=
  { s with rxms := fun l' k' => if l' = l ∧ k' = k then (if head then x :: s.rxms l k else s.rxms l k ++ [x]) else s.rxms l' k' }

/-- `timerwheel_rxm`, src/lib/timerwheel.c:307-373 (memory allocation succeeds): the state and whether it succeeded. -/
def rxm (s : St) (fd : Nat) (r : Rxm) (now : Nat) : St × Bool :=
  match s.flows fd with
  | none => (s, false)
  | some (fid, ep) =>
    match place now ep.rto.toNat with
    | none => (s, false)
    | some (l, k) =>
      ({ put s l k ⟨fd, fid, r, s.next, l, now, ep.rto.toNat⟩ false with next := s.next + 1 }, true)

/-- Noting an examination (bookkeeping of src/lib/timerwheel.c:170-267). -/
def note (s : St) (x : Ent) (now : Nat) (ep : Option Ep) (r : Res) (again : Option Ent) : St :=
  { s with out := s.out ++ [⟨x, now, s.last, ep, r, again⟩] }

/-- The body of the inner loop, src/lib/timerwheel.c:170-267, for an entry that has been taken off its list. `env` says whether a buffer
    could be had (227) and whether the ring took the packet (247); it is asked by the number of the examination. -/
def examine (env : Nat → Bool × Bool) (now : Nat) (s : St) (x : Ent) : St :=
  match s.flows x.fd with
  | none => note s x now none .gone none
  | some (fid, ep) =>
    if fid ≠ x.flowId then note s x now none .gone none
    else
      match expire ep x.rxm now with
      | (_, .cleanup) => note s x now (some ep) .acked none
      | (ep', .down) =>
        note { s with flows := fun fd => if fd = x.fd then some (fid, ep') else s.flows fd } x now (some ep) .down none
      | (ep', .resend p) =>
        let s := { s with flows := fun fd => if fd = x.fd then some (fid, ep') else s.flows fd }
        match place now ep'.rto.toNat with
        | none => note s x now (some ep) .down none
        | some (l, k) =>
          let (alloc, out) := env s.out.length
          if !alloc then
            let y := { x with lvl := l, at_ := now, rto := ep'.rto.toNat }
            note (put s l k y true) x now (some ep) .kept (some y)
          else if !out then note s x now (some ep) .down none
          else
            let y := { x with rxm := { x.rxm with pkt := p }, lvl := l, at_ := now, rto := ep'.rto.toNat }
            note (put s l k y true) x now (some ep) (.resent p) (some y)

/-- One slot, src/lib/timerwheel.c:155-268: the entries that are on the list now are taken off and examined in order; an entry scheduled
    again on the same list is put before the ones not examined yet and is not met again. -/
def visit (env : Nat → Bool × Bool) (now i : Nat) (s : St) (j : Nat) : St :=
  let l := s.rxms i (j % SLOTS)
  l.foldl (examine env now) { s with rxms := fun l' k' => if l' = i ∧ k' = j % SLOTS then [] else s.rxms l' k' }

/-- One level, src/lib/timerwheel.c:150-270. -/
def level (env : Nat → Bool × Bool) (now : Nat) (s : St) (i : Nat) : St :=
  let m := now / res i % SLOTS
  let j := s.prv i
  let m' := if m < j then m + SLOTS else m
  let s := (List.range' (j + 1) (m' - j)).foldl (visit env now i) s
  { s with prv := fun l => if l = i then m else s.prv l }

/-- `timerwheel_move`, src/lib/timerwheel.c:131-273, without the acknowledgements. -/
def turn (env : Nat → Bool × Bool) (s : St) (now : Nat) : St :=
  { [0, 1, 2].foldl (level env now) s with last := now }

/-- One step: an entry is made (src/lib/timerwheel.c:307), the wheel is turned (131), or anything happens to the flows. -/
inductive Op where
  | rxm (fd : Nat) (r : Rxm) (now : Nat)
  | turn (now : Nat) (env : Nat → Bool × Bool)
  | flows (f : Nat → Option (Nat × Ep))

/-- src/lib/timerwheel.c:131-373 -/
def step (s : St) : Op → St
  | .rxm fd r now => (rxm s fd r now).1
  | .turn now env => turn env s now
  | .flows f => { s with flows := f }

/-! ## Delayed acknowledgements -/

/-- `struct ack`, src/lib/timerwheel.c:44-49, with the time at which it was made (bookkeeping). -/
structure Ack where
  fd : Nat
  flowId : Nat
  at_ : Nat
  deriving Repr, DecidableEq

/-- A record of line 295 (bookkeeping of src/lib/timerwheel.c:283-299): the flow, the time, the time of the turn before, and whether the
    flow was still there. -/
structure ATry where
  flowId : Nat
  now : Nat
  prev : Nat
  sent : Bool
  deriving Repr, DecidableEq

/-- The acknowledgement part of `rw` (src/lib/timerwheel.c:58-62), the flow ids behind the descriptors, and bookkeeping: what was
    done with the entries. -/
structure ASt where
  acks : Nat → List Ack
  map : Nat → Nat → Bool
  prv : Nat
  flows : Nat → Option Nat
  tried : List ATry
  last : Nat

/-- The resolution of the acknowledgement wheel: `ACKQ_RES` = 18 bits (src/lib/timerwheel.c:28). -/
def ares : Nat := 2 ^ 18

/-- The (absolute) slot of an acknowledgement asked for at `now`, src/lib/timerwheel.c:390; `TICTIME` = 5 ms. -/
def adue (now : Nat) : Nat := (now + 2 * 5000000) / ares + 1

/-- `timerwheel_init`, src/lib/timerwheel.c:124-126. -/
def ainit (now : Nat) (flows : Nat → Option Nat) : ASt :=
  { acks := fun _ => [], map := fun _ _ => false, prv := (now / ares - 1) % SLOTS, flows := flows, tried := []
    last := (now / ares - 1) * ares }

/-- `timerwheel_delayed_ack`, src/lib/timerwheel.c:375-414 (memory allocation succeeds). -/
def delayedAck (s : ASt) (fd now : Nat) : ASt :=
  match s.flows fd with
  | none => s
  | some fid =>
    let k := adue now % SLOTS
    if s.map k fd then s
    else
      { s with
        map := fun k' fd' => if k' = k ∧ fd' = fd then true else s.map k' fd'
        acks := fun k' => if k' = k then s.acks k ++ [⟨fd, fid, now⟩] else s.acks k' }

/-- The loop body of src/lib/timerwheel.c:283-299. -/
def aexam (now k : Nat) (s : ASt) (a : Ack) : ASt :=
  { s with
    map := fun k' fd' => if k' = k ∧ fd' = a.fd then false else s.map k' fd'
    tried := s.tried ++ [⟨a.flowId, now, s.last, decide (s.flows a.fd = some a.flowId)⟩] }

/-- One slot, src/lib/timerwheel.c:283-299. -/
def avisit (now : Nat) (s : ASt) (j : Nat) : ASt :=
  let k := j % SLOTS
  (s.acks k).foldl (aexam now k) { s with acks := fun k' => if k' = k then [] else s.acks k' }

/-- The acknowledgement part of `timerwheel_move`, src/lib/timerwheel.c:275-302. -/
def aturn (s : ASt) (now : Nat) : ASt :=
  let m := now / ares % SLOTS
  let j := s.prv
  let m' := if m < j then m + SLOTS else m
  { (List.range' (j + 1) (m' - j)).foldl (avisit now) s with prv := m' % SLOTS, last := now }

end Ouro.TimerWheel
