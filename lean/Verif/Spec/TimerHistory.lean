import Verif.Model.TimerWheel

/-!
# Specification: timers that fire on time
-/

namespace Spec.TimerHistory

open Ouro Ouro.Frct Ouro.Seqno Ouro.TimerWheel

/-- The instant an entry is due, in ns: the end of the time slot its timeout begins in, give or take one (see `OnTime`). -/
def dueAt (x : Ent) : Nat := (x.at_ / res x.lvl + x.rto / res x.lvl + 1) * res x.lvl

/-- An entry was examined on time: there is an instant, at most one slot of its level away from its timeout, such that the turn in which
    it was examined was the first one at or after that instant. -/
def OnTime (ev : Ev) : Prop :=
  ∃ u, ev.ent.at_ + ev.ent.rto < u + res ev.ent.lvl ∧ u ≤ ev.ent.at_ + ev.ent.rto + res ev.ent.lvl ∧ ev.prev < u ∧ u ≤ ev.now

/-- Scheduling at `now` on level `l` for `rto` when the last turn was at `last` does not go more than once around the level. -/
def Fits (last now rto l : Nat) : Prop := now / res l - last / res l + rto / res l < 256

/-- What is assumed of an operation: the clock does not run backwards (and a new entry's time is read after the last turn), the wheel is
    turned before 256 slots of the finest level have passed, and lag and timeout together stay below one revolution of the level. -/
def Ok (s : St) : TimerWheel.Op → Prop
  | .rxm fd _ now => s.last ≤ now ∧
      ∀ fid ep l k, s.flows fd = some (fid, ep) → place now ep.rto.toNat = some (l, k) → Fits s.last now ep.rto.toNat l
  | .turn now env => s.last ≤ now ∧ now / res 0 < s.last / res 0 + 256 ∧
      ∀ ev ∈ (turn env s now).out.drop s.out.length, ∀ y, ev.again = some y → Fits s.last now y.rto y.lvl
  | .flows _ => True

/-- The states reachable by operations that satisfy `Ok`. -/
inductive Reach : St → Prop
  | init (now : Nat) (flows : Nat → Option (Nat × Ep)) : Reach (init now flows)
  | step {s : St} {op : TimerWheel.Op} : Reach s → Ok s op → Reach (step s op)

/-- The packet an operation entrusts to the wheel. -/
def made (s : St) : TimerWheel.Op → List Rxm
  | .rxm fd r now => if (rxm s fd r now).2 then [r] else []
  | _ => []

/-- All states reachable by any operations, with the packets entrusted to the wheel so far: entry number `i` is for the `i`-th. -/
inductive Exec : St → List Rxm → Prop
  | init (now : Nat) (flows : Nat → Option (Nat × Ep)) : Exec (init now flows) []
  | step {s : St} {q : List Rxm} {op : TimerWheel.Op} : Exec s q → Exec (step s op) (q ++ made s op)

/-- Entry number `i` is on the wheel. -/
def OnWheel (s : St) (i : Nat) : Prop := ∃ l k, ∃ x ∈ s.rxms l k, x.id = i

/-- Entry number `i` was examined and not scheduled again. -/
def Ended (s : St) (i : Nat) : Prop := ∃ ev ∈ s.out, ev.ent.id = i ∧ ev.again = none

/-- A retransmission is justified: the flow it was checked against had not had the packet acknowledged, the time for retransmissions
    of the packet had not run out, and what was sent is the packet with a current acknowledgement. -/
def Justified (q : List Rxm) (ev : Ev) (p : Pkt) : Prop :=
  ∃ r ep, q[ev.ent.id]? = some r ∧ ev.ep = some ep ∧ before r.seqno ep.snd.lwe = false ∧ (ev.now : Int) - r.t0 ≤ ep.r ∧
    p = { r.pkt with ackno := ep.rcv.lwe }

/-- Giving up on a packet is justified: its flow is gone, it has been acknowledged, or its flow is taken down. -/
def GivenUp (q : List Rxm) (ev : Ev) : Prop :=
  ev.res = .gone ∨ ev.res = .down ∨
    (ev.res = .acked ∧ ∃ r ep, q[ev.ent.id]? = some r ∧ ev.ep = some ep ∧ before r.seqno ep.snd.lwe = true)

/-! ## Delayed acknowledgements -/

/-- One operation: an acknowledgement is asked for on a descriptor, the wheel is turned, flows come and go. -/
inductive AOp where
  | ask (fd now : Nat)
  | turn (now : Nat)
  | flows (f : Nat → Option Nat)

def astep (s : ASt) : AOp → ASt
  | .ask fd now => delayedAck s fd now
  | .turn now => aturn s now
  | .flows f => { s with flows := f }

/-- The requests made by an operation: which flow, when. -/
def asked (s : ASt) : AOp → List (Nat × Nat)
  | .ask fd now => match s.flows fd with
    | none => []
    | some fid => [(fid, now)]
  | _ => []

/-- The clock does not run backwards, the wheel is turned at least once in 216 slots (56 ms), flow ids are not shared by descriptors, and
    a descriptor is not given to another flow while an acknowledgement is pending on it. -/
def AOk (s : ASt) : AOp → Prop
  | .ask _ now => s.last ≤ now ∧ now / ares < s.last / ares + 216
  | .turn now => s.last ≤ now ∧ now / ares < s.last / ares + 256
  | .flows f => ∀ fd fid k a, f fd = some fid → a ∈ s.acks k → a.fd = fd → a.flowId = fid

/-- States with the requests made so far. -/
inductive AReach : ASt → List (Nat × Nat) → Prop
  | init (now : Nat) (flows : Nat → Option Nat) : AReach (ainit now flows) []
  | step {s : ASt} {q : List (Nat × Nat)} {op : AOp} : AReach s q → AOk s op → AReach (astep s op) (q ++ asked s op)

/-- The same without assumptions on descriptors. -/
inductive AExec : ASt → List (Nat × Nat) → Prop
  | init (now : Nat) (flows : Nat → Option Nat) : AExec (ainit now flows) []
  | step {s : ASt} {q : List (Nat × Nat)} {op : AOp} : AExec s q → ((∃ f, op = .flows f) ∨ AOk s op) → AExec (astep s op) (q ++ asked s op)

/-- A request of flow `fid` at time `t` is answered: in the first turn at or after the instant it is due, an acknowledgement of the flow is
    attempted (and not sent only if the flow is gone). -/
def Answered (s : ASt) (fid t : Nat) : Prop := ∃ y ∈ s.tried, y.flowId = fid ∧ y.prev < adue t * ares ∧ adue t * ares ≤ y.now

/-- A request is going to be answered: an acknowledgement of the flow, due at the same instant, is on the wheel. -/
def Awaiting (s : ASt) (fid t : Nat) : Prop := ∃ k, ∃ a ∈ s.acks k, a.flowId = fid ∧ adue a.at_ = adue t

/-- The instant a request made at `t` is due, between 10 ms and 10 ms and one slot (0.26 ms) later. -/
def adueAt (t : Nat) : Nat := adue t * ares

end Spec.TimerHistory
