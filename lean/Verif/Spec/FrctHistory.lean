import Verif.Model.FrctNet

/-!
# Specification: a reliable flow

What the two applications see of a flow, and what is assumed of the network and of the use of the flow.
-/

namespace Spec.FrctHistory

open Ouro Ouro.Frct

/-- Everything the application at `d` has written, in order. -/
def written (s : Sys) (d : Bool) : List (List Byte) := (s.dir d).sent

/-- Everything the application at the other end has read of it, in order. -/
def readAtPeer (s : Sys) (d : Bool) : List (List Byte) := (s.dir d).got

/-- The property: what was read is a prefix of what was written. -/
def InOrder (s : Sys) : Prop := ∀ d, readAtPeer s d <+: written s d

/-- Packet number `g` of `d` will be sent again by a timer as long as it is not acknowledged. -/
def Pending (s : Sys) (d : Bool) (g : Nat) : Prop := ∃ x ∈ s.rxm d, x.tag.idx = g ∧ (written s d)[g]? = some x.rxm.pkt.payload

/-- Nothing is silently lost: a packet that was written is read, or waits for its retransmission, or no timer could be armed for it, or
    the writer is told that the flow is down. -/
def NoSilentLoss (s : Sys) : Prop :=
  ∀ d g, g < (written s d).length → g < (readAtPeer s d).length ∨ Pending s d g ∨ g ∈ (s.dir d).lost ∨ s.down d = true

/-- The time of an operation; reading and setting flags take no time. -/
def timeOf (s : Sys) : Op → Int
  | .write _ _ now _ _ _ => now
  | .recv _ _ now => now
  | .read _ => s.now
  | .ack _ now => now
  | .expire _ _ now _ _ => now
  | .window _ now => now
  | .close _ now => now
  | .flags _ _ _ _ => s.now

/-- The network keeps a packet no longer than `mpl` seconds. -/
def Alive (mpl : Nat) (q : Sent) (now : Int) : Prop := now ≤ q.at_ + mpl * BILLION

/-- What is assumed of an operation.
    * The clock does not run backwards and packets live no longer than `mpl`.
    * Fewer than `2^31` packets are unacknowledged, and no packet or acknowledgement is overtaken by `2^31` others.
    * A packet with data that belongs to another run of its sender than the one the receiver follows arrives when the receiver has been
      inactive for its inactivity time.
    * An acknowledgement arrives only if it was sent by a receiver that followed the sender's present run.
    The last two are what the timers of the protocol are meant to guarantee, see the theorems named `_violated`. -/
def Ok (mpl : Nat) (s : Sys) (op : Op) : Prop :=
  s.now ≤ timeOf s op ∧
  match op with
  | .write d _ _ _ _ _ => (s.dir d).sent.length + 1 < (s.dir d).acked + 2 ^ 31
  | .recv d k now => ∀ q, (s.net (!d))[k]? = some q →
      Alive mpl q now ∧
      (q.pkt.data = true → q.tag.run = (s.dir (!d)).rrun ∨ inactive (s.ep d).rcv now = true) ∧
      (q.pkt.data = true → (s.dir (!d)).got.length < q.tag.idx + 2 ^ 31) ∧
      (q.pkt.ack = true → q.tag.rRun = (s.dir d).run ∧ (s.dir d).acked < q.tag.rIdx + 2 ^ 31)
  | _ => True

/-- The states reachable by operations that satisfy `Ok`. -/
inductive Reach (a r mpl : Nat) : Sys → Prop
  | init (now : Int) : Reach a r mpl (Sys.init a r mpl now)
  | step {s s' : Sys} {op : Op} : Reach a r mpl s → Ok mpl s op → step s op = .ok s' → Reach a r mpl s'

/-- The same, said without runs: once an application has begun to write it does not pause longer than its end's inactivity time, and an
    end gets no packet without data before it has got the first packet with data. -/
def OkSteady (mpl : Nat) (s : Sys) (op : Op) : Prop :=
  s.now ≤ timeOf s op ∧
  match op with
  | .write d _ now _ _ _ => (s.dir d).sent.length + 1 < (s.dir d).acked + 2 ^ 31 ∧
      (written s d = [] ∨ inactive (s.ep d).snd now = false)
  | .recv d k now => ∀ q, (s.net (!d))[k]? = some q →
      Alive mpl q now ∧
      (q.pkt.data = true → (s.dir (!d)).got.length < q.tag.idx + 2 ^ 31) ∧
      (q.pkt.ack = true → (s.dir d).acked < q.tag.rIdx + 2 ^ 31) ∧
      (q.pkt.data = false → 0 < (s.dir (!d)).rrun)
  | _ => True

/-- The states reachable by operations that satisfy `OkSteady`. -/
inductive ReachSteady (a r mpl : Nat) : Sys → Prop
  | init (now : Int) : ReachSteady a r mpl (Sys.init a r mpl now)
  | step {s s' : Sys} {op : Op} : ReachSteady a r mpl s → OkSteady mpl s op → step s op = .ok s' → ReachSteady a r mpl s'

/-- Flow control is respected by the writer (who sends only when `is_window_open` says so) and windows of the present run arrive in the
    order in which they were announced, less than `2^23` apart. -/
def OkWindow (s : Sys) (op : Op) : Prop :=
  match op with
  | .write d _ now _ _ _ => (s.ep d).snd.rescntl = true ∧ (isWindowOpen (s.ep d) now).2.1 = true
  | .recv d k _ => ∀ q, (s.net (!d))[k]? = some q → q.pkt.fc = true → 0 < (s.dir d).run →
      q.tag.wRun = (s.dir d).run ∧ (s.dir d).wnd ≤ q.tag.wIdx ∧ q.tag.wIdx ≤ (s.dir d).wnd + 2 ^ 23
  | _ => True

/-- The states reachable by operations that satisfy `Ok` and `OkWindow`. -/
inductive ReachWindow (a r mpl : Nat) : Sys → Prop
  | init (now : Int) : ReachWindow a r mpl (Sys.init a r mpl now)
  | step {s s' : Sys} {op : Op} : ReachWindow a r mpl s → Ok mpl s op → OkWindow s op → step s op = .ok s' → ReachWindow a r mpl s'

/-- All that the protocol promises to need of the network: time passes and no packet lives longer than `mpl`. -/
def OkNet (mpl : Nat) (s : Sys) (op : Op) : Prop :=
  s.now ≤ timeOf s op ∧
  match op with
  | .recv d k now => ∀ q, (s.net (!d))[k]? = some q → Alive mpl q now
  | _ => True

/-- The states reachable by operations that satisfy `OkNet`. -/
inductive ReachNet (a r mpl : Nat) : Sys → Prop
  | init (now : Int) : ReachNet a r mpl (Sys.init a r mpl now)
  | step {s s' : Sys} {op : Op} : ReachNet a r mpl s → OkNet mpl s op → step s op = .ok s' → ReachNet a r mpl s'

end Spec.FrctHistory
