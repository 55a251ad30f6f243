import Verif.Model.Ocbr

/-!
# Specification for C84: the server of ocbr
-/

namespace Ouro.Ocbr

/-- Flow `k` has been accepted, and a worker handles it, has handled it or can see it. -/
def Kept (s : St) (k : Nat) : Prop := k ∈ s.busy ∨ k ∈ s.done ∨ s.slot = some k

/-- A run in which each flow has been taken by a worker before the next is accepted. -/
def Prompt : List Act → St → Prop
  | [], _ => True
  | a :: l, s => (a = .accept → s.slot = none) ∧ ∀ t, step s a = some t → Prompt l t

/-- All threads wait for each other: the only steps are wake-ups without a signal. -/
def Stuck (s : St) : Prop := ∀ a t, step s a = some t → a = .wakeL ∨ a = .wakeW

/-- The packets of a flow, as their lengths, up to the end of a test. -/
def lengths (reads : List Read) : List Int := (reads.map Read.count).filter (0 < ·)

/-- When the last packet was seen: the start if there was none. -/
def lastSeen (start : Oping.Time) : List Read → Oping.Time
  | [] => start
  | r :: l => lastSeen (if 0 < r.count then r.after else start) l

end Ouro.Ocbr
