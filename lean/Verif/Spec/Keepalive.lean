import Verif.Model.Keepalive

/-!
# Keepalives: specification
-/

namespace Ouro.Keepalive

/-- The times of a history do not decrease (newest first) and start at zero. -/
def Ordered : List (Int × Ev) → Prop
  | [] => True
  | (now, _) :: h => 0 ≤ now ∧ (∀ p ∈ h, p.1 ≤ now) ∧ Ordered h

/-- The monitor of end `x` passes over the flow at least every `τ` nanoseconds, up to time `n`. -/
def Regular (h : List (Int × Ev)) (x : Bool) (τ n : Int) : Prop :=
  ∀ t, 0 ≤ t → t + τ ≤ n → ∃ m r, (m, Ev.tick x r) ∈ h ∧ t ≤ m ∧ m ≤ t + τ

/-- The times at which end `x` took a packet out of its incoming ring. -/
def readTimes (timeo : Nat) (x : Bool) : List (Int × Ev) → List Int
  | [] => []
  | (now, .read y) :: h =>
    if y = x ∧ ((run timeo h).at x).wire ≠ [] then now :: readTimes timeo x h else readTimes timeo x h
  | _ :: h => readTimes timeo x h

/-- Whatever the peer of `x` sends is heard within `d`: for every packet sent at least `d` ago, end `x` took
that packet or a later one out of its ring after it was sent. -/
def Prompt (timeo : Nat) (h : List (Int × Ev)) (x : Bool) (d n : Int) : Prop :=
  ∀ e ∈ ((run timeo h).at (!x)).sends, e + d ≤ n → ∃ r ∈ readTimes timeo x h, e ≤ r

/-- No attempt to send fails. -/
def Roomy (h : List (Int × Ev)) : Prop := ∀ p ∈ h, ∀ x r, (p.2 = .tick x r ∨ p.2 = .write x r) → r = .ok

/-- The setting in which no end may be declared dead: at every pass of a monitor so far, the other end's
monitor was regular and its packets were heard in time. -/
def Healthy (timeo : Nat) (τ d : Int) : List (Int × Ev) → Prop
  | [] => True
  | (n, .tick x _) :: h => Regular h (!x) τ n ∧ Prompt timeo h x d n ∧ Healthy timeo τ d h
  | _ :: h => Healthy timeo τ d h

end Ouro.Keepalive
