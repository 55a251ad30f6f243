/-!
# Specification for C28, C29, C30: topologies, walks and distances

Nothing here refers to the model of the code.
-/

namespace Spec.Routing

/-- A walk of a given number of hops. -/
inductive Walk (link : Nat → Nat → Prop) : Nat → Nat → Nat → Prop where
  | nil (a : Nat) : Walk link 0 a a
  | cons {a b c n : Nat} : link a b → Walk link n b c → Walk link (n + 1) a c

/-- `n` is the least number of hops from `a` to `b`. -/
def Dist (link : Nat → Nat → Prop) (a b n : Nat) : Prop :=
  Walk link n a b ∧ ∀ m, Walk link m a b → n ≤ m

/-- An announcement of the link between two nodes is made or withdrawn. -/
inductive Event where
  | up (s d : Nat)
  | down (s d : Nat)
  deriving DecidableEq, Repr

/-- The two ends of an event. -/
def Event.ends : Event → Nat × Nat
  | .up s d => (s, d)
  | .down s d => (s, d)

/-- How many announcements of each (undirected) link there are. -/
def step (c : Nat → Nat → Nat) : Event → Nat → Nat → Nat
  | .up s d => fun a b => if (a = s ∧ b = d) ∨ (a = d ∧ b = s) then c a b + 1 else c a b
  | .down s d => fun a b => if (a = s ∧ b = d) ∨ (a = d ∧ b = s) then c a b - 1 else c a b

/-- The number of announcements after a history. -/
def announced (es : List Event) : Nat → Nat → Nat := es.foldl step (fun _ _ => 0)

/-- A link is usable if it was announced exactly twice (once by each end). -/
def usable (es : List Event) (a b : Nat) : Prop := announced es a b = 2

/-- Following `next` hop by hop. -/
def follow (next : Nat → Nat) : Nat → Nat → Nat
  | 0, a => a
  | n + 1, a => follow next n (next a)

/-- A routing table: destinations with next hops. -/
abbrev Table := List (Nat × List Nat)

/-- One next hop for each reachable destination, first hop of a shortest path; nothing else. -/
structure ShortestTable (link : Nat → Nat → Prop) (src : Nat) (t : Table) : Prop where
  /-- No destination is listed twice. -/
  once : (t.map Prod.fst).Nodup
  /-- Each entry is for a reachable node, and its only next hop is a neighbour one hop nearer to it. -/
  entry : ∀ d nhs, (d, nhs) ∈ t → d ≠ src ∧ ∃ h n, nhs = [h] ∧ link src h ∧ Dist link h d n ∧ Dist link src d (n + 1)
  /-- Each reachable node has an entry. -/
  all : ∀ d n, d ≠ src → Walk link n src d → ∃ nhs, (d, nhs) ∈ t

/-- A packet for `d` at `a` may be sent to `b`. -/
def mayForward (table : Nat → Table) (d a b : Nat) : Prop := ∃ nhs, (d, nhs) ∈ table a ∧ b ∈ nhs

/-- Forwarding by the tables delivers: a packet for `d` which started at distance `n` is at distance `n - k` after `k` hops, whatever
next hops were chosen, and can be sent on unless it has arrived. -/
structure Delivers (link : Nat → Nat → Prop) (table : Nat → Table) : Prop where
  hops : ∀ s d n k x, Dist link s d n → Walk (mayForward table d) k s x → k ≤ n ∧ Dist link x d (n - k)
  moves : ∀ x d n, Dist link x d n → x ≠ d → ∃ y, mayForward table d x y
  /-- In particular: any `n` hops from a node at distance `n` lead to the destination, which was not reached before. -/
  arrives : ∀ s d n k x, Dist link s d n → Walk (mayForward table d) k s x → (x = d ↔ k = n)

/-- `a` is a loop-free alternate for `d` at `s`. -/
def LoopFree (link : Nat → Nat → Prop) (s d a : Nat) : Prop :=
  ∃ ad as sd, Dist link a d ad ∧ Dist link a s as ∧ Dist link s d sd ∧ ad < as + sd

end Spec.Routing
