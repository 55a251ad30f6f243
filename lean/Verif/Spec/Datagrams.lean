/-!
# Specification: reading datagrams

What `flow_read` promises: datagrams come in order, each one completely before the next. With partial reads a datagram that
does not fit is delivered in pieces, and the last piece is shorter than what was asked for (possibly empty). Without partial
reads a datagram that does not fit is dropped with an error.
-/

namespace Spec.Datagrams

/-- The datagrams not yet begun, and what is left of the one begun. `some []`: only its end is still to be told. -/
structure Reader (α : Type) where
  queue : List (List α)
  cur : Option (List α)
  deriving Repr, DecidableEq

/-- Deliver from the datagram `d`, `q` being those behind it; `none` is the error. `keep` says what remains of the rest. -/
def deliver {α : Type} (keep : List α → List α) (d : List α) (q : List (List α)) (count : Nat) (part : Bool) :
    Option (List α) × Reader α :=
  if d.length < count then (some d, ⟨q, none⟩)
  else if part then (some (d.take count), ⟨q, some (keep (d.drop count))⟩)
  else if d.length = count then (some d, ⟨q, none⟩)
  else (none, ⟨q, none⟩)

/-- One successful or too short read of `count` bytes. Nothing to read: `none`. -/
def read {α : Type} (keep : List α → List α) (r : Reader α) (count : Nat) (part : Bool) : Option (Option (List α) × Reader α) :=
  match r.cur with
  | some [] => some (some [], { r with cur := none })
  | some d => some (deliver keep d r.queue count part)
  | none =>
    match r.queue with
    | [] => none
    | d :: q => some (deliver keep d q count part)

/-- What can be observed: a datagram arrives; a read of at most `count` bytes returns `got`; one fails because the datagram is
too long. -/
inductive Ev (α : Type) where
  | arrive (d : List α)
  | read (count : Nat) (part : Bool) (got : List α)
  | tooLong (count : Nat)
  deriving Repr, DecidableEq

/-- The state after an event; `none` if the event must not happen. -/
def next {α : Type} [DecidableEq α] (keep : List α → List α) (r : Reader α) : Ev α → Option (Reader α)
  | .arrive d => some { r with queue := r.queue ++ [d] }
  | .read count part got =>
    match read keep r count part with
    | some (some bs, r') => if bs = got then some r' else none
    | _ => none
  | .tooLong count =>
    match read keep r count false with
    | some (none, r') => some r'
    | _ => none

/-- The state after a history; `none` if the history is not allowed. -/
def follow {α : Type} [DecidableEq α] (keep : List α → List α) (r : Reader α) : List (Ev α) → Option (Reader α)
  | [] => some r
  | e :: es => (next keep r e).bind (fun r' => follow keep r' es)

/-- The promise: nothing of a datagram is dropped. -/
def exact {α : Type} : List α → List α := id
/-- A weaker promise: what does not fit in the first read may be dropped; only a prefix of each datagram is delivered. -/
def lossy {α : Type} : List α → List α := fun _ => []

end Spec.Datagrams
