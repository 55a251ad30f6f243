/-!
# Specification: a pool of identifiers `[lo, lo + n)`

The state is the predicate `held`. The specification is a relation between a call, its result and the new state.
-/

namespace Spec.IdPool

inductive Call where
  | allocate
  | release (id : Int)
  | isUsed (id : Int)

/-- Is `id` one of the pool's identifiers? -/
def InRange (lo : Int) (n : Nat) (id : Int) : Prop := lo ≤ id ∧ id < lo + n

/-- `Step lo n held c r held'`: the call `c` on a pool whose held ids are `held` may return `r` and leave `held'`. -/
inductive Step (lo : Int) (n : Nat) : (Int → Prop) → Call → Int → (Int → Prop) → Prop
  /-- allocation returns the least free id and makes it held -/
  | alloc (held held' : Int → Prop) (i : Int) (hr : InRange lo n i) (free : ¬ held i)
      (least : ∀ j, lo ≤ j → j < i → held j) (upd : ∀ j, held' j ↔ held j ∨ j = i) :
      Step lo n held .allocate i held'
  /-- allocation fails only if all ids are held -/
  | full (held held' : Int → Prop) (h : ∀ j, InRange lo n j → held j) (same : ∀ j, held' j ↔ held j) :
      Step lo n held .allocate (lo - 1) held'
  /-- release of an id of the pool makes it free and nothing else -/
  | release (held held' : Int → Prop) (i : Int) (hr : InRange lo n i) (upd : ∀ j, held' j ↔ held j ∧ j ≠ i) :
      Step lo n held (.release i) 0 held'
  /-- release of anything else is refused -/
  | badRelease (held held' : Int → Prop) (i : Int) (hr : ¬ InRange lo n i) (same : ∀ j, held' j ↔ held j) :
      Step lo n held (.release i) (-1) held'
  | used (held held' : Int → Prop) (i : Int) (h : held i) (same : ∀ j, held' j ↔ held j) :
      Step lo n held (.isUsed i) 1 held'
  | unused (held held' : Int → Prop) (i : Int) (h : ¬ held i) (same : ∀ j, held' j ↔ held j) :
      Step lo n held (.isUsed i) 0 held'

/-- A whole history of calls with their results, from `held`. -/
inductive Trace (lo : Int) (n : Nat) : (Int → Prop) → List Call → List Int → (Int → Prop) → Prop
  | nil (held) : Trace lo n held [] [] held
  | cons {held held' held'' c cs r rs} (h : Step lo n held c r held') (t : Trace lo n held' cs rs held'') :
      Trace lo n held (c :: cs) (r :: rs) held''

end Spec.IdPool
