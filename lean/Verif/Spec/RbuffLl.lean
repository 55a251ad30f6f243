import Verif.Model.RbuffLl

/-!
# Specification for C81: the lockless ring
-/

namespace Ouro.RbuffLl

/-- The values that were accepted, in order. -/
def written (l : List Ev) : List Nat := l.filterMap fun e => match e with
  | .wrote v => some v
  | _ => none

/-- The values that were returned, in order. -/
def gotten (l : List Ev) : List Nat := l.filterMap fun e => match e with
  | .got v => some v
  | _ => none

/-- One thread writes, another reads. -/
def Two (l : List (Nat × Act)) : Prop := ∀ x ∈ l, x.1 = 0 ∧ (x.2 = .go ∨ ∃ v, x.2 = .write v) ∨ x.1 = 1 ∧ (x.2 = .go ∨ x.2 = .read ∨ x.2 = .readB)

end Ouro.RbuffLl
