/-!
# Common vocabulary of the model

`Outcome` makes undefined behaviour (out-of-bounds access, failing `assert`, use after free, ...) a distinct result.
-/

namespace Ouro

/-- Result of a modelled C function: a value, or undefined behaviour / failed assertion.
Not tied to one C definition; used wherever the C code has an access or `assert` that is not checked at run time. -/
inductive Outcome (α : Type) where
  | ok (a : α)
  | ub
  deriving Repr, DecidableEq

namespace Outcome

/-- Sequencing: undefined behaviour absorbs everything after it. Of the modelling language; no C definition. -/
def bind {α β : Type} : Outcome α → (α → Outcome β) → Outcome β
  | ok a, f => f a
  | ub, _ => ub

instance : Monad Outcome where
  pure := ok
  bind := bind

@[simp] theorem bind_ok {α β : Type} (a : α) (f : α → Outcome β) : (ok a >>= f) = f a := rfl
@[simp] theorem bind_ub {α β : Type} (f : α → Outcome β) : ((ub : Outcome α) >>= f) = ub := rfl
@[simp] theorem pure_eq {α : Type} (a : α) : (pure a : Outcome α) = ok a := rfl

end Outcome

/-- Read a C array cell; out of bounds is undefined behaviour. Of the modelling language; no C definition. -/
def rd {α : Type} (l : List α) (i : Nat) : Outcome α :=
  match l[i]? with
  | some a => .ok a
  | none => .ub

/-- Write a C array cell; out of bounds is undefined behaviour. Of the modelling language; no C definition. -/
def wr {α : Type} (l : List α) (i : Nat) (a : α) : Outcome (List α) :=
  if i < l.length then .ok (l.set i a) else .ub

end Ouro
