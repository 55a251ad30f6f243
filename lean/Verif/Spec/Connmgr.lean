import Verif.Model.Connmgr

/-!
# What the connection manager must do (C49), in terms of what is seen in a history
-/

namespace Ouro.Connmgr

/-- A log: the steps with what was seen. -/
abbrev Log := List (Op × Out)

/-- How often `o` was seen. -/
def seen (l : Log) (o : Out) : Nat := (l.map (·.2)).count o

/-- An accept for component `id`. -/
def isAccept (id : Nat) : Out → Bool
  | .accepted i _ => i = id
  | _ => false

/-- A return of `connmgr_wait(id)`. -/
def isReturn (id : Nat) : Out → Bool
  | .returned i _ => i = id
  | _ => false

/-- How many connections were accepted for `id` and not returned. -/
def waiting (l : Log) (id : Nat) : Nat := (l.map (·.2)).countP (isAccept id) - (l.map (·.2)).countP (isReturn id)

/-- The connection was handed to component `id`, by `connmgr_wait` or by a connect, and not disconnected. -/
def open_ (l : Log) (id : Nat) (c : Conn) : Prop := (Out.returned id c ∈ l.map (·.2) ∨ Out.inserted id c ∈ l.map (·.2)) ∧ Out.closed id c ∉ l.map (·.2)

/-- Two sides agree. -/
def agree (i j : Info) : Prop := i.proto = j.proto ∧ i.version = j.version ∧ i.syntax_ = j.syntax_

end Ouro.Connmgr
