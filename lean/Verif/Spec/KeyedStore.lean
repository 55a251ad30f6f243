import Verif.Spec.FiniteMap
import Verif.Model.Btree

/-!
# Specification: a map from keys to non-null values
-/

namespace Spec.KeyedStore

open Spec.FiniteMap Ouro.Btree

/-- What an operation makes of the map. -/
def apply (m : Map Nat Nat) : Op → Map Nat Nat
  | .insert key val => if val = 0 ∨ m key ≠ none then m else put m key val
  | .remove key => FiniteMap.remove m key
  | .search _ => m

/-- The result an operation must have: inserting an existing key and removing a missing one fail, a null value is invalid, searching
    returns the value, or null. -/
def result (m : Map Nat Nat) : Op → Int
  | .insert key val => if val = 0 then -22 else if m key ≠ none then -1 else 0
  | .remove key => if m key = none then -1 else 0
  | .search key => ((m key).getD 0 : Nat)

/-- The map after a history. -/
def after (ops : List Op) : Map Nat Nat := ops.foldl apply empty

/-- Every remove of the history was of a key that was there. -/
def AllHit (ops : List Op) : Prop := ∀ pre key post, ops = pre ++ .remove key :: post → after pre key ≠ none

/-- The map bound `key` to `val` at some time in the history. -/
def Held (ops : List Op) (key val : Nat) : Prop := ∃ pre post, ops = pre ++ post ∧ after pre key = some val

/-- The results a history must have, from a map on. -/
def results : Map Nat Nat → List Op → List Int
  | _, [] => []
  | m, op :: ops => result m op :: results (apply m op) ops

/-- A tree of order `k` reached by a history without undefined behaviour. -/
inductive Reach (k : Nat) : Option Node → List Op → Prop
  | init : Reach k none []
  | step {root root' : Option Node} {ops : List Op} {op : Op} {r : Int} : Reach k root ops → step k root op = .ok (root', r) →
      Reach k root' (ops ++ [op])

end Spec.KeyedStore
