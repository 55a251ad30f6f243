import Verif.Model.Rib

/-!
# The resource information base: specification

A tree is mounted or not, and gives each registered name the operations that serve it.
-/

namespace Ouro.Rib

/-- The abstract tree. -/
structure Tree where
  mounted : Bool
  at_ : Path → Option Nat

/-- Nothing is mounted. -/
def Tree.empty : Tree := ⟨false, fun _ => none⟩

/-- What a call does to the tree, and its result. -/
def Tree.step (t : Tree) : Op → Tree × Int
  | .init true => (⟨true, fun _ => none⟩, 0)
  | .init false => (⟨false, t.at_⟩, -1)
  | .fini => (if t.mounted then ⟨false, fun _ => none⟩ else t, 0)
  | .reg path ops mem =>
    if t.mounted = false then (t, 0)
    else if t.at_ path ≠ none then (t, -1)
    else if mem = false then (t, -ENOMEM)
    else if 300 < path.length then (t, -1)
    else (⟨true, fun p => if p = path then some ops else t.at_ p⟩, 0)
  | .unreg path =>
    (if t.mounted then ⟨true, fun p => if p = path then none else t.at_ p⟩ else t, 0)

/-- A history of calls on the abstract tree. -/
def Tree.run (t : Tree) (l : List Op) : Tree := l.foldl (fun t o => (t.step o).1) t

/-- Byte order of names: the first difference decides, and a prefix comes first. -/
def Before (a b : Path) : Prop := a < b

/-- The path of a file in the directory of a component. -/
def filePath (name file : Path) : Path := 47 :: (name ++ 47 :: file)

end Ouro.Rib
