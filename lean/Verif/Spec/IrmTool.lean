import Verif.Model.IrmTool

/-!
# What the `irm` tool should do (C79)
-/

namespace Ouro.IrmTool

/-- A pattern matches a string: `*` stands for any characters, possibly none, everything else for itself. -/
inductive Glob : Str → Str → Prop where
  | nil : Glob [] []
  | lit (c : Char) (p s : Str) : c ≠ '*' → Glob p s → Glob (c :: p) (c :: s)
  | star (p u s : Str) : Glob p s → Glob ('*' :: p) (u ++ s)

/-- There are no two `*` in a row. -/
def NoDouble (p : Str) : Prop := ¬ ['*', '*'] <:+: p

/-- A string without `*`. -/
def Plain (p : Str) : Prop := '*' ∉ p

/-- The words `layer l` and `ipcp p` for the patterns given. -/
def words (l : List (Bool × Str)) : List Str := l.flatMap fun x => [if x.1 then "layer".toList else "ipcp".toList, x.2]

/-- The IPCP is meant by one of the patterns given. -/
def Meant (l : List (Bool × Str)) (i : Ipcp) : Prop := ∃ x ∈ l, Glob x.2 (if x.1 then i.layer else i.name)

/-- The IPCP is named by one of the words given. -/
def Named (l : List (Bool × Str)) (i : Ipcp) : Prop := ∃ x ∈ l, x.2 = (if x.1 then i.layer else i.name)

/-- The names of IPCPs and layers are shorter than the arrays of the list. -/
def Short (is : List Ipcp) : Prop := ∀ i ∈ is, i.name.length < 255 ∧ i.layer.length < 255

end Ouro.IrmTool
