import Verif.Model.ProgPath

/-!
# Looking for a program along a list of directories
-/

namespace Ouro.ProgPath

/-- The directories of a list that is separated by colons. -/
def dirs : Str → List Str
  | [] => [[]]
  | c :: t => if c = ':' then [] :: dirs t else match dirs t with
    | d :: ds => (c :: d) :: ds
    | [] => [[c]]

/-- The program in a directory. -/
def inDir (prog d : Str) : Str := d ++ '/' :: prog

/-- An absolute path. -/
def Abs (d : Str) : Prop := d.head? = some '/'

/-- `ds` holds the answer `r` for `prog`: the program of the first directory in which it can be run; an error if there is none, or if a directory before is not absolute. -/
inductive Answer (chk : Str → Int) (prog : Str) (ds : List Str) : Res → Prop where
  | found (before after : List Str) (d : Str) : ds = before ++ d :: after → (∀ e ∈ before, Abs e ∧ chk (inDir prog e) < 0) → Abs d → 0 ≤ chk (inDir prog d) →
      Answer chk prog ds (.found (inDir prog d))
  | bad (before after : List Str) (d : Str) : ds = before ++ d :: after → (∀ e ∈ before, Abs e ∧ chk (inDir prog e) < 0) → ¬ Abs d →
      Answer chk prog ds (.err (-EINVAL))
  | perm : (∀ e ∈ ds, Abs e ∧ chk (inDir prog e) < 0) → (∃ e ∈ ds, chk (inDir prog e) = -EPERM) → Answer chk prog ds (.err (-EPERM))
  | none : (∀ e ∈ ds, Abs e ∧ chk (inDir prog e) < 0) → (∀ e ∈ ds, chk (inDir prog e) ≠ -EPERM) → Answer chk prog ds (.err (-ENOENT))

/-- The variable `PATH` as a program sees it. -/
def Reads (env : List Char) (p : Str) : Prop := NUL ∉ p ∧ ∃ rest, env = p ++ NUL :: rest

/-- One process that looks for several programs, one after the other; the files may change in between. -/
def lookups (junk : Nat → List Char) : List ((Str → Int) × Str) → Option (List Char) → Outcome (Option (List Char) × List Res)
  | [], env => .ok (env, [])
  | (chk, prog) :: l, env => do
    let (env, r) ← checkProgPath chk junk prog env
    let (env, rs) ← lookups junk l env
    return (env, r :: rs)

/-- The answer for a program that is given as a path. -/
def direct (chk : Str → Int) (prog : Str) : Res := if chk prog < 0 then .err (chk prog) else .found prog

end Ouro.ProgPath
