import Verif.Model.Base
import Verif.Model.Errno

/-!
# Model of how a program is found before it is bound (src/lib/irm.c)

Strings live in memory: a list of characters in which 0 ends a string. The variable `PATH` is a region of memory, which `getenv` returns and which the code writes to.
Not modelled: failing allocations.
-/

namespace Ouro.ProgPath

/-- A string without its terminator. [src/lib/irm.c:278] -/
abbrev Str := List Char

/-- The character that ends a string. [src/lib/irm.c:334-337] -/
def NUL : Char := '\x00'

/-- `ENOENT` of errno.h, as src/lib/irm.c:283, 310 and 362 return it. -/
def ENOENT : Int := 2

/-- The string at the start of a piece of memory, as `strlen`, `strcpy` and `stat` read it (src/lib/irm.c:282-349); past the end is undefined. -/
def cstr : List Char → Outcome Str
  | [] => .ub
  | c :: t => if c = NUL then .ok [] else match cstr t with
    | .ok s => .ok (c :: s)
    | .ub => .ub

/-- `strcpy` to offset `i` (src/lib/irm.c:325, 339): `s` with its terminator, byte by byte. -/
def copy (m : List Char) (i : Nat) : Str → Outcome (List Char)
  | [] => wr m i NUL
  | c :: s => match wr m i c with
    | .ok m => copy m (i + 1) s
    | .ub => .ub

/-- The inner loop (src/lib/irm.c:334-335): how far the next end of a directory is. -/
def scan : List Char → Outcome Nat
  | [] => .ub
  | c :: t => if c ≠ NUL ∧ c ≠ ':' then match scan t with
      | .ok n => .ok (n + 1)
      | .ub => .ub
    else .ok 0

/-- What `check_prog_path` returns: the program it found, or an error. [src/lib/irm.c:291] -/
inductive Res where
  | found (p : Str)
  | err (e : Int)
  deriving DecidableEq

/-- The outer loop of `check_prog_path` (src/lib/irm.c:327-362) at offset `pstop` of `PATH`; `chk` is `check_prog` (src/lib/irm.c:278-289). The first argument bounds the number of rounds. -/
def loop (chk : Str → Int) (pathEnd tstop : Nat) : Nat → List Char → List Char → Nat → Bool → Outcome (List Char × Res)
  | 0, _, _, _, _ => .ub
  | k + 1, env, tmp, pstop, perm =>
    if pstop < pathEnd then do
      let c ← rd env pstop
      if c ≠ '/' then .ok (env, .err (-EINVAL))
      else do
        let d ← scan (env.drop pstop)
        let env ← wr env (pstop + d) NUL
        if tstop < d then .ub
        else do
          let dir ← cstr (env.drop pstop)
          let tmp ← copy tmp (tstop - d) dir
          let tmp ← wr tmp tstop '/'
          let full ← cstr (tmp.drop (tstop - d))
          if chk full < 0 then loop chk pathEnd tstop k env tmp (pstop + d + 1) (perm && chk full ≠ -EPERM)
          else .ok (env, .found full)
    else .ok (env, .err (if perm then -ENOENT else -EPERM))

/-- `check_prog_path` (src/lib/irm.c:291-363) with a program that is not NULL. `env` is the memory of `PATH`, if it is set; `junk` is what `malloc` returns. -/
def checkProgPath (chk : Str → Int) (junk : Nat → List Char) (prog : Str) : Option (List Char) → Outcome (Option (List Char) × Res)
  | none => .ok (none, .err (-ENOENT))
  | some env => do
    let path ← cstr env
    if path.length = 0 ∨ '/' ∈ prog then
      if chk prog < 0 then .ok (some env, .err (chk prog)) else .ok (some env, .found prog)
    else do
      let tmp ← copy (junk (path.length + prog.length + 2)) (path.length + 1) prog
      let (env, r) ← loop chk (path.length + 1) path.length (path.length + 2) env tmp 0 true
      return (some env, r)

/-- `irm_bind_program` (src/lib/irm.c:365-410) up to the request: the error, or the array that is sent to the daemon. -/
def bindRequest (chk : Str → Int) (junk : Nat → List Char) (prog name : Option Str) (argv : List Str) (env : Option (List Char)) :
    Outcome (Option (List Char) × (Int ⊕ List Str)) :=
  match prog, name with
  | some prog, some _ => do
    let (env, r) ← checkProgPath chk junk prog env
    match r with
    | .err e => return (env, .inl e)
    | .found p => return (env, .inr (p :: argv ++ [[]]))
  | _, _ => .ok (env, .inl (-EINVAL))

/-- What the daemon makes of the array (src/irmd/main.c:1382-1386): the last string is replaced by NULL. -/
def received (exec : List Str) : List Str := exec.dropLast

end Ouro.ProgPath
