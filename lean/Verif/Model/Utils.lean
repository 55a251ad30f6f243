/-!
# Model of `src/lib/utils.c`
-/

namespace Ouro.Utils

/-- Loop of `n_digits`, src/lib/utils.c:34-37. -/
def nDigitsLoop (n i : Nat) : Nat := if _h : i > 9 then nDigitsLoop (n + 1) (i / 10) else n
termination_by i
decreasing_by omega

/-- `n_digits`, src/lib/utils.c:30-40. -/
def nDigits (i : Nat) : Nat := nDigitsLoop 1 i

/-- Character at offset `i` of the C string with contents `s` (0 is the terminating NUL), as read at src/lib/utils.c:51-55. -/
def charAt (s : List Char) (i : Nat) : Char := s.getD i '\x00'

/-- The loop of `path_strip`, src/lib/utils.c:51-52: `d` is `dst - src`. -/
def stripLoop (s : List Char) : Nat → Nat
  | 0 => 0
  | d + 1 => if charAt s (d + 1) ≠ '/' then stripLoop s d else d + 1

/-- `path_strip` for a non-NULL argument, src/lib/utils.c:42-58: offset of the result in `src`. -/
def stripOffset (s : List Char) : Nat :=
  let d := stripLoop s s.length
  if charAt s d = '/' then d + 1 else d

/-- `path_strip`, src/lib/utils.c:42-58. `none` stands for NULL, the result is the string at the returned pointer. -/
def pathStrip : Option (List Char) → Option (List Char)
  | none => none
  | some s => some (s.drop (stripOffset s))

/-- A heap for the `malloc`/`strdup`/`free` calls of src/lib/utils.c:73-113: live block numbers, and which of the next allocations succeed. -/
structure Heap where
  live : List Nat
  next : Nat
  oracle : List Bool
  deriving Repr, DecidableEq

/-- One allocation (malloc or strdup, src/lib/utils.c:94-109); an exhausted oracle means success. -/
def alloc (h : Heap) : Heap × Option Nat :=
  match h.oracle with
  | false :: o => ({ h with oracle := o }, none)
  | true :: o => ({ live := h.next :: h.live, next := h.next + 1, oracle := o }, some h.next)
  | [] => ({ h with live := h.next :: h.live, next := h.next + 1 }, some h.next)

/-- `free` (src/lib/utils.c:81-84). -/
def free (h : Heap) (b : Nat) : Heap := { h with live := h.live.erase b }

/-- A NULL-terminated argument vector as taken by src/lib/utils.c:60-113: the block of the vector and the blocks and contents of its strings. -/
structure Argv where
  vec : Nat
  args : List (Nat × String)
  deriving Repr, DecidableEq

/-- `argvlen` for a non-NULL argument, src/lib/utils.c:60-71. -/
def argvlen (a : Argv) : Nat := a.args.length

/-- `argvfree` for a non-NULL argument, src/lib/utils.c:73-85: free the strings up to the first NULL, then the vector. -/
def argvfree (h : Heap) (a : Argv) : Heap := free (a.args.foldl (fun h (b, _) => free h b) h) a.vec

/-- Loop of `argvdup`, src/lib/utils.c:103-109. `done` are the entries stored so far; on failure `argv_dup[i]` is NULL, so `argvfree`
frees exactly those and the vector. -/
def dupLoop (h : Heap) (vec : Nat) (done : List (Nat × String)) : List String → Heap × Option Argv
  | [] => (h, some ⟨vec, done⟩)
  | s :: ss =>
    match alloc h with
    | (h, none) => (argvfree h ⟨vec, done⟩, none)
    | (h, some b) => dupLoop h vec (done ++ [(b, s)]) ss

/-- `argvdup` for a non-NULL argument, src/lib/utils.c:87-113. -/
def argvdup (h : Heap) (a : Argv) : Heap × Option Argv :=
  match alloc h with
  | (h, none) => (h, none)
  | (h, some v) => dupLoop h v [] (a.args.map Prod.snd)

end Ouro.Utils
