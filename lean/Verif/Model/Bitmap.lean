import Verif.Model.Base

/-!
# Model of `src/lib/bitmap.c`

`size_t` words are `BitVec 64`. The word array is a `List`, accesses outside of it are `Outcome.ub`.
-/

namespace Ouro.Bitmap

/-- `struct bmp`, src/lib/bitmap.c:93-98. -/
structure Bmp where
  offset : Int
  size : Nat
  words : List (BitVec 64)
  deriving Repr, DecidableEq

/-- `DIV_ROUND_UP(n, 64)`, src/lib/bitmap.c:36-39. -/
def nWords (bits : Nat) : Nat := (bits + 64 - 1) / 64

/-- `bmp_create`, src/lib/bitmap.c:100-122. Memory allocation is assumed to succeed; `assert(bits)` is `ub` for 0. -/
def create (bits : Nat) (offset : Int) : Outcome Bmp :=
  if bits = 0 then .ub
  else .ok { offset := offset, size := bits, words := List.replicate (nWords bits) 0#64 }

/-- Inner loop of `find_next_zero_bit`, src/lib/bitmap.c:59-64: first set bit of `tmp` at or above `pos`.
The C loop shifts the mask; position 64 is only reached for `tmp = 0`, which the caller excludes. -/
def findBit (tmp : BitVec 64) (pos : Nat) : Nat :=
  if _h : 64 ≤ pos then pos
  else if tmp.getLsbD pos then pos else findBit tmp (pos + 1)
termination_by 64 - pos

/-- Outer loop of `find_next_zero_bit`, src/lib/bitmap.c:49-57 and 66. `ws` is the rest of the array from word `start` on,
`nw = DIV_ROUND_UP(nbits, 64)`. -/
def findZero (nbits nw : Nat) : List (BitVec 64) → Nat → Outcome Nat
  | [], _ => .ub
  | w :: ws, start =>
    if ~~~w = 0#64 then
      if start + 1 ≥ nw then .ok nbits else findZero nbits nw ws (start + 1)
    else .ok (start * 64 + findBit (~~~w) 0)

/-- `bitmap_set`, src/lib/bitmap.c:84-91. -/
def setBit (ws : List (BitVec 64)) (i : Nat) : Outcome (List (BitVec 64)) := do
  let w ← rd ws (i / 64)
  wr ws (i / 64) (w ||| (1#64 <<< (i % 64)))

/-- `bitmap_clear`, src/lib/bitmap.c:75-82. -/
def clearBit (ws : List (BitVec 64)) (i : Nat) : Outcome (List (BitVec 64)) := do
  let w ← rd ws (i / 64)
  wr ws (i / 64) (w &&& ~~~(1#64 <<< (i % 64)))

/-- `is_id_used`, src/lib/bitmap.c:167-174. -/
def testBit (ws : List (BitVec 64)) (i : Nat) : Outcome Bool := do
  let w ← rd ws (i / 64)
  return (w &&& (1#64 <<< (i % 64))) != 0#64

/-- `bmp_allocate`, src/lib/bitmap.c:141-154. -/
def allocate (b : Bmp) : Outcome (Bmp × Int) := do
  let id ← findZero b.size (nWords b.size) b.words 0
  if id ≥ b.size then
    return (b, b.offset - 1)
  else
    let ws ← setBit b.words id
    return ({ b with words := ws }, id + b.offset)

/-- `is_id_valid` / `bmp_is_id_valid`, src/lib/bitmap.c:156-165, 176-182. Note the `>`: `offset + size` is accepted. -/
def isIdValid (b : Bmp) (id : Int) : Bool :=
  !(decide (id < b.offset) || decide (id > b.offset + b.size))

/-- `size_t` conversion of the signed difference `id - offset` (src/lib/bitmap.c:192, 202). -/
def toSizeT (i : Int) : Nat := (i % 2 ^ 64).toNat

/-- `bmp_release`, src/lib/bitmap.c:184-195. -/
def release (b : Bmp) (id : Int) : Outcome (Bmp × Int) :=
  if !isIdValid b id then .ok (b, -1)
  else do
    let ws ← clearBit b.words (toSizeT (id - b.offset))
    return ({ b with words := ws }, 0)

/-- `bmp_is_id_used`, src/lib/bitmap.c:197-203 (no range check in the code). -/
def isIdUsed (b : Bmp) (id : Int) : Outcome Bool :=
  testBit b.words (toSizeT (id - b.offset))

/-- One call on the allocator. [src/lib/bitmap.c:141-203] -/
inductive Op where
  | allocate
  | release (id : Int)
  | isUsed (id : Int)
  deriving Repr, DecidableEq

/-- Result of a call as an integer (booleans are 0/1, as in C). [src/lib/bitmap.c:141-203] -/
def step (b : Bmp) : Op → Outcome (Bmp × Int)
  | .allocate => allocate b
  | .release id => release b id
  | .isUsed id => do
    let u ← isIdUsed b id
    return (b, if u then 1 else 0)

/-- A history of calls; returns the results in order. [src/lib/bitmap.c:141-203] -/
def run (b : Bmp) : List Op → Outcome (Bmp × List Int)
  | [] => .ok (b, [])
  | op :: ops => do
    let (b', r) ← step b op
    let (b'', rs) ← run b' ops
    return (b'', r :: rs)

end Ouro.Bitmap
