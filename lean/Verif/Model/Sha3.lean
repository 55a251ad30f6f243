import Verif.Model.Base

/-!
# Model of the SHA-3 functions (src/lib/sha3.c)

Everything: the permutation, the absorption of blocks, `rhash_sha3_update` and `rhash_sha3_final`. Lanes are 64-bit words; the context has the state of 25 lanes, the
buffer of bytes, the number of bytes in the buffer and the block size. `big` says that the host is big-endian. Alignment of the message (which selects whether a block is copied) is a
parameter of every update. The sum of the number of buffered bytes and the size of an update does not overflow `size_t`.
-/

namespace Ouro.Sha3

/-- `uint64_t`. [src/lib/sha3.c:60] -/
abbrev Lane := BitVec 64

/-- The array of 25 lanes. [include/ouroboros/sha3.h:60] -/
abbrev Lanes := List Lane

/-- `ROTL64` (src/lib/sha3.c:57). -/
def rotl (q : Lane) (n : Nat) : Lane := (q <<< n) ^^^ (q >>> (64 - n))

/-- `A[i]`. [src/lib/sha3.c:110] -/
def at_ (A : Lanes) (i : Nat) : Lane := A.getD i 0

/-- `keccak_round_constants` (src/lib/sha3.c:62-75). -/
def rc : List Lane :=
  [0x0000000000000001, 0x0000000000008082, 0x800000000000808A, 0x8000000080008000, 0x000000000000808B, 0x0000000080000001, 0x8000000080008081, 0x8000000000008009,
   0x000000000000008A, 0x0000000000000088, 0x0000000080008009, 0x000000008000000A, 0x000000008000808B, 0x800000000000008B, 0x8000000000008089, 0x8000000000008003,
   0x8000000000008002, 0x8000000000000080, 0x000000000000800A, 0x800000008000000A, 0x8000000080008081, 0x8000000000008080, 0x0000000080000001, 0x8000000080008008]

/-- `keccak_theta` (src/lib/sha3.c:107-129). -/
def theta (A : Lanes) : Lanes :=
  let C (x : Nat) := at_ A x ^^^ at_ A (x + 5) ^^^ at_ A (x + 10) ^^^ at_ A (x + 15) ^^^ at_ A (x + 20)
  let c0 := C 0
  let c1 := C 1
  let c2 := C 2
  let c3 := C 3
  let c4 := C 4
  let D := [rotl c1 1 ^^^ c4, rotl c2 1 ^^^ c0, rotl c3 1 ^^^ c1, rotl c4 1 ^^^ c2, rotl c0 1 ^^^ c3]
  (List.range 25).map (fun i => at_ A i ^^^ at_ D (i % 5))

/-- The rotations in `rhash_sha3_permutation` (src/lib/sha3.c:181-205). -/
def rho (A : Lanes) : Lanes :=
  let r := [0, 1, 62, 28, 27, 36, 44, 6, 55, 20, 3, 10, 43, 25, 39, 41, 45, 15, 21, 8, 18, 2, 61, 56, 14]
  at_ A 0 :: ((List.range 24).map (fun i => rotl (at_ A (i + 1)) (r.getD (i + 1) 0)))

/-- The assignments of `keccak_pi` (src/lib/sha3.c:134-158): the position written and the position read, in order; the last reads the saved `A[1]`. -/
def piMoves : List (Nat × Nat) :=
  [(1, 6), (6, 9), (9, 22), (22, 14), (14, 20), (20, 2), (2, 12), (12, 13), (13, 19), (19, 23), (23, 15), (15, 4), (4, 24), (24, 21), (21, 8), (8, 16), (16, 5), (5, 3), (3, 18), (18, 17),
   (17, 11), (11, 7), (7, 10)]

/-- `keccak_pi` (src/lib/sha3.c:131-160). -/
def pi (A : Lanes) : Lanes := (piMoves.foldl (fun (B : Lanes) m => B.set m.1 (at_ B m.2)) A).set 10 (at_ A 1)

/-- The body of the loop of `keccak_chi` (src/lib/sha3.c:166-172): the assignments are in place, with the old values of the first two lanes saved. -/
def chiRow (A : Lanes) (i : Nat) : Lanes :=
  let a0 := at_ A (0 + i)
  let a1 := at_ A (1 + i)
  let A := A.set (0 + i) (at_ A (0 + i) ^^^ (~~~ a1 &&& at_ A (2 + i)))
  let A := A.set (1 + i) (at_ A (1 + i) ^^^ (~~~ (at_ A (2 + i)) &&& at_ A (3 + i)))
  let A := A.set (2 + i) (at_ A (2 + i) ^^^ (~~~ (at_ A (3 + i)) &&& at_ A (4 + i)))
  let A := A.set (3 + i) (at_ A (3 + i) ^^^ (~~~ (at_ A (4 + i)) &&& a0))
  A.set (4 + i) (at_ A (4 + i) ^^^ (~~~ a0 &&& a1))

/-- `keccak_chi` (src/lib/sha3.c:162-174). -/
def chi (A : Lanes) : Lanes := [0, 5, 10, 15, 20].foldl chiRow A

/-- One round (src/lib/sha3.c:180-212). -/
def round (A : Lanes) (r : Nat) : Lanes :=
  let A := chi (pi (rho (theta A)))
  A.set 0 (at_ A 0 ^^^ rc.getD r 0)

/-- `rhash_sha3_permutation` (src/lib/sha3.c:176-213). -/
def permutation (A : Lanes) : Lanes := (List.range 24).foldl round A

/-- `htole64(block[i])` (src/lib/sha3.c:220): the little-endian value of eight bytes, whatever the host. -/
def word (block : List UInt8) (i : Nat) : Lane :=
  let b (k : Nat) : Lane := (block.getD (8 * i + k) 0).toBitVec.setWidth 64
  b 0 ||| b 1 <<< 8 ||| b 2 <<< 16 ||| b 3 <<< 24 ||| b 4 <<< 32 ||| b 5 <<< 40 ||| b 6 <<< 48 ||| b 7 <<< 56

/-- How many lanes `rhash_sha3_process_block` mixes in (src/lib/sha3.c:219-256). -/
def lanesOf (bs : Nat) : Nat := if bs > 136 then 18 else if bs > 104 then 17 else if bs > 72 then 13 else 9

/-- `rhash_sha3_process_block` (src/lib/sha3.c:215-259). -/
def process (hash : Lanes) (block : List UInt8) (bs : Nat) : Lanes :=
  permutation ((List.range (lanesOf bs)).foldl (fun (h : Lanes) i => h.set i (at_ h i ^^^ word block i)) hash)

/-- `struct sha3_ctx` (include/ouroboros/sha3.h:58-67); `final` is the flag `SHA3_FINALIZED` in `rest`. -/
structure Ctx where
  hash : Lanes
  message : List UInt8
  rest : Nat
  final : Bool
  bs : Nat

/-- `rhash_keccak_init` (src/lib/sha3.c:77-86). -/
def init (bits : Nat) : Ctx := ⟨List.replicate 25 0, List.replicate 192 0, 0, false, (1600 - bits * 2) / 8⟩

/-- `memcpy` into the buffer at an offset. [src/lib/sha3.c:278] -/
def copy (buf : List UInt8) (at_ : Nat) (src : List UInt8) : List UInt8 := buf.take at_ ++ src ++ buf.drop (at_ + src.length)

/-- The loop over the full blocks and the rest (src/lib/sha3.c:288-311). -/
def blocks (aligned : Bool) (c : Ctx) (msg : List UInt8) : Ctx :=
  if _h : c.bs ≤ msg.length ∧ 0 < c.bs then
    if aligned then blocks aligned { c with hash := process c.hash (msg.take c.bs) c.bs } (msg.drop c.bs)
    else
      let m := copy c.message 0 (msg.take c.bs)
      blocks aligned { c with message := m, hash := process c.hash m c.bs } (msg.drop c.bs)
  else if msg.length ≠ 0 then { c with message := copy c.message 0 msg } else c
termination_by msg.length
decreasing_by all_goals simp only [List.length_drop]; omega

/-- `rhash_sha3_update` (src/lib/sha3.c:265-312). -/
def update (c : Ctx) (aligned : Bool) (msg : List UInt8) : Ctx :=
  if c.final then c
  else
    let idx := c.rest
    let c := { c with rest := (c.rest + msg.length) % c.bs }
    if idx ≠ 0 then
      let left := c.bs - idx
      let c := { c with message := copy c.message idx (msg.take (min msg.length left)) }
      if msg.length < left then c
      else blocks aligned { c with hash := process c.hash c.message c.bs } (msg.drop left)
    else blocks aligned c msg

/-- Byte `k` of a word in memory, after `htole64` if `conv` (src/lib/sha3.c:338-341). -/
def byteOf (big conv : Bool) (w : Lane) (k : Nat) : UInt8 := if big && !conv then UInt8.ofBitVec ((w >>> (8 * (7 - k))).setWidth 8) else UInt8.ofBitVec ((w >>> (8 * k)).setWidth 8)

/-- `|=` on a byte of the buffer. [src/lib/sha3.c:327] -/
def orAt (buf : List UInt8) (i : Nat) (b : UInt8) : List UInt8 := buf.set i (buf.getD i 0 ||| b)

/-- `rhash_sha3_final` (src/lib/sha3.c:314-342), called once. -/
def final (big : Bool) (c : Ctx) : List UInt8 :=
  let len := 100 - c.bs / 2
  let words := len / 8
  let hash := if c.final then c.hash else
    let m := copy c.message c.rest (List.replicate (c.bs - c.rest) 0)
    let m := orAt m c.rest 0x06
    let m := orAt m (c.bs - 1) 0x80
    process c.hash m c.bs
  (List.range len).map (fun j => byteOf big (j / 8 < words) (at_ hash (j / 8)) (j % 8))

/-- `mem_hash` with one of the SHA-3 functions (src/lib/hash.c:98-117), for pieces: several updates, each with its alignment. -/
def digest (big : Bool) (bits : Nat) (pieces : List (Bool × List UInt8)) : List UInt8 :=
  final big (pieces.foldl (fun c p => update c p.1 p.2) (init bits))

end Ouro.Sha3
