import Verif.Model.Base

/-!
# Model of MD5 (src/lib/md5.c)

Everything. The first 72 bytes of the context are memory: the 64 bytes of `message` and, behind them, the 8 bytes of `length`, because `le32_copy` can write past `message`.
A message that is hashed is the bytes and the readable memory behind them, because `le32_copy` can read past the message; if it reads past what is readable that is undefined behaviour.
The host is little endian. The undefined behaviour of a misaligned access, and of an access to `length` as a 32-bit word, is not modelled: such accesses do what the processor does. Neither is that of `0x80 << 24`.
-/

namespace Ouro.Md5

/-- `uint32_t`. [include/ouroboros/md5.h:60] -/
abbrev Word := BitVec 32

/-- `ROTL32` (src/lib/md5.c:53). -/
def rotl (w : Word) (n : Nat) : Word := (w <<< n) ^^^ (w >>> (32 - n))

/-- `MD5_F`, `MD5_G`, `MD5_H` and `MD5_I` (src/lib/md5.c:66-69). -/
def fn (round : Nat) (x y z : Word) : Word := match round with
  | 1 => ((y ^^^ z) &&& x) ^^^ z
  | 2 => (x &&& z) ||| (y &&& ~~~ z)
  | 3 => (x ^^^ y) ^^^ z
  | _ => y ^^^ (x ||| ~~~ z)

/-- A line of `rhash_md5_process_block`: the round, the register that is assigned (0 for `a` to 3 for `d`; the other three are the next ones, cyclically), the word of the block, the rotation, the constant. [src/lib/md5.c:117] -/
structure Line where
  round : Nat
  a : Nat
  x : Nat
  s : Nat
  ac : Word

/-- The lines of `rhash_md5_process_block` (src/lib/md5.c:117-183). -/
def lines : List Line :=
  [⟨1, 0, 0, 7, 0xd76aa478⟩, ⟨1, 3, 1, 12, 0xe8c7b756⟩, ⟨1, 2, 2, 17, 0x242070db⟩, ⟨1, 1, 3, 22, 0xc1bdceee⟩,
   ⟨1, 0, 4, 7, 0xf57c0faf⟩, ⟨1, 3, 5, 12, 0x4787c62a⟩, ⟨1, 2, 6, 17, 0xa8304613⟩, ⟨1, 1, 7, 22, 0xfd469501⟩,
   ⟨1, 0, 8, 7, 0x698098d8⟩, ⟨1, 3, 9, 12, 0x8b44f7af⟩, ⟨1, 2, 10, 17, 0xffff5bb1⟩, ⟨1, 1, 11, 22, 0x895cd7be⟩,
   ⟨1, 0, 12, 7, 0x6b901122⟩, ⟨1, 3, 13, 12, 0xfd987193⟩, ⟨1, 2, 14, 17, 0xa679438e⟩, ⟨1, 1, 15, 22, 0x49b40821⟩,
   ⟨2, 0, 1, 5, 0xf61e2562⟩, ⟨2, 3, 6, 9, 0xc040b340⟩, ⟨2, 2, 11, 14, 0x265e5a51⟩, ⟨2, 1, 0, 20, 0xe9b6c7aa⟩,
   ⟨2, 0, 5, 5, 0xd62f105d⟩, ⟨2, 3, 10, 9, 0x02441453⟩, ⟨2, 2, 15, 14, 0xd8a1e681⟩, ⟨2, 1, 4, 20, 0xe7d3fbc8⟩,
   ⟨2, 0, 9, 5, 0x21e1cde6⟩, ⟨2, 3, 14, 9, 0xc33707d6⟩, ⟨2, 2, 3, 14, 0xf4d50d87⟩, ⟨2, 1, 8, 20, 0x455a14ed⟩,
   ⟨2, 0, 13, 5, 0xa9e3e905⟩, ⟨2, 3, 2, 9, 0xfcefa3f8⟩, ⟨2, 2, 7, 14, 0x676f02d9⟩, ⟨2, 1, 12, 20, 0x8d2a4c8a⟩,
   ⟨3, 0, 5, 4, 0xfffa3942⟩, ⟨3, 3, 8, 11, 0x8771f681⟩, ⟨3, 2, 11, 16, 0x6d9d6122⟩, ⟨3, 1, 14, 23, 0xfde5380c⟩,
   ⟨3, 0, 1, 4, 0xa4beea44⟩, ⟨3, 3, 4, 11, 0x4bdecfa9⟩, ⟨3, 2, 7, 16, 0xf6bb4b60⟩, ⟨3, 1, 10, 23, 0xbebfbc70⟩,
   ⟨3, 0, 13, 4, 0x289b7ec6⟩, ⟨3, 3, 0, 11, 0xeaa127fa⟩, ⟨3, 2, 3, 16, 0xd4ef3085⟩, ⟨3, 1, 6, 23, 0x04881d05⟩,
   ⟨3, 0, 9, 4, 0xd9d4d039⟩, ⟨3, 3, 12, 11, 0xe6db99e5⟩, ⟨3, 2, 15, 16, 0x1fa27cf8⟩, ⟨3, 1, 2, 23, 0xc4ac5665⟩,
   ⟨4, 0, 0, 6, 0xf4292244⟩, ⟨4, 3, 7, 10, 0x432aff97⟩, ⟨4, 2, 14, 15, 0xab9423a7⟩, ⟨4, 1, 5, 21, 0xfc93a039⟩,
   ⟨4, 0, 12, 6, 0x655b59c3⟩, ⟨4, 3, 3, 10, 0x8f0ccc92⟩, ⟨4, 2, 10, 15, 0xffeff47d⟩, ⟨4, 1, 1, 21, 0x85845dd1⟩,
   ⟨4, 0, 8, 6, 0x6fa87e4f⟩, ⟨4, 3, 15, 10, 0xfe2ce6e0⟩, ⟨4, 2, 6, 15, 0xa3014314⟩, ⟨4, 1, 13, 21, 0x4e0811a1⟩,
   ⟨4, 0, 4, 6, 0xf7537e82⟩, ⟨4, 3, 11, 10, 0xbd3af235⟩, ⟨4, 2, 2, 15, 0x2ad7d2bb⟩, ⟨4, 1, 9, 21, 0xeb86d391⟩]

/-- `MD5_ROUND1` to `MD5_ROUND4` (src/lib/md5.c:72-94), on the registers. -/
def line (x : List Word) (r : List Word) (l : Line) : List Word :=
  let b := r.getD ((l.a + 1) % 4) 0
  let a := r.getD l.a 0 + (fn l.round b (r.getD ((l.a + 2) % 4) 0) (r.getD ((l.a + 3) % 4) 0) + x.getD l.x 0 + l.ac)
  let a := rotl a l.s
  r.set l.a (a + b)

/-- `rhash_md5_process_block` (src/lib/md5.c:109-189). -/
def process (state x : List Word) : List Word :=
  let r := lines.foldl (line x) [state.getD 0 0, state.getD 1 0, state.getD 2 0, state.getD 3 0]
  (List.range 4).map (fun i => state.getD i 0 + r.getD i 0)

/-- `struct md5_ctx` (include/ouroboros/md5.h:57-65): the bytes of `message` and `length`, and `hash`. -/
structure Ctx where
  mem : List UInt8
  hash : List Word

/-- The 32-bit word at a position in memory. [src/lib/md5.c:110] -/
def word (mem : List UInt8) (i : Nat) : Word :=
  (mem.getD (4 * i + 3) 0).toBitVec ++ (mem.getD (4 * i + 2) 0).toBitVec ++ (mem.getD (4 * i + 1) 0).toBitVec ++ (mem.getD (4 * i) 0).toBitVec

/-- The words of `message`. [src/lib/md5.c:211] -/
def words (mem : List UInt8) : List Word := (List.range 16).map (word mem)

/-- The bytes of a 64-bit number in memory. [include/ouroboros/md5.h:62] -/
def bytes64 (n : Nat) : List UInt8 := (List.range 8).map (fun k => UInt8.ofNat (n / 2 ^ (8 * k)))

/-- `ctx->length`. [src/lib/md5.c:196] -/
def length (c : Ctx) : Nat := ((c.mem.drop 64).zipIdx.map (fun p => p.1.toNat * 2 ^ (8 * p.2))).sum

/-- Assign `ctx->length`. [src/lib/md5.c:198] -/
def setLength (c : Ctx) (n : Nat) : Ctx := { c with mem := c.mem.take 64 ++ bytes64 n }

/-- `rhash_md5_init` (src/lib/md5.c:55-64); `message` keeps what was in that memory. -/
def init (junk : List UInt8) : Ctx := ⟨junk ++ bytes64 0, [0x67452301, 0xefcdab89, 0x98badcfe, 0x10325476]⟩

/-- `le32_copy` to the context (src/lib/md5.c:96-107): whole words, so that the number of bytes is rounded up; `src` is the readable memory. -/
def le32copy (c : Ctx) (index : Nat) (src : List UInt8) (n : Nat) : Outcome Ctx :=
  if src.length < 4 * ((n + 3) / 4) then .ub
  else .ok { c with mem := c.mem.take index ++ src.take (4 * ((n + 3) / 4)) ++ c.mem.drop (index + 4 * ((n + 3) / 4)) }

/-- The loop over the full blocks and the rest in `rhash_md5_update` (src/lib/md5.c:216-229). -/
def blocks (c : Ctx) (msg behind : List UInt8) : Outcome Ctx :=
  if _h : 64 ≤ msg.length then do
    let c ← le32copy c 0 (msg ++ behind) 64
    blocks { c with hash := process c.hash (words c.mem) } (msg.drop 64) behind
  else if msg.length ≠ 0 then le32copy c 0 (msg ++ behind) msg.length else .ok c
termination_by msg.length
decreasing_by simp only [List.length_drop]; omega

/-- `rhash_md5_update` (src/lib/md5.c:191-230). -/
def update (c : Ctx) (msg behind : List UInt8) : Outcome Ctx :=
  let index := length c % 64
  let c := setLength c (length c + msg.length)
  if index ≠ 0 then do
    let left := 64 - index
    let c ← le32copy c index (msg ++ behind) (if msg.length < left then msg.length else left)
    if msg.length < left then .ok c
    else blocks { c with hash := process c.hash (words c.mem) } (msg.drop left) behind
  else blocks c msg behind

/-- Set the words from `i` up to `n` to 0 (src/lib/md5.c:242-243, 249-250). -/
def zero (w : List Word) (i n : Nat) : List Word := (List.range' i (n - i)).foldl (fun w i => w.set i 0) w

/-- `rhash_md5_final` (src/lib/md5.c:232-258). -/
def final (c : Ctx) : List UInt8 :=
  let len := length c
  let index := len % 64 / 4
  let shift := len % 4 * 8
  let w := words c.mem
  let w := w.set index (w.getD index 0 &&& ~~~ ((0xFFFFFFFF : Word) <<< shift))
  let w := w.set index (w.getD index 0 ^^^ ((0x80 : Word) <<< shift))
  let index := index + 1
  let p := if 14 < index then (process c.hash (zero w index 16), zero w index 16, 0) else (c.hash, w, index)
  let w := zero p.2.1 p.2.2 14
  let w := w.set 14 (BitVec.ofNat 32 (len * 8))
  let w := w.set 15 (BitVec.ofNat 32 (len / 2 ^ 29))
  let h := process p.1 w
  (List.range 16).map (fun j => UInt8.ofBitVec (((h.getD (j / 4) 0) >>> (8 * (j % 4))).setWidth 8))

/-- `mem_hash` with `HASH_MD5` (src/lib/hash.c:96-100), for pieces: several updates, each with the readable memory behind it. -/
def digest (junk : List UInt8) (pieces : List (List UInt8 × List UInt8)) : Outcome (List UInt8) := do
  let c ← pieces.foldlM (fun c p => update c p.1 p.2) (init junk)
  .ok (final c)

end Ouro.Md5
