import Mathlib.Logic.Function.Iterate

/-!
# MD5 as in RFC 1321
-/

namespace Ouro.Md5.Rfc

/-- The auxiliary functions F, G, H and I (3.4). -/
def aux (round : Nat) (X Y Z : BitVec 32) : BitVec 32 := match round with
  | 0 => (X &&& Y) ||| (~~~ X &&& Z)
  | 1 => (X &&& Z) ||| (Y &&& ~~~ Z)
  | 2 => X ^^^ Y ^^^ Z
  | _ => Y ^^^ (X ||| ~~~ Z)

/-- The table T (3.4): the integer part of 4294967296 times abs(sin(i)), for i from 1 to 64. -/
def T : List (BitVec 32) :=
  [0xd76aa478, 0xe8c7b756, 0x242070db, 0xc1bdceee, 0xf57c0faf, 0x4787c62a, 0xa8304613, 0xfd469501,
   0x698098d8, 0x8b44f7af, 0xffff5bb1, 0x895cd7be, 0x6b901122, 0xfd987193, 0xa679438e, 0x49b40821,
   0xf61e2562, 0xc040b340, 0x265e5a51, 0xe9b6c7aa, 0xd62f105d, 0x02441453, 0xd8a1e681, 0xe7d3fbc8,
   0x21e1cde6, 0xc33707d6, 0xf4d50d87, 0x455a14ed, 0xa9e3e905, 0xfcefa3f8, 0x676f02d9, 0x8d2a4c8a,
   0xfffa3942, 0x8771f681, 0x6d9d6122, 0xfde5380c, 0xa4beea44, 0x4bdecfa9, 0xf6bb4b60, 0xbebfbc70,
   0x289b7ec6, 0xeaa127fa, 0xd4ef3085, 0x04881d05, 0xd9d4d039, 0xe6db99e5, 0x1fa27cf8, 0xc4ac5665,
   0xf4292244, 0x432aff97, 0xab9423a7, 0xfc93a039, 0x655b59c3, 0x8f0ccc92, 0xffeff47d, 0x85845dd1,
   0x6fa87e4f, 0xfe2ce6e0, 0xa3014314, 0x4e0811a1, 0xf7537e82, 0xbd3af235, 0x2ad7d2bb, 0xeb86d391]

/-- Which word of the block operation `i` takes (3.4): in the four rounds `i`, `5i + 1`, `3i + 5` and `7i`, modulo 16. -/
def k (i : Nat) : Nat := match i / 16 with
  | 0 => i % 16
  | 1 => (5 * i + 1) % 16
  | 2 => (3 * i + 5) % 16
  | _ => (7 * i) % 16

/-- The shift of operation `i` (3.4). -/
def s (i : Nat) : Nat := ([[7, 12, 17, 22], [5, 9, 14, 20], [4, 11, 16, 23], [6, 10, 15, 21]].getD (i / 16) []).getD (i % 4) 0

/-- Operation `i` (3.4): `a = b + ((a + aux(b, c, d) + X[k] + T[i]) <<< s)`; the next operation has `d a b c` for `a b c d`. -/
def op (X : Nat → BitVec 32) (v : BitVec 32 × BitVec 32 × BitVec 32 × BitVec 32) (i : Nat) : BitVec 32 × BitVec 32 × BitVec 32 × BitVec 32 :=
  let (a, b, c, d) := v
  (d, b + (a + aux (i / 16) b c d + X (k i) + T.getD i 0).rotateLeft (s i), b, c)

/-- Processing a block (3.4). -/
def block (X : Nat → BitVec 32) (v : BitVec 32 × BitVec 32 × BitVec 32 × BitVec 32) : BitVec 32 × BitVec 32 × BitVec 32 × BitVec 32 :=
  let (a, b, c, d) := (List.range 64).foldl (op X) v
  (v.1 + a, v.2.1 + b, v.2.2.1 + c, v.2.2.2 + d)

/-- The words of a block (2): low-order byte first. -/
def word (M : List UInt8) (i : Nat) : BitVec 32 :=
  (M.getD (4 * i + 3) 0).toBitVec ++ (M.getD (4 * i + 2) 0).toBitVec ++ (M.getD (4 * i + 1) 0).toBitVec ++ (M.getD (4 * i) 0).toBitVec

/-- All the blocks of a message (3.4). -/
def process (v : BitVec 32 × BitVec 32 × BitVec 32 × BitVec 32) (M : List UInt8) : BitVec 32 × BitVec 32 × BitVec 32 × BitVec 32 :=
  if _h : 64 ≤ M.length then process (block (word (M.take 64)) v) (M.drop 64) else v
termination_by M.length
decreasing_by simp only [List.length_drop]; omega

/-- Padding and length (3.1, 3.2): a one bit, zeros up to 56 bytes modulo 64, the low 64 bits of the length in bits, low-order byte first. -/
def pad (M : List UInt8) : List UInt8 :=
  M ++ [0x80] ++ List.replicate ((119 - M.length % 64) % 64) 0 ++ (List.range 8).map (fun k => UInt8.ofNat (8 * M.length / 2 ^ (8 * k)))

/-- The bytes of a word, low-order byte first. -/
def bytes (w : BitVec 32) : List UInt8 := (List.range 4).map (fun k => UInt8.ofBitVec ((w >>> (8 * k)).setWidth 8))

/-- The message digest (3.3, 3.5). -/
def md5 (M : List UInt8) : List UInt8 :=
  let (A, B, C, D) := process (0x67452301, 0xefcdab89, 0x98badcfe, 0x10325476) (pad M)
  bytes A ++ bytes B ++ bytes C ++ bytes D

end Ouro.Md5.Rfc

namespace Ouro.Md5

/-- No update copies more bytes than fit in the current block: every piece starts at a multiple of four bytes, or ends, rounded up to whole words from where it starts, within its block. -/
def fits (start : Nat) : List (List UInt8 × List UInt8) → Prop
  | [] => True
  | p :: ps => (start % 4 = 0 ∨ start % 64 + 4 * ((p.1.length + 3) / 4) ≤ 64) ∧ fits (start + p.1.length) ps

end Ouro.Md5
