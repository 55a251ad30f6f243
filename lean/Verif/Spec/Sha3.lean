import Mathlib.Logic.Function.Iterate

/-!
# SHA-3 as in the standard (FIPS 202), on strings of bits

The algorithms of FIPS 202, in its own terms: a state is `A[x, y, z]`, with `x, y < 5` and `z < 64`; a string `S` of 1600 bits is the state `A[x, y, z] = S[64 (5 y + x) + z]`.
-/

namespace Ouro.Sha3.Fips

/-- A state array (3.1). -/
abbrev State := Nat → Nat → Nat → Bool

/-- The parity of a column (3.2.1). -/
def column (A : State) (x z : Nat) : Bool := ((((A x 0 z) ^^ (A x 1 z)) ^^ (A x 2 z)) ^^ (A x 3 z)) ^^ (A x 4 z)

/-- θ (3.2.1). -/
def theta (A : State) : State := fun x y z => A x y z ^^ (column A ((x + 4) % 5) z ^^ column A ((x + 1) % 5) ((z + 63) % 64))

/-- The lanes in the order of ρ (3.2.2): (1, 0), and then (y, (2x + 3y) mod 5). -/
def walk : Nat → Nat × Nat
  | 0 => (1, 0)
  | t + 1 => ((walk t).2, (2 * (walk t).1 + 3 * (walk t).2) % 5)

/-- The offset of a lane (3.2.2). -/
def offset (x y : Nat) : Nat := match (List.range 24).find? (fun t => walk t = (x, y)) with
  | some t => (t + 1) * (t + 2) / 2
  | none => 0

/-- ρ (3.2.2). -/
def rho (A : State) : State := fun x y z => A x y (((z : Int) - (offset x y : Int)) % 64).toNat

/-- π (3.2.3). -/
def pi (A : State) : State := fun x y z => A ((x + 3 * y) % 5) x z

/-- χ (3.2.4). -/
def chi (A : State) : State := fun x y z => A x y z ^^ ((!A ((x + 1) % 5) y z) && A ((x + 2) % 5) y z)

/-- One step of the shift register in Algorithm 5 (3.2.5): prepend a zero, add the ninth bit to bits 0, 4, 5 and 6, drop it. -/
def shift (R : List Bool) : List Bool :=
  let R := false :: R
  let b := R.getD 8 false
  let R := R.set 0 (R.getD 0 false ^^ b)
  let R := R.set 4 (R.getD 4 false ^^ b)
  let R := R.set 5 (R.getD 5 false ^^ b)
  let R := R.set 6 (R.getD 6 false ^^ b)
  R.take 8

/-- `rc(t)`, Algorithm 5 (3.2.5). -/
def rc (t : Nat) : Bool := (Nat.iterate shift (t % 255) [true, false, false, false, false, false, false, false]).getD 0 false

/-- The round constant (3.2.5): bit `2^j - 1` is `rc(j + 7 ir)`, for `j` from 0 to 6. -/
def RC (ir z : Nat) : Bool := match (List.range 7).find? (fun j => z = 2 ^ j - 1) with
  | some j => rc (j + 7 * ir)
  | none => false

/-- ι (3.2.5). -/
def iota (ir : Nat) (A : State) : State := fun x y z => if x = 0 ∧ y = 0 then A x y z ^^ RC ir z else A x y z

/-- A round (3.3). -/
def round (A : State) (ir : Nat) : State := iota ir (chi (pi (rho (theta A))))

/-- KECCAK-p[1600, 24] (3.3). -/
def keccak (A : State) : State := (List.range 24).foldl round A

/-- Adding the string `P ‖ 0^c` to a state. -/
def add (A : State) (P : List Bool) : State := fun x y z => A x y z ^^ P.getD (64 * (5 * y + x) + z) false

/-- The absorbing phase of the sponge construction (4, Algorithm 8): for every block of `r` bits. -/
def absorb (r : Nat) (A : State) (P : List Bool) : State :=
  if _h : r ≤ P.length ∧ 0 < r then absorb r (keccak (add A (P.take r))) (P.drop r) else A
termination_by P.length
decreasing_by simp only [List.length_drop]; omega

/-- `pad10*1(x, m)` (5.1, Algorithm 9). -/
def pad (x m : Nat) : List Bool := [true] ++ List.replicate ((-(m : Int) - 2) % (x : Int)).toNat false ++ [true]

/-- `SPONGE[KECCAK-p[1600, 24], pad10*1, r](N, d)` for `d ≤ r` (4, Algorithm 8). -/
def sponge (r : Nat) (N : List Bool) (d : Nat) : List Bool :=
  let A := absorb r (fun _ _ _ => false) (N ++ pad r N.length)
  (List.range d).map (fun i => A (i / 64 % 5) (i / 64 / 5) (i % 64))

/-- `SHA3-d(M) = KECCAK[2d](M ‖ 01, d)` (6.1 and 5.2). -/
def sha3 (d : Nat) (M : List Bool) : List Bool := sponge (1600 - 2 * d) (M ++ [false, true]) d

/-- The bits of bytes, lowest first (B.1). -/
def bits (l : List UInt8) : List Bool := l.flatMap (fun b => (List.range 8).map (fun k => b.toNat.testBit k))

/-- The sizes, in bits, of the SHA-3 digests (6.1). -/
def isSha3 (bits : Nat) : Prop := bits = 224 ∨ bits = 256 ∨ bits = 384 ∨ bits = 512

end Ouro.Sha3.Fips
