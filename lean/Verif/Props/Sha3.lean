import Verif.Proof.Sha3Stream

/-!
# C07, C60: SHA-3
-/

namespace Ouro.Sha3

/-- C60: the digest is that of FIPS 202. The bits of the bytes that the code returns for SHA3-224, -256, -384 and -512 are those that the standard defines for the concatenation of all the pieces that it was updated with, however the message is split and wherever the pieces are in memory; on a big endian host this does not hold for SHA3-224. -/
theorem C60_sha3_is_fips202_partial (big : Bool) (bits : Nat) (hb : Fips.isSha3 bits) (he : big = false ∨ bits ≠ 224) (pieces : List (Bool × List UInt8)) :
    Fips.bits (digest big bits pieces) = Fips.sha3 bits (Fips.bits (pieces.flatMap (·.2))) ∧ (digest big bits pieces).length = bits / 8 := by
  have h := digest_bits big hb he pieces
  refine ⟨h, ?_⟩
  have hl := congrArg List.length h
  rw [bits_length, Fips.sha3, Fips.sponge, List.length_map, List.length_range] at hl
  omega

/-- C07 for SHA-3: hashing a message in pieces, of any sizes and at any alignments, gives the digest of hashing it at once. -/
theorem C07_sha3_pieces (big : Bool) (bits : Nat) (hb : Fips.isSha3 bits) (pieces : List (Bool × List UInt8)) (aligned : Bool) :
    digest big bits pieces = digest big bits [(aligned, pieces.flatMap (·.2))] :=
  digest_pieces big hb _ _ (by simp)

/-- The digests of the empty message, as published. -/
example : digest false 256 [] = [0xa7, 0xff, 0xc6, 0xf8, 0xbf, 0x1e, 0xd7, 0x66, 0x51, 0xc1, 0x47, 0x56, 0xa0, 0x61, 0xd6, 0x62, 0xf5, 0x80, 0xff, 0x4d, 0xe4, 0x3b, 0x49, 0xfa, 0x82, 0xd8, 0x0a, 0x4b, 0x80, 0xf8, 0x43, 0x4a] := by
  decide +kernel

/-- A message in two pieces, the second one not aligned. -/
example : digest false 256 [(true, [97]), (false, [98, 99])] = digest true 256 [(false, [97, 98, 99])] := by decide +kernel

/-- C60 on big endian hosts: the length of a SHA3-224 digest is not a multiple of eight bytes, so that its last word is not converted, and the last four bytes are not those of the standard. -/
theorem C60_big_endian_violated : ∃ M : List UInt8, Fips.bits (digest true 224 [(true, M)]) ≠ Fips.sha3 224 (Fips.bits M) := by
  refine ⟨[], ?_⟩
  have h := (C60_sha3_is_fips202_partial false 224 (Or.inl rfl) (Or.inl rfl) [(true, [])]).1
  have e : ([(true, ([] : List UInt8))]).flatMap (·.2) = [] := rfl
  rw [e] at h
  rw [← h]
  decide +kernel

end Ouro.Sha3
