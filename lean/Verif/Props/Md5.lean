import Verif.Proof.Md5

/-!
# C07, C60: MD5
-/

namespace Ouro.Md5

/-- C60 for MD5: the digest is that of RFC 1321. For pieces that fit in the blocks as `le32_copy` fills them, with the rounded up number of bytes of every piece readable, the digest is the one that the RFC defines
for the concatenation of the pieces. It depends neither on what was in the memory of the context, nor on the bytes behind the pieces. It does not hold for all ways to split a message, nor without the readable bytes. -/
theorem C60_md5_is_rfc1321_partial (junk : List UInt8) (hj : junk.length = 64) (pieces : List (List UInt8 × List UInt8)) (hf : fits 0 pieces) (hr : ∀ p ∈ pieces, 4 * ((p.1.length + 3) / 4) ≤ p.1.length + p.2.length) :
    digest junk pieces = .ok (Rfc.md5 (pieces.flatMap (·.1))) := by
  obtain ⟨d, d1, d2⟩ := inv_updates pieces (inv_init junk hj) hf hr
  rw [List.nil_append] at d2
  unfold digest
  rw [d1]
  simp only [Outcome.bind_ok]
  rw [final_spec d2]

/-- C60 for MD5, in one piece, as `mem_hash` does: with three readable bytes behind it, every message has the digest of RFC 1321. -/
theorem C60_md5_one_piece (junk : List UInt8) (hj : junk.length = 64) (msg behind : List UInt8) (hr : 4 * ((msg.length + 3) / 4) ≤ msg.length + behind.length) : digest junk [(msg, behind)] = .ok (Rfc.md5 msg) := by
  have := C60_md5_is_rfc1321_partial junk hj [(msg, behind)] ⟨Or.inl rfl, trivial⟩ (by simpa using hr)
  simpa using this

/-- C07 for MD5: hashing a message in pieces gives the digest of hashing it at once, if all pieces but the last have a multiple of four bytes. -/
theorem C07_md5_pieces_partial (junk junk' : List UInt8) (hj : junk.length = 64) (hj' : junk'.length = 64) (pieces : List (List UInt8)) (last behind : List UInt8)
    (h4 : ∀ p ∈ pieces, p.length % 4 = 0) (hr : 3 ≤ behind.length) :
    digest junk (pieces.map (fun p => (p, [])) ++ [(last, behind)]) = digest junk' [(pieces.flatten ++ last, behind)] := by
  have hfit : ∀ (ps : List (List UInt8)) (n : Nat), n % 4 = 0 → (∀ p ∈ ps, p.length % 4 = 0) → fits n (ps.map (fun p => (p, [])) ++ [(last, behind)]) := by
    intro ps
    induction ps with
    | nil => intro n hn _; exact ⟨Or.inl hn, trivial⟩
    | cons p ps ih =>
      intro n hn hp
      have := hp p List.mem_cons_self
      exact ⟨Or.inl hn, ih _ (by simp only; omega) (fun q hq => hp q (List.mem_cons_of_mem _ hq))⟩
  rw [C60_md5_one_piece junk' hj' _ _ (by omega), C60_md5_is_rfc1321_partial junk hj _ (hfit pieces 0 rfl h4)]
  · congr 2
    simp [List.flatMap_append, List.flatMap_map, List.flatMap_id']
  · intro p hp
    rcases List.mem_append.1 hp with hp | hp
    · obtain ⟨q, hq, rfl⟩ := List.mem_map.1 hp
      have := h4 q hq
      simp only [List.length_nil]
      omega
    · rw [List.mem_singleton] at hp
      subst hp
      simp only
      omega

/-- A message of more than a block in two pieces. -/
example : ∃ d, digest (List.replicate 64 7) [(List.replicate 60 1, []), ([2, 3, 4, 5, 6, 7, 8], [9])] = .ok d ∧ d = Rfc.md5 (List.replicate 60 1 ++ [2, 3, 4, 5, 6, 7, 8]) :=
  ⟨_, C60_md5_is_rfc1321_partial _ (by decide) _ ⟨Or.inl rfl, Or.inl rfl, trivial⟩ (by decide), by decide +kernel⟩

/-- The digest of "abc" that RFC 1321 gives (A.5). -/
example : digest (List.replicate 64 7) [([97, 98, 99], [1, 2, 3])] = .ok [0x90, 0x01, 0x50, 0x98, 0x3c, 0xd2, 0x4f, 0xb0, 0xd6, 0x96, 0x3f, 0x7d, 0x28, 0xe1, 0x7f, 0x72] := by decide +kernel

/-- C07 for MD5 does not hold for all pieces: 61 bytes and then one byte. The copy of the second piece writes four bytes, the last of them over the length of the message, so that the digest differs from that of the 62 bytes. -/
theorem C07_md5_pieces_violated : ∃ p q behind : List UInt8, 3 ≤ behind.length ∧
    digest (List.replicate 64 0) [(p, behind), (q, behind)] ≠ digest (List.replicate 64 0) [(p ++ q, behind)] ∧ digest (List.replicate 64 0) [(p, behind), (q, behind)] ≠ .ub :=
  ⟨List.replicate 61 1, [2], [3, 4, 5], by decide +kernel⟩

/-- C07 for MD5: a message whose length is not a multiple of four is read past its end. -/
theorem C07_md5_overread_violated (junk : List UInt8) (hj : junk.length = 64) (b : UInt8) : digest junk [([b], [])] = .ub := by
  have h0 : length (init junk) = 0 := by
    rw [length_eq (n := 0)]
    · rfl
    · exact (inv_init junk hj).count
  have : update (init junk) [b] [] = .ub := by
    unfold update
    simp only [h0, Nat.zero_mod, ne_eq, not_true_eq_false, if_false]
    rw [blocks, dif_neg (by simp), if_pos (by simp)]
    unfold le32copy
    rw [if_pos (by simp)]
  unfold digest
  rw [List.foldlM_cons, this]
  rfl

end Ouro.Md5
