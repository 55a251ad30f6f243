import Verif.Proof.FlowCrypt
import Verif.Proof.FlowOneWay

/-!
# C64: flows with encryption and a CRC
-/

namespace Ouro.Crypt

open Ouro.FaMsg (beBytes)
open Ouro.Frct (Pkt)

/-- A cipher with which the hypotheses of the theorems can be met: padding only. -/
def padOnly : Cipher where
  enc _ _ p := p ++ List.replicate (16 - p.length % 16) (BitVec.ofNat 8 (16 - p.length % 16))
  dec _ _ t :=
    match t.getLast? with
    | none => none
    | some n => if t.length % 16 = 0 ∧ 0 < n.toNat ∧ n.toNat ≤ 16 then some (t.take (t.length - n.toNat)) else none

/-- The assumptions about the cipher can be met. -/
theorem padOnly_sound : padOnly.Sound where
  inv _ _ p := by
    have h : (16 - p.length % 16) ≠ 0 := by omega
    have hn : (BitVec.ofNat 8 (16 - p.length % 16)).toNat = 16 - p.length % 16 := by
      rw [BitVec.toNat_ofNat, Nat.mod_eq_of_lt (by omega)]
    simp only [padOnly, List.getLast?_append, List.getLast?_replicate, if_neg h, Option.some_or, hn]
    rw [if_pos ⟨by simp only [List.length_append, List.length_replicate]; omega, by omega, by omega⟩]
    simp
  len _ _ p := by simp only [padOnly, List.length_append, List.length_replicate]; omega
  blocks _ _ t p h := by
    simp only [padOnly] at h
    split at h
    · cases h
    · rename_i n hn
      split at h
      · rename_i h3
        cases h
        have : t ≠ [] := by rintro rfl; simp at hn
        have : t.length ≠ 0 := by simpa using this
        exact ⟨Nat.dvd_of_mod_eq_zero h3.1, by rw [List.length_take]; omega⟩
      · cases h

/-! ## Packets written -/

/-- **C64, sending.** A written packet with at least 28 bytes of space in front and 21 behind (a new packet has 256 and 32) goes out as exactly
the bytes the format says: header and data, encrypted behind a fresh initialisation vector if the flow is encrypted, then the CRC of all that if
the flow has one. -/
theorem C64_wire {c : Cipher} (S : c.Sound) (f : Fl) (hdr : Option (List Byte)) (hh : ∀ h, hdr = some h → h.length = 12) {iv : List Byte}
    (hiv : iv.length = 16) {b : Buf} {d : List Byte} {h t : Nat} (H : Holds b d h t) (hd : d ≠ []) (h1 : 28 ≤ h) (h2 : 21 ≤ t) :
    ∃ b' x h' t', tx c f hdr iv true b = .ok (b', x, 0) ∧ Holds b' (onWire c f iv (contents hdr d)) h' t' := by
  obtain ⟨pre, post, e, rfl, rfl, hs⟩ := H.eq
  obtain ⟨p, q, o, r, e1, e2, _⟩ := tx_ok S f hh hiv (s := b.sdb) hs hd h1 h2
  rw [← e] at e1
  exact ⟨_, _, _, _, e1, holds_B e2⟩

/-- **C64, receiving.** A received packet is taken exactly if it is not empty, its CRC is right (if the flow has one) and it decrypts (if the flow
is encrypted), and what is taken is what the format says. (On a flow with a CRC, packets of 1 to 3 bytes are excepted: `C64_short_violated`.) -/
theorem C64_receive_partial {c : Cipher} (S : c.Sound) (f : Fl) {b : Buf} {w : List Byte} {h t : Nat} (H : Holds b w h t)
    (hw : f.crc = true → w = [] ∨ 4 ≤ w.length) :
    match accepted c f w with
    | none => rx c f true b = .ok none
    | some p => ∃ b' h' t', rx c f true b = .ok (some b') ∧ Holds b' p h' t' := by
  obtain ⟨pre, post, e, rfl, rfl, hs⟩ := H.eq
  have := rx_char S f (s := b.sdb) hs hw
  rw [← e] at this
  split
  · rename_i hn; rw [hn] at this; exact this
  · rename_i p hp
    rw [hp] at this
    obtain ⟨p1, p2, e1, e2⟩ := this
    exact ⟨_, _, _, e1, holds_B e2⟩

/-- **C64, round trip.** What the other end takes from the bytes put on the wire is exactly what was written, whatever the two buffers look like. -/
theorem C64_round_trip {c : Cipher} (S : c.Sound) (f : Fl) (hdr : Option (List Byte)) (hh : ∀ h, hdr = some h → h.length = 12) {iv : List Byte}
    (hiv : iv.length = 16) {b : Buf} {d : List Byte} {h t : Nat} (H : Holds b d h t) (hd : d ≠ []) (h1 : 28 ≤ h) (h2 : 21 ≤ t) :
    ∃ b' x w, tx c f hdr iv true b = .ok (b', x, 0) ∧ b'.data = .ok w ∧
      ∀ r h' t', Holds r w h' t' → ∃ r' h'' t'', rx c f true r = .ok (some r') ∧ Holds r' (contents hdr d) h'' t'' := by
  obtain ⟨pre, post, e, rfl, rfl, hs⟩ := H.eq
  obtain ⟨p, q, o, r, e1, e2, _⟩ := tx_ok S f hh hiv (s := b.sdb) hs hd h1 h2
  rw [← e] at e1
  have hc : contents hdr d ≠ [] := by unfold contents; simp [hd]
  refine ⟨_, _, onWire c f iv (contents hdr d), e1, ?_, ?_⟩
  · unfold Buf.data; rw [duLen_B e2]; exact data_B
  · intro r h' t' hr
    have := C64_receive_partial S f hr (by
      intro hcrc; right; unfold onWire; rw [if_pos hcrc]; simp)
    rw [accepted_onWire S f hiv hc] at this
    exact this

/-- A flow with CRC and encryption. -/
def secure : Fl := ⟨true, some (List.replicate 32 7#8)⟩

theorem holds_data {r : Buf} {w : List Byte} {h t : Nat} (H : Holds r w h t) : r.data = .ok w := by
  obtain ⟨pre, post, e, _, _, hs⟩ := H.eq
  rw [e]; unfold Buf.data; rw [duLen_B hs]; exact data_B

theorem holds_fresh {h d t : List Byte} (hs : h.length + d.length + t.length < 2 ^ 62) : Holds (fresh h d t) d h.length t.length :=
  ⟨h, t, rfl, rfl, rfl, rfl, rfl, rfl, hs⟩

example (h t : List Byte) (hh : h.length = 256) (ht : t.length = 32) : ∃ b' x w, tx padOnly secure (some (List.replicate 12 1#8))
    (List.replicate 16 9#8) true (fresh h [1#8, 2#8, 3#8] t) = .ok (b', x, 0) ∧ b'.data = .ok w ∧ w.length = 16 + 16 + 4 := by
  obtain ⟨b', x, h', t', e1, e2⟩ := C64_wire padOnly_sound secure (some (List.replicate 12 1#8)) (by rintro _ ⟨⟩; rfl)
    (iv := List.replicate 16 9#8) rfl (holds_fresh (h := h) (d := [1#8, 2#8, 3#8]) (t := t) (by rw [hh, ht]; simp)) (by simp) (by omega) (by omega)
  refine ⟨b', x, _, e1, holds_data e2, ?_⟩
  simp [onWire, sealed, secure, contents, padOnly]

/-- **C64, corruption.** On a flow with a CRC, a packet whose contents were changed within any 32 consecutive bits, or whose CRC was changed, is
dropped. -/
theorem C64_corruption {c : Cipher} (S : c.Sound) {f : Fl} (hf : f.crc = true) (iv body m' x' : List Byte)
    (hx : x'.length = 4)
    (hbad : (m' = sealed c f iv body ∧ x' ≠ check (sealed c f iv body)) ∨
      (x' = check (sealed c f iv body) ∧ m' ≠ sealed c f iv body ∧ m'.length = (sealed c f iv body).length ∧
        ∃ p, ∀ i, i < p ∨ p + 32 ≤ i → (Spec.Crc.bits m')[i]? = (Spec.Crc.bits (sealed c f iv body))[i]?))
    {b : Buf} {h t : Nat} (H : Holds b (m' ++ x') h t) : rx c f true b = .ok none := by
  have key := C64_receive_partial S f H (by intro _; right; simp [hx])
  have hne : x' ≠ check m' := by
    rcases hbad with ⟨rfl, h⟩ | ⟨h1, h2, h3, p, h4⟩
    · exact h
    · intro h
      rw [h1] at h
      have := Crc32.C06_detects_bursts m' (sealed c f iv body) 0#32 p h3 h2 h4
      rw [Crc32.C06_crc32_is_standard, Crc32.C06_crc32_is_standard] at this
      apply this
      have e := congrArg FaMsg.beVal h
      unfold check at e
      rw [FaMsg.beVal_beBytes (by have := (Spec.Crc.crc (sealed c f iv body)).isLt; omega),
        FaMsg.beVal_beBytes (by have := (Spec.Crc.crc m').isLt; omega)] at e
      exact (BitVec.eq_of_toNat_eq e).symm
  have ea : accepted c f (m' ++ x') = none := by
    unfold accepted
    rw [if_pos hf]
    have e1 : (m' ++ x').length - 4 = m'.length := by simp [hx]
    rw [e1, List.take_left, List.drop_left, if_neg hne]
    simp
  rw [ea] at key
  exact key

example : ∀ b h t, Holds b ([1#8, 6#8] ++ check [1#8, 2#8]) h t → rx padOnly ⟨true, none⟩ true b = .ok none := by
  intro b h t H
  refine C64_corruption padOnly_sound (f := ⟨true, none⟩) rfl [] [1#8, 2#8] [1#8, 6#8] _ (by simp) (Or.inr ⟨rfl, by decide, rfl, 8, ?_⟩) H
  intro i hi
  have e1 : Spec.Crc.bits [1#8, 6#8] = [true, false, false, false, false, false, false, false, false, true, true, false, false, false, false, false] := by
    decide
  have e2 : Spec.Crc.bits (sealed padOnly ⟨true, none⟩ [] [1#8, 2#8]) =
      [true, false, false, false, false, false, false, false, false, true, false, false, false, false, false, false] := by decide
  rw [e1, e2]
  rcases hi with hi | hi
  · have : i = 0 ∨ i = 1 ∨ i = 2 ∨ i = 3 ∨ i = 4 ∨ i = 5 ∨ i = 6 ∨ i = 7 := by omega
    rcases this with rfl | rfl | rfl | rfl | rfl | rfl | rfl | rfl <;> rfl
  · rw [List.getElem?_eq_none (by simp; omega), List.getElem?_eq_none (by simp; omega)]

/-- **C64, failed encryption.** Encrypting a packet succeeds exactly if OpenSSL does, 16 bytes are free in front and the padding leaves a byte free
behind; otherwise it fails with `-ECRYPT` and the packet is as it was. -/
theorem C64_encrypt_fails {c : Cipher} (S : c.Sound) (crc : Bool) (k : List Byte) {iv : List Byte} (hiv : iv.length = 16) (evp : Bool) {b : Buf}
    {d : List Byte} {h t : Nat} (H : Holds b d h t) (hd : d ≠ []) :
    if evp = true ∧ 16 ≤ h ∧ (c.enc k iv d).length < d.length + t then
      ∃ b', encrypt c ⟨crc, some k⟩ iv evp b = .ok (b', 0) ∧ Holds b' (iv ++ c.enc k iv d) (h - 16) (t + d.length - (c.enc k iv d).length)
    else encrypt c ⟨crc, some k⟩ iv evp b = .ok (b, -ECRYPT) := by
  obtain ⟨pre, post, e, rfl, rfl, hs⟩ := H.eq
  have hl := enc_len S k iv d
  unfold encrypt
  dsimp only
  rw [e]
  cases evp with
  | false => simp only [Bool.false_eq_true, false_and, if_false]; exact encrypt_evp hs hd
  | true =>
    by_cases h16 : 16 ≤ pre.length
    · obtain ⟨p, x, rfl, hx⟩ := split_last h16
      by_cases ht : (c.enc k iv d).length < d.length + post.length
      · rw [if_pos ⟨rfl, h16, ht⟩]
        obtain ⟨y, q, rfl, hy⟩ := split_first (n := (c.enc k iv d).length - d.length) (post := post) (by omega)
        simp only [List.length_append] at ht
        refine ⟨_, encrypt_ok S hiv hs hx hd (by omega) (by omega), ?_⟩
        have hs' : Small p (iv ++ c.enc k iv d) q := by unfold Small at *; simp only [List.length_append] at *; omega
        have e1 : (p ++ x).length - 16 = p.length := by simp only [List.length_append]; omega
        have e2 : (y ++ q).length + d.length - (c.enc k iv d).length = q.length := by simp only [List.length_append]; omega
        rw [e1, e2]
        exact holds_B hs'
      · rw [if_neg (by tauto)]
        exact encrypt_no_tail S hs hx hd (by omega)
    · rw [if_neg (by tauto)]
      exact encrypt_no_head hs (by omega) hd

example : encrypt padOnly secure (List.replicate 16 9#8) true (fresh (List.replicate 15 0#8) [1#8] (List.replicate 32 0#8)) =
    .ok (fresh (List.replicate 15 0#8) [1#8] (List.replicate 32 0#8), -ECRYPT) := by decide +kernel

/-- A packet of 1 to 3 bytes on a flow with a CRC: the check leaves the packet. -/
theorem C64_short_violated (c : Cipher) {f : Fl} (hf : f.crc = true) {b : Buf} {w : List Byte} {h t : Nat} (H : Holds b w h t)
    (h1 : w ≠ []) (h2 : w.length < 4) : rx c f true b = .ub := by
  obtain ⟨pre, post, e, rfl, rfl, hs⟩ := H.eq
  have h1' : w.length ≠ 0 := by simpa using h1
  rw [e]
  unfold rx
  rw [duLen_B hs, if_neg h1']
  simp only [if_pos hf, chkCrc, tailRelease_ub hs (show w.length < CRCLEN from h2)]
  rfl

/-! ## Packets sent again -/

/-- What is remembered for retransmission, in terms of what is written. -/
theorem tx_again {c : Cipher} (S : c.Sound) (f : Fl) {hdr : List Byte} (hh : hdr.length = 12) {iv : List Byte}
    (hiv : iv.length = 16) {b : Buf} {d : List Byte} {h t : Nat} (H : Holds b d h t) (hd : d ≠ []) (h1 : 28 ≤ h) (h2 : 21 ≤ t) :
    ∃ b' x, tx c f (some hdr) iv true b = .ok (b', some x, 0) ∧
      ∀ ackno, sentAgain b' x ackno = .ok (withAck ((text c f iv (hdr ++ d)).take (hdr ++ d).length) ackno) := by
  obtain ⟨pre, post, e, rfl, rfl, hs⟩ := H.eq
  obtain ⟨p, q, o, r, e1, e2, e3⟩ := tx_ok S f (hdr := some hdr) (by rintro _ ⟨⟩; exact hh) hiv (s := b.sdb) hs hd h1 h2
  rw [← e] at e1
  refine ⟨_, _, e1, fun ackno => ?_⟩
  unfold sentAgain
  rw [e3]
  have hc : contents (some hdr) d = hdr ++ d := rfl
  simp only [hc]
  have hl := length_text S f iv (hdr ++ d)
  obtain ⟨u, v, huv, hu⟩ := split_first hl
  rw [huv, List.append_assoc, slice_mid rfl hu, List.take_left' hu]
  simp only [Outcome.bind_ok]
  have : 12 ≤ u.length := by rw [hu]; simp [hh]
  obtain ⟨a1, r1, rfl, ha1⟩ := split_first (n := 8) (post := u) (by omega)
  obtain ⟨a2, a3, rfl, ha2⟩ := split_first (n := 4) (post := r1) (by simp at this; omega)
  rw [patch_mid ha1 (by simp [ha2])]
  unfold withAck
  rw [List.take_left' ha1, ← List.append_assoc a1 a2 a3, List.drop_left' (by simp [ha1, ha2])]

/-- **C64, retransmission.** On a flow with neither encryption nor CRC, the packet sent again is the packet written, with a new acknowledgement,
and the other end takes exactly that. -/
theorem C64_resend_partial {c : Cipher} (S : c.Sound) {hdr : List Byte} (hh : hdr.length = 12) {iv : List Byte}
    (hiv : iv.length = 16) {b : Buf} {d : List Byte} {h t : Nat} (H : Holds b d h t) (hd : d ≠ []) (h1 : 28 ≤ h) (h2 : 21 ≤ t) :
    ∃ b' x, tx c ⟨false, none⟩ (some hdr) iv true b = .ok (b', some x, 0) ∧ ∀ ackno, ∃ w, sentAgain b' x ackno = .ok w ∧
      ∀ r h' t', Holds r w h' t' → ∃ r' h'' t'', rx c ⟨false, none⟩ true r = .ok (some r') ∧ Holds r' (withAck (hdr ++ d) ackno) h'' t'' := by
  obtain ⟨b', x, e1, e2⟩ := tx_again S ⟨false, none⟩ hh hiv H hd h1 h2
  refine ⟨b', x, e1, fun ackno => ⟨_, e2 ackno, fun r h' t' hr => ?_⟩⟩
  have := C64_receive_partial S ⟨false, none⟩ hr (by intro h; cases h)
  have hw : withAck (List.take (hdr ++ d).length (text c ⟨false, none⟩ iv (hdr ++ d))) ackno = withAck (hdr ++ d) ackno := by
    simp only [text, List.take_length]
  rw [hw] at this
  have ha : accepted c ⟨false, none⟩ (withAck (hdr ++ d) ackno) = some (withAck (hdr ++ d) ackno) := by
    unfold accepted opened
    rw [if_neg (by unfold withAck; intro h; have := congrArg List.length h; simp only [List.length_append, FaMsg.length_beBytes, List.length_nil] at this; omega)]
    simp
  rw [ha] at this
  exact this

theorem length_withAck {body : List Byte} (h : 12 ≤ body.length) (ackno : BitVec 32) : (withAck body ackno).length = body.length := by
  unfold withAck; simp; omega

/-- **C64 fails for packets sent again.** On a flow with encryption or a CRC a packet sent again carries neither a new initialisation vector nor a
CRC. Whatever was written, nothing the other end takes from the packet sent again has the length of what was written: it is dropped, or (if the last
four bytes happen to be the CRC of those before) taken with bytes missing. No loss on such a flow is ever repaired. -/
theorem C64_resend_violated {c : Cipher} (S : c.Sound) {f : Fl} (hf : f.crc = true ∨ f.key.isSome) {hdr : List Byte} (hh : hdr.length = 12)
    {iv : List Byte} (hiv : iv.length = 16) {b : Buf} {d : List Byte} {h t : Nat} (H : Holds b d h t) (hd : d ≠ []) (h1 : 28 ≤ h) (h2 : 21 ≤ t) :
    ∃ b' x, tx c f (some hdr) iv true b = .ok (b', some x, 0) ∧ ∀ ackno, ∃ w, sentAgain b' x ackno = .ok w ∧
      ∀ r h' t', Holds r w h' t' → rx c f true r = .ok none ∨
        ∃ r' got h'' t'', rx c f true r = .ok (some r') ∧ Holds r' got h'' t'' ∧ got.length < (hdr ++ d).length := by
  obtain ⟨b', x, e1, e2⟩ := tx_again S f hh hiv H hd h1 h2
  refine ⟨b', x, e1, fun ackno => ⟨_, e2 ackno, fun r h' t' hr => ?_⟩⟩
  have hl := length_text S f iv (hdr ++ d)
  have ht : ((text c f iv (hdr ++ d)).take (hdr ++ d).length).length = (hdr ++ d).length := by rw [List.length_take]; omega
  have h12 : 12 ≤ (hdr ++ d).length := by simp [hh]
  have hlen := length_withAck (by rw [ht]; exact h12) ackno (body := (text c f iv (hdr ++ d)).take (hdr ++ d).length)
  have key := C64_receive_partial S f hr (by intro _; right; rw [hlen]; omega)
  cases ha : accepted c f (withAck ((text c f iv (hdr ++ d)).take (hdr ++ d).length) ackno) with
  | none => rw [ha] at key; exact Or.inl key
  | some p =>
    rw [ha] at key
    obtain ⟨r', h'', t'', k1, k2⟩ := key
    right
    refine ⟨r', p, h'', t'', k1, k2, ?_⟩
    have := accepted_shorter S hf ha
    omega

/-- A packet sent again can even be taken, shortened: if the data happen to end with the CRC of what is before it (for any such data and
acknowledgement), the other end takes the data without its last four bytes. -/
theorem C64_resend_shortened_violated {c : Cipher} (S : c.Sound) {hdr : List Byte} (hh : hdr.length = 12) {iv : List Byte} (hiv : iv.length = 16)
    (d0 : List Byte) (ackno : BitVec 32) {b : Buf} {h t : Nat} (H : Holds b (d0 ++ check (withAck hdr ackno ++ d0)) h t) (h1 : 28 ≤ h) (h2 : 21 ≤ t) :
    ∃ b' x w, tx c ⟨true, none⟩ (some hdr) iv true b = .ok (b', some x, 0) ∧ sentAgain b' x ackno = .ok w ∧
      ∀ r h' t', Holds r w h' t' → ∃ r' h'' t'', rx c ⟨true, none⟩ true r = .ok (some r') ∧ Holds r' (withAck hdr ackno ++ d0) h'' t'' := by
  obtain ⟨b', x, e1, e2⟩ := tx_again S ⟨true, none⟩ hh hiv H (by
    intro h; have := congrArg List.length h; simp only [List.length_append, length_check, List.length_nil] at this; omega) h1 h2
  refine ⟨b', x, _, e1, e2 ackno, fun r h' t' hr => ?_⟩
  have hw : withAck (List.take (hdr ++ (d0 ++ check (withAck hdr ackno ++ d0))).length
      (text c ⟨true, none⟩ iv (hdr ++ (d0 ++ check (withAck hdr ackno ++ d0))))) ackno =
      (withAck hdr ackno ++ d0) ++ check (withAck hdr ackno ++ d0) := by
    simp only [text, List.take_length]
    generalize check (withAck hdr ackno ++ d0) = x
    obtain ⟨a1, a2, rfl, ha1⟩ := split_first (n := 8) (post := hdr) (by omega)
    have : a2.length = 4 := by simp at hh; omega
    unfold withAck
    have e12 : (a1 ++ a2).length = 12 := by simp [ha1, this]
    have e3 : (a1 ++ a2).drop 12 = [] := List.drop_eq_nil_of_le (by omega)
    rw [List.drop_left' e12, e3, List.append_assoc a1 a2 (d0 ++ x), List.take_left' ha1, List.take_left' ha1]
    simp
  rw [hw] at hr
  have key := C64_receive_partial S ⟨true, none⟩ hr (by intro _; right; simp only [List.length_append, length_check]; omega)
  have ha : accepted c ⟨true, none⟩ ((withAck hdr ackno ++ d0) ++ check (withAck hdr ackno ++ d0)) = some (withAck hdr ackno ++ d0) := by
    unfold accepted opened
    rw [if_neg (by intro h; have := congrArg List.length h; simp only [List.length_append, length_check, List.length_nil] at this; omega)]
    have e1 : ((withAck hdr ackno ++ d0) ++ check (withAck hdr ackno ++ d0)).length - 4 = (withAck hdr ackno ++ d0).length := by
      rw [List.length_append, length_check, Nat.add_sub_cancel]
    rw [e1, List.take_left, List.drop_left]
    simp
  rw [ha] at key
  exact key

/-- With `RXM_BUFFER_ON_HEAP` the packet sent again is the packet before encryption: the data go out in the clear, whatever the key. -/
theorem C64_heap_plaintext_violated {hdr : List Byte} (hh : hdr.length = 12) {b : Buf} {d : List Byte} {h t : Nat} (H : Holds b d h t) (hd : d ≠ [])
    (h1 : 12 ≤ h) (ackno : BitVec 32) : ∃ b' x, frctiSnd hdr b = .ok (b', x, 0) ∧ sentAgainHeap b' ackno = .ok (withAck hdr ackno ++ d) := by
  obtain ⟨pre, post, e, rfl, rfl, hs⟩ := H.eq
  obtain ⟨p, x, rfl, hx⟩ := split_last h1
  have e1 := frctiSnd_ok (s := b.sdb) hs hh hx hd
  rw [← e] at e1
  refine ⟨_, _, e1, ?_⟩
  have hs' : Small p (hdr ++ d) post := by unfold Small at *; simp only [List.length_append] at *; omega
  unfold sentAgainHeap Buf.data
  rw [duLen_B hs', data_B]
  simp only [Outcome.bind_ok]
  obtain ⟨a1, a2, rfl, ha1⟩ := split_first (n := 8) (post := hdr) (by omega)
  have : a2.length = 4 := by simp at hh; omega
  rw [List.append_assoc, patch_mid ha1 (by simp [this])]
  unfold withAck
  rw [List.take_left' ha1, show (a1 ++ a2).drop 12 = [] from List.drop_eq_nil_of_le (by omega)]
  simp

/-! ## Control packets -/

/-- The header of a control packet is a whole header. -/
theorem length_ctrl (a f v : Bool) (ackno rwe : BitVec 32) : (Frct.encode (Frct.ctrl a f v ackno rwe)).length = 12 := by
  simp [Frct.encode, Frct.ctrl]

theorem control_ok {c : Cipher} (S : c.Sound) (f : Fl) {p : List Byte} (hp : p ≠ []) {iv h t : List Byte} (hiv : iv.length = 16)
    (hh : h.length = 256) (ht : t.length = 32) (hl : p.length < 2 ^ 61) :
    ∃ b h' t', control c f p h t iv true = .ok (some b) ∧ Holds b (sealed c f iv p) h' t' := by
  have hs : Small h p t := by unfold Small; omega
  obtain ⟨p1, p2, e1, e2, _⟩ := crypt_ok S f hiv (s := ⟨0, 1, 0, 0, 1, 0⟩) hs hp (by omega) (by omega)
  refine ⟨B ⟨0, 1, 0, 0, 1, 0⟩ p1 (sealed c f iv p) p2, _, _, ?_, holds_B e2⟩
  unfold control
  rw [show fresh h p t = B ⟨0, 1, 0, 0, 1, 0⟩ h p t from rfl, e1]
  simp

/-- **C64, control packets.** On a flow without CRC, an acknowledgement, window update or rendez-vous sent by one end is read by the other end as the
one that was sent, encrypted or not. -/
theorem C64_control_partial {c : Cipher} (S : c.Sound) (key : Option (List Byte)) (a f v : Bool) (ackno rwe : BitVec 32) {iv h t : List Byte}
    (hiv : iv.length = 16) (hh : h.length = 256) (ht : t.length = 32) :
    ∃ b w, control c ⟨false, key⟩ (Frct.encode (Frct.ctrl a f v ackno rwe)) h t iv true = .ok (some b) ∧ b.data = .ok w ∧
      ∀ r h' t', Holds r w h' t' → ∃ r' x, rx c ⟨false, key⟩ true r = .ok (some r') ∧ r'.data = .ok x ∧
        Frct.decode x = .ok (Frct.ctrl a f v ackno rwe) := by
  have hl := length_ctrl a f v ackno rwe
  have hne : Frct.encode (Frct.ctrl a f v ackno rwe) ≠ [] := by intro e; rw [e] at hl; cases hl
  obtain ⟨b, h', t', e1, e2⟩ := control_ok S ⟨false, key⟩ hne hiv hh ht (by omega)
  refine ⟨b, _, e1, holds_data e2, fun r h' t' hr => ?_⟩
  have key := C64_receive_partial S ⟨false, key⟩ hr (by intro h; cases h)
  have ha := accepted_onWire S ⟨false, ‹_›⟩ hiv hne
  simp only [onWire, Bool.false_eq_true, if_false] at ha
  rw [ha] at key
  obtain ⟨r', h'', t'', k1, k2⟩ := key
  exact ⟨r', _, k1, holds_data k2, Frct.C56_header_round_trip _⟩

/-- **C64 fails for control packets.** On a flow with a CRC control packets carry none. Whatever an acknowledgement, window update or rendez-vous
says, the other end drops it, or takes 8 bytes that are no header. On an encrypted flow it is always dropped. -/
theorem C64_control_violated {c : Cipher} (S : c.Sound) (key : Option (List Byte)) (a f v : Bool) (ackno rwe : BitVec 32) {iv h t : List Byte}
    (hiv : iv.length = 16) (hh : h.length = 256) (ht : t.length = 32) :
    ∃ b w, control c ⟨true, key⟩ (Frct.encode (Frct.ctrl a f v ackno rwe)) h t iv true = .ok (some b) ∧ b.data = .ok w ∧
      ∀ r h' t', Holds r w h' t' → rx c ⟨true, key⟩ true r = .ok none ∨
        (key = none ∧ ∃ r' x, rx c ⟨true, key⟩ true r = .ok (some r') ∧ r'.data = .ok x ∧ x.length = 8 ∧ Frct.decode x = .ub) := by
  have hl := length_ctrl a f v ackno rwe
  have hne : Frct.encode (Frct.ctrl a f v ackno rwe) ≠ [] := by intro e; rw [e] at hl; cases hl
  obtain ⟨b, h', t', e1, e2⟩ := control_ok S ⟨true, key⟩ hne hiv hh ht (by omega)
  refine ⟨b, _, e1, holds_data e2, fun r h' t' hr => ?_⟩
  have hlen : 12 ≤ (sealed c ⟨true, key⟩ iv (Frct.encode (Frct.ctrl a f v ackno rwe))).length := by
    unfold sealed; split
    · omega
    · simp only [List.length_append]; omega
  have rk := C64_receive_partial S ⟨true, key⟩ hr (by intro _; right; omega)
  cases ha : accepted c ⟨true, key⟩ (sealed c ⟨true, key⟩ iv (Frct.encode (Frct.ctrl a f v ackno rwe))) with
  | none => rw [ha] at rk; exact Or.inl rk
  | some p =>
    rw [ha] at rk
    obtain ⟨r', h'', t'', k1, k2⟩ := rk
    unfold accepted at ha
    simp only [if_true] at ha
    split at ha
    · cases ha
    · split at ha
      · cases key with
        | none =>
          simp only [opened, sealed, Option.some.injEq] at ha
          have hp : p.length = 8 := by rw [← ha, List.length_take]; omega
          exact Or.inr ⟨rfl, r', p, k1, holds_data k2, hp, Frct.C56_short_packet_violated _ (by omega)⟩
        | some k =>
          exfalso
          have h2 := S.len k iv (Frct.encode (Frct.ctrl a f v ackno rwe))
          rw [hl] at h2
          have es : sealed c ⟨true, some k⟩ iv (Frct.encode (Frct.ctrl a f v ackno rwe)) =
              iv ++ c.enc k iv (Frct.encode (Frct.ctrl a f v ackno rwe)) := rfl
          rw [es] at ha
          simp only [opened] at ha
          rw [if_neg (by rw [List.length_take, List.length_append]; omega)] at ha
          have h3 := (S.blocks _ _ _ _ ha).1
          rw [List.length_drop, List.length_take, List.length_append] at h3
          omega
      · cases ha

/-- For given flags and window, at most one acknowledgement number out of 2^32 is not dropped for want of a CRC. -/
theorem C64_control_dropped_violated (a f v : Bool) (rwe n1 n2 : BitVec 32)
    (h1 : (accepted padOnly ⟨true, none⟩ (Frct.encode (Frct.ctrl a f v n1 rwe))).isSome)
    (h2 : (accepted padOnly ⟨true, none⟩ (Frct.encode (Frct.ctrl a f v n2 rwe))).isSome) : n1 = n2 := by
  have key : ∀ n, (accepted padOnly ⟨true, none⟩ (Frct.encode (Frct.ctrl a f v n rwe))).isSome →
      beBytes 4 n.toNat = check ((Frct.encode (Frct.ctrl a f v 0 rwe)).take 8) := by
    intro n h
    have hl := length_ctrl a f v n rwe
    have e : Frct.encode (Frct.ctrl a f v n rwe) = (Frct.encode (Frct.ctrl a f v 0 rwe)).take 8 ++ beBytes 4 n.toNat := by
      simp [Frct.encode, Frct.ctrl, Frct.flagsByte, beBytes, leBytes]
    have h8 : ((Frct.encode (Frct.ctrl a f v 0 rwe)).take 8).length = 8 := by
      rw [List.length_take, length_ctrl]; rfl
    unfold accepted at h
    simp only [if_true] at h
    split at h
    · cases h
    · split at h
      · rename_i hx
        rw [hl, show 12 - 4 = 8 from rfl, e, List.drop_left' h8, List.take_left' h8] at hx
        exact hx
      · cases h
  have e := (key n1 h1).trans (key n2 h2).symm
  have := congrArg FaMsg.beVal e
  rw [FaMsg.beVal_beBytes (by have := n1.isLt; omega), FaMsg.beVal_beBytes (by have := n2.isLt; omega)] at this
  exact BitVec.eq_of_toNat_eq this

end Ouro.Crypt

/-! ## What that does to a reliable flow -/

namespace Ouro.Frct

/-- **C64 fails for reliable flows with a CRC that are used in one direction.** Since no control packet arrives, no timer of the writer ever finds its
packet acknowledged: until the flow is down there is a timer for every packet ever written (for which one could be armed) ... -/
theorem C64_one_way_unacknowledged_violated {d : Bool} {a r mpl : Nat} {s : Sys} (h : OneWay d a r mpl s) (hd : s.down d = false) :
    (s.rxm d).length + (s.dir d).lost.length = (s.dir d).sent.length := (deaf_reach h).all hd

/-- ... and any of these timers that expires more than `r` seconds (by default 120) after the packet was written takes the flow down, whatever
the other end received, read and acknowledged. -/
theorem C64_one_way_down_violated {d : Bool} {a r mpl : Nat} {s : Sys} (h : OneWay d a r mpl s) {k : Nat} {x : Entry} (hx : (s.rxm d)[k]? = some x)
    {now : Int} (ht : r * BILLION < now - x.rxm.t0) (alloc out : Bool) :
    ∃ s', step s (.expire d k now alloc out) = .ok s' ∧ s'.down d = true := by
  have hD := deaf_reach h
  have hna := hD.not_acked (List.mem_of_getElem? hx)
  have e : expire (s.ep d) x.rxm now = (s.ep d, .down) := by
    unfold expire
    rw [hna, hD.r]
    simp only [Bool.false_eq_true, if_false]
    rw [if_pos ht]
  refine ⟨_, by simp only [step, hx]; rfl, ?_⟩
  unfold stepExpire
  rw [e]
  simp only [upd_same]

/-- One packet, delivered, read and acknowledged within a second. -/
def oneWayOps : List Op :=
  [.write true [7#8] (at' 0) 5#32 true true, .recv false 0 (at' 0), .read false, .ack false (at' 1)]

/-- A test that implies `OkOneWay true`. -/
def okOneWay (s : Sys) : Op → Bool
  | .write e _ _ _ _ _ => e && decide ((s.dir true).sent.length + 1 < 2 ^ 31)
  | .recv e _ _ => !e
  | _ => true

theorem play_oneWay {a r mpl : Nat} {ops : List Op} {s s' : Sys} (h : OneWay true a r mpl s) (hp : play okOneWay s ops = some s') :
    OneWay true a r mpl s' := by
  refine play_ind (fun s s' op h1 h2 h3 => h1.step ?_ h3) h hp
  cases op with
  | write e b now rnd armed out =>
    simp only [okOneWay, Bool.and_eq_true, decide_eq_true_eq] at h2
    exact h2
  | recv e k now =>
    intro h
    rw [h] at h2
    cases h2
  | _ => trivial

/-- With the default timers: the reader has the packet, an acknowledgement is on the wire, and the writer's flow goes down after 120 seconds. -/
example : ∃ s s', OneWay true 10 120 60 s ∧ (s.dir true).got = [[7#8]] ∧ (s.net false).length = 1 ∧ s.down true = false ∧
    step s (.expire true 0 (at' 121) true true) = .ok s' ∧ s'.down true = true := by
  have h : ((play okOneWay (Sys.init 10 120 60 (at' 0)) oneWayOps).map fun s => ((s.dir true).got, (s.net false).length, s.down true,
      (s.rxm true)[0]?.map fun x => x.rxm.t0)) = some ([[7#8]], 1, false, some (at' 0)) := by decide +kernel
  rw [Option.map_eq_some_iff] at h
  obtain ⟨s, h1, h2⟩ := h
  simp only [Prod.mk.injEq, Option.map_eq_some_iff] at h2
  obtain ⟨h3, h4, h5, x, hx, h6⟩ := h2
  have hr := play_oneWay (.init _) h1
  obtain ⟨s', e1, e2⟩ := C64_one_way_down_violated hr hx (now := at' 121) (by rw [h6]; decide) true true
  exact ⟨s, s', hr, h3, h4, h5, e1, e2⟩

end Ouro.Frct
