import Verif.Proof.FaMsg

/-!
# C52 — flow allocation messages are understood as they were meant
-/

namespace Ouro.FaMsg

open Ouro.Qoscube (Spec)

/-- C52. A flow request reaches the other side with the requester's address and endpoint id, QoS specification, destination name hash
and piggybacked data exactly as given, if it fits the 2048 byte buffer. -/
theorem C52_request_roundtrip (dtAddr eid : BitVec 64) (q : Spec) (hq : q.WF) (dst data : List Byte)
    (hl : 60 + dst.length + data.length ≤ 2048) :
    parse dst.length (request dtAddr.toNat eid.toNat q dst data) = .ok (some (.request dtAddr.toNat eid.toNat q dst data)) := by
  obtain ⟨q1, q2, q3, q4, q5, q6, q7, q8, q9⟩ := hq
  have hfl := length_fields dtAddr.toNat 0 eid.toNat FLOW_REQ 0 0 q
  have hlen : (request dtAddr.toNat eid.toNat q dst data).length = 60 + dst.length + data.length := by
    simp only [request, List.length_append, hfl]
  have F := fun i hi => slice_fields (fields dtAddr.toNat 0 eid.toNat FLOW_REQ 0 0 q) (dst ++ data) i hi
  have hreq : request dtAddr.toNat eid.toNat q dst data =
      (fields dtAddr.toNat 0 eid.toNat FLOW_REQ 0 0 q).flatten ++ (dst ++ data) := by
    simp [request]
  have f0 := F 0 (by simp [fields])
  have f2 := F 2 (by simp [fields])
  have f3 := F 3 (by simp [fields])
  have f6 := F 6 (by simp [fields])
  have f7 := F 7 (by simp [fields])
  have f8 := F 8 (by simp [fields])
  have f9 := F 9 (by simp [fields])
  have f10 := F 10 (by simp [fields])
  have f11 := F 11 (by simp [fields])
  have f12 := F 12 (by simp [fields])
  have f13 := F 13 (by simp [fields])
  have f14 := F 14 (by simp [fields])
  rw [← hreq] at f0 f2 f3 f6 f7 f8 f9 f10 f11 f12 f13 f14
  simp [fields] at f0 f2 f3 f6 f7 f8 f9 f10 f11 f12 f13 f14
  have fd : slice (request dtAddr.toNat eid.toNat q dst data) 60 dst.length = .ok dst := by
    rw [hreq]; exact slice_mid hfl rfl
  have fr : (request dtAddr.toNat eid.toNat q dst data).drop (60 + dst.length) = data := by
    rw [request]; exact List.drop_left' (by rw [List.length_append, hfl])
  have a1 : dtAddr.toNat < 256 ^ 8 := dtAddr.isLt
  have a2 : eid.toNat < 256 ^ 8 := eid.isLt
  unfold parse
  rw [if_neg (by unfold MSGBUFSZ hdrLen; omega), rd_of_slice f3]
  simp only [Outcome.bind_ok, if_true, hdrLen, Outcome.pure_eq]
  have hn : ¬ (request dtAddr.toNat eid.toNat q dst data).length < 60 + dst.length := by omega
  simp only [hn, if_false]
  rw [f0, f2, f6, f7, f8, f9, f10, f11, f12, rd_of_slice f13, rd_of_slice f14, fd, fr]
  simp only [Outcome.bind_ok]
  rw [beVal_beBytes a1, beVal_beBytes a2, beVal_beBytes (n := 4) q1, beVal_beBytes (n := 8) q2, beVal_beBytes (n := 4) q4,
    beVal_beBytes (n := 4) q5, beVal_beBytes (n := 4) q7, beVal_beBytes (n := 4) q9, beVal_beBytes (n := 2) q8]
  have b3 : (BitVec.ofNat 8 q.availability).toNat = q.availability := by
    rw [BitVec.toNat_ofNat, Nat.mod_eq_of_lt q3]
  have b6 : (BitVec.ofNat 8 q.inOrder).toNat = q.inOrder := by
    rw [BitVec.toNat_ofNat, Nat.mod_eq_of_lt q6]
  rw [b3, b6]

/-- C52. A flow reply reaches the requester with both endpoint ids, the response and the data as given, if it fits the buffer and the
response fits 8 bits. -/
theorem C52_reply_roundtrip (hashLen : Nat) (rEid sEid : BitVec 64) (response : Int) (h1 : -128 ≤ response) (h2 : response ≤ 127)
    (data : List Byte) (hl : 60 + data.length ≤ 2048) :
    parse hashLen (reply rEid.toNat sEid.toNat response data) = .ok (some (.reply rEid.toNat sEid.toNat response data)) := by
  have hfl := length_fields 0 rEid.toNat sEid.toNat FLOW_REPLY (BitVec.ofInt 8 response) 0 zeroQos
  have hlen : (reply rEid.toNat sEid.toNat response data).length = 60 + data.length := by
    simp only [reply, List.length_append, hfl]
  have F := fun i hi => slice_fields (fields 0 rEid.toNat sEid.toNat FLOW_REPLY (BitVec.ofInt 8 response) 0 zeroQos) data i hi
  have f1 := F 1 (by simp [fields])
  have f2 := F 2 (by simp [fields])
  have f3 := F 3 (by simp [fields])
  have f4 := F 4 (by simp [fields])
  rw [show (fields 0 rEid.toNat sEid.toNat FLOW_REPLY (BitVec.ofInt 8 response) 0 zeroQos).flatten ++ data =
    reply rEid.toNat sEid.toNat response data from rfl] at f1 f2 f3 f4
  simp [fields] at f1 f2 f3 f4
  have fr : (reply rEid.toNat sEid.toNat response data).drop 60 = data := by
    rw [reply]; exact List.drop_left' hfl
  have a1 : rEid.toNat < 256 ^ 8 := rEid.isLt
  have a2 : sEid.toNat < 256 ^ 8 := sEid.isLt
  unfold parse
  rw [if_neg (by unfold MSGBUFSZ hdrLen; omega), rd_of_slice f3]
  simp only [Outcome.bind_ok, if_true, hdrLen, Outcome.pure_eq]
  rw [if_neg (by decide), f1, f2, rd_of_slice f4, fr]
  simp only [Outcome.bind_ok]
  rw [beVal_beBytes a1, beVal_beBytes a2]
  have : (BitVec.ofInt 8 response).toInt = response := by
    rw [BitVec.toInt_ofInt]
    apply Int.bmod_eq_of_le <;> omega
  rw [this]

/-- C52. A flow update reaches the sender with its endpoint id and the congestion level as given. -/
theorem C52_update_roundtrip (hashLen : Nat) (rEid : BitVec 64) (ece : BitVec 16) :
    parse hashLen (update rEid.toNat ece.toNat) = .ok (some (.update rEid.toNat ece.toNat)) := by
  have hfl := length_fields 0 rEid.toNat 0 FLOW_UPDATE 0 ece.toNat zeroQos
  have hlen : (update rEid.toNat ece.toNat).length = 60 := hfl
  have F := fun i hi => slice_fields (fields 0 rEid.toNat 0 FLOW_UPDATE 0 ece.toNat zeroQos) [] i hi
  simp only [List.append_nil] at F
  have f1 := F 1 (by simp [fields])
  have f3 := F 3 (by simp [fields])
  have f5 := F 5 (by simp [fields])
  rw [show (fields 0 rEid.toNat 0 FLOW_UPDATE 0 ece.toNat zeroQos).flatten = update rEid.toNat ece.toNat from rfl] at f1 f3 f5
  simp [fields] at f1 f3 f5
  have a1 : rEid.toNat < 256 ^ 8 := rEid.isLt
  have a2 : ece.toNat < 256 ^ 2 := ece.isLt
  unfold parse
  rw [if_neg (by unfold MSGBUFSZ hdrLen; omega), rd_of_slice f3]
  simp only [Outcome.bind_ok, if_true, Outcome.pure_eq]
  rw [if_neg (by decide), if_neg (by decide), f1, f5]
  simp only [Outcome.bind_ok]
  rw [beVal_beBytes a1, beVal_beBytes a2]

/-- C52. No message, whatever its bytes, makes the worker read outside it: it is either understood or ignored. -/
theorem C52_any_bytes_safe (hashLen : Nat) (b : List Byte) : ∃ r, parse hashLen b = .ok r := by
  unfold parse
  split
  · exact ⟨_, rfl⟩
  · rename_i h
    have hb : 60 ≤ b.length := by unfold hdrLen at h; omega
    have hs : ∀ off n, off + n ≤ b.length → slice b off n = .ok ((b.drop off).take n) := by
      intro off n hh; unfold slice; rw [if_pos hh]
    have hr : ∀ i (hi : i < 60), ∃ x, rd b i = .ok x := by
      intro i hi; exact ⟨b[i], by simp [rd, show i < b.length by omega]⟩
    obtain ⟨c, hc⟩ := hr 24 (by omega)
    rw [hc]
    simp only [Outcome.bind_ok, Outcome.pure_eq]
    split
    · split
      · exact ⟨_, rfl⟩
      · rename_i h2
        unfold hdrLen at h2
        obtain ⟨x, hx⟩ := hr 58 (by omega)
        obtain ⟨y, hy⟩ := hr 59 (by omega)
        rw [hs 0 8 (by omega), hs 16 8 (by omega), hs 28 4 (by omega), hs 32 8 (by omega), hs 40 4 (by omega), hs 44 4 (by omega),
          hs 48 4 (by omega), hs 52 4 (by omega), hs 56 2 (by omega), hx, hy, hs hdrLen hashLen (by unfold hdrLen; omega)]
        exact ⟨_, rfl⟩
    · split
      · obtain ⟨x, hx⟩ := hr 25 (by omega)
        rw [hs 8 8 (by omega), hs 16 8 (by omega), hx]
        exact ⟨_, rfl⟩
      · split
        · rw [hs 8 8 (by omega), hs 26 2 (by omega)]
          exact ⟨_, rfl⟩
        · exact ⟨_, rfl⟩

/-- C52 fails for requests whose data does not fit: the request is ignored, the requester gets no answer. -/
theorem C52_large_request_violated (dtAddr eid : Nat) (q : Spec) (dst data : List Byte) (hl : 2048 < 60 + dst.length + data.length) :
    parse dst.length (request dtAddr eid q dst data) = .ok none := by
  unfold parse
  have : (request dtAddr eid q dst data).length = 60 + dst.length + data.length := by
    simp only [request, List.length_append, length_fields]
  rw [if_pos (by unfold MSGBUFSZ; omega)]

/-- Non-vacuity: a video flow request with a 32 byte hash and some data. -/
example : Qoscube.video.WF ∧ 60 + (List.replicate 32 (7 : Byte)).length + [1, 2, 3].length ≤ 2048 := by
  refine ⟨by decide, by decide⟩

end Ouro.FaMsg
