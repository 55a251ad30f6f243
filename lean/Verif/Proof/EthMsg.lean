import Verif.Model.EthDix
import Verif.Proof.EthLlcRun

open Ouro.FaMsg

namespace Ouro.EthLlc

theorem length_request (e : Nat) (q : Qos) (dst data : List Byte) (j : Junk) : (request e q dst data j).length = 36 + dst.length + data.length := by
  simp [request]; omega

theorem parse_request {e : Nat} (he : e < 256) {q : Qos} (hq : q.WF) {L : Nat} {dst : List Byte} (hd : dst.length = L) (data : List Byte) (j : Junk) :
    parse L (request e q dst data j) = .ok (.request e q dst data) := by
  obtain ⟨q1, q2, q3, q4, q5, q6, q7, q8, q9⟩ := hq
  have hlen := length_request e q dst data j
  have F := fun i hi => slice_fields [[BitVec.ofNat 8 e], [j.byte1], [FLOW_REQ], [BitVec.ofNat 8 q.availability], beBytes 4 q.loss, beBytes 8 q.bandwidth, beBytes 4 q.ber, beBytes 4 q.maxGap,
    beBytes 4 q.delay, beBytes 4 q.timeout, beBytes 2 q.cypherS, [BitVec.ofNat 8 q.inOrder], [j.byte2]] (dst ++ data) i hi
  have f0 := F 0 (by simp)
  have f2 := F 2 (by simp)
  have f3 := F 3 (by simp)
  have f4 := F 4 (by simp)
  have f5 := F 5 (by simp)
  have f6 := F 6 (by simp)
  have f7 := F 7 (by simp)
  have f8 := F 8 (by simp)
  have f9 := F 9 (by simp)
  have f10 := F 10 (by simp)
  have f11 := F 11 (by simp)
  clear F
  have fdd : slice (request e q dst data j) 36 L = .ok dst := by
    rw [request]; exact slice_mid (by simp) hd
  have fr : (request e q dst data j).drop (36 + L) = data := by
    have e : request e q dst data j = (request e q dst [] j) ++ data := by simp [request]
    rw [e]; exact List.drop_left' (by rw [length_request, hd]; rfl)
  change slice (request e q dst data j) _ _ = _ at f0
  change slice (request e q dst data j) _ _ = _ at f2
  change slice (request e q dst data j) _ _ = _ at f3
  change slice (request e q dst data j) _ _ = _ at f4
  change slice (request e q dst data j) _ _ = _ at f5
  change slice (request e q dst data j) _ _ = _ at f6
  change slice (request e q dst data j) _ _ = _ at f7
  change slice (request e q dst data j) _ _ = _ at f8
  change slice (request e q dst data j) _ _ = _ at f9
  change slice (request e q dst data j) _ _ = _ at f10
  change slice (request e q dst data j) _ _ = _ at f11
  generalize request e q dst data j = b at *
  simp at f0 f2 f3 f4 f5 f6 f7 f8 f9 f10 f11
  unfold parse
  rw [rd_of_slice f2]
  simp only [Outcome.bind_ok, if_true]
  rw [if_neg (by unfold MSG_LEN; omega), rd_of_slice f0, rd_of_slice f3, f4, f5, f6, f7, f8, f9, f10, rd_of_slice f11]
  simp only [Outcome.bind_ok, MSG_LEN, fdd, fr, Outcome.pure_eq]
  rw [beVal_beBytes (n := 4) q1, beVal_beBytes (n := 8) q2, beVal_beBytes (n := 4) q4,
    beVal_beBytes (n := 4) q5, beVal_beBytes (n := 4) q7, beVal_beBytes (n := 4) q9, beVal_beBytes (n := 2) q8]
  have b0 : (BitVec.ofNat 8 e).toNat = e := by rw [BitVec.toNat_ofNat, Nat.mod_eq_of_lt he]
  have b3 : (BitVec.ofNat 8 q.availability).toNat = q.availability := by rw [BitVec.toNat_ofNat, Nat.mod_eq_of_lt q3]
  have b6 : (BitVec.ofNat 8 q.inOrder).toNat = q.inOrder := by rw [BitVec.toNat_ofNat, Nat.mod_eq_of_lt q6]
  rw [b0, b3, b6]

theorem parse_reply {e g : Nat} (he : e < 256) (hg : g < 256) {r : Int} (h1 : -128 ≤ r) (h2 : r ≤ 127) (L : Nat) (data : List Byte) (j : Junk) :
    parse L (reply e g r data j) = .ok (.reply e g r data) := by
  have hlen := length_reply e g r data j
  have F := fun i hi => slice_fields [[BitVec.ofNat 8 e], [BitVec.ofNat 8 g], [FLOW_REPLY], beBytes 32 j.rest.toNat, [BitVec.ofInt 8 r]] data i hi
  have f0 := F 0 (by simp)
  have f1 := F 1 (by simp)
  have f2 := F 2 (by simp)
  have f4 := F 4 (by simp)
  clear F
  have fr : (reply e g r data j).drop 36 = data := by
    rw [reply]; exact List.drop_left' (by simp)
  change slice (reply e g r data j) _ _ = _ at f0
  change slice (reply e g r data j) _ _ = _ at f1
  change slice (reply e g r data j) _ _ = _ at f2
  change slice (reply e g r data j) _ _ = _ at f4
  generalize reply e g r data j = b at *
  simp at f0 f1 f2 f4
  unfold parse
  rw [rd_of_slice f2]
  simp only [Outcome.bind_ok]
  rw [if_neg (by decide), if_pos trivial, if_neg (by unfold MSG_LEN; omega), rd_of_slice f0, rd_of_slice f1, rd_of_slice f4]
  simp only [Outcome.bind_ok, MSG_LEN, fr, Outcome.pure_eq]
  have b0 : (BitVec.ofNat 8 e).toNat = e := by rw [BitVec.toNat_ofNat, Nat.mod_eq_of_lt he]
  have b1 : (BitVec.ofNat 8 g).toNat = g := by rw [BitVec.toNat_ofNat, Nat.mod_eq_of_lt hg]
  have : (BitVec.ofInt 8 r).toInt = r := by rw [BitVec.toInt_ofInt]; apply Int.bmod_eq_of_le <;> omega
  rw [this, b0, b1]

theorem parse_query {L : Nat} {h : List Byte} (hh : h.length = L) (j : Junk) :
    parse L (queryMsg NAME_QUERY_REQ h j) = .ok (.query h) ∧ parse L (queryMsg NAME_QUERY_REPLY h j) = .ok (.answer h) := by
  have key : ∀ code : Byte, rd (queryMsg code h j) 2 = .ok code ∧ slice (queryMsg code h j) 36 L = .ok h := by
    intro code
    have f2 := slice_fields [[j.byte1], [j.byte2], [code], beBytes 33 j.rest.toNat] h 2 (by simp)
    change slice (queryMsg code h j) _ _ = _ at f2
    have e : queryMsg code h j = [[j.byte1], [j.byte2], [code], beBytes 33 j.rest.toNat].flatten ++ (h ++ []) := by simp [queryMsg]
    refine ⟨?_, ?_⟩
    · generalize queryMsg code h j = b at *
      simp at f2
      exact rd_of_slice f2
    · rw [e]; exact slice_mid (by simp) hh
  obtain ⟨a1, a2⟩ := key NAME_QUERY_REQ
  obtain ⟨b1, b2⟩ := key NAME_QUERY_REPLY
  constructor
  · unfold parse
    rw [a1]
    simp only [Outcome.bind_ok, MSG_LEN, a2]
    rfl
  · unfold parse
    rw [b1]
    simp only [Outcome.bind_ok, MSG_LEN, b2]
    rfl

end Ouro.EthLlc

namespace Ouro.EthDix

open Ouro.EthLlc (Qos length_leBytes leVal_leBytes)

theorem length_request (e : Nat) (q : Qos) (dst data : List Byte) (j : Junk) : (request e q dst data j).length = 38 + dst.length + data.length := by
  simp [request]; omega

theorem length_reply (a b : Nat) (r : Int) (data : List Byte) (j : Junk) : (reply a b r data j).length = 38 + data.length := by
  simp [reply]; omega

theorem parse_request {e : Nat} (he : e < 65536) {q : Qos} (hq : q.WF) {L : Nat} {dst : List Byte} (hd : dst.length = L) (data : List Byte) (j : Junk) :
    parse L (request e q dst data j) = .ok (.request e q dst data) := by
  obtain ⟨q1, q2, q3, q4, q5, q6, q7, q8, q9⟩ := hq
  have hlen := length_request e q dst data j
  have F := fun i hi => slice_fields [beBytes 2 e, beBytes 2 j.deid.toNat, beBytes 4 q.loss, beBytes 8 q.bandwidth, beBytes 4 q.ber, beBytes 4 q.maxGap, beBytes 4 q.delay, beBytes 4 q.timeout,
    beBytes 2 q.cypherS, [BitVec.ofNat 8 q.inOrder], [EthLlc.FLOW_REQ], [BitVec.ofNat 8 q.availability], [j.byte]] (dst ++ data) i hi
  have f0 := F 0 (by simp)
  have f2 := F 2 (by simp)
  have f3 := F 3 (by simp)
  have f4 := F 4 (by simp)
  have f5 := F 5 (by simp)
  have f6 := F 6 (by simp)
  have f7 := F 7 (by simp)
  have f8 := F 8 (by simp)
  have f9 := F 9 (by simp)
  have f10 := F 10 (by simp)
  have f11 := F 11 (by simp)
  clear F
  have fdd : slice (request e q dst data j) 38 L = .ok dst := by
    rw [request]; exact slice_mid (by simp) hd
  have fr : (request e q dst data j).drop (38 + L) = data := by
    have e : request e q dst data j = (request e q dst [] j) ++ data := by simp [request]
    rw [e]; exact List.drop_left' (by rw [length_request, hd]; rfl)
  change slice (request e q dst data j) _ _ = _ at f0
  change slice (request e q dst data j) _ _ = _ at f2
  change slice (request e q dst data j) _ _ = _ at f3
  change slice (request e q dst data j) _ _ = _ at f4
  change slice (request e q dst data j) _ _ = _ at f5
  change slice (request e q dst data j) _ _ = _ at f6
  change slice (request e q dst data j) _ _ = _ at f7
  change slice (request e q dst data j) _ _ = _ at f8
  change slice (request e q dst data j) _ _ = _ at f9
  change slice (request e q dst data j) _ _ = _ at f10
  change slice (request e q dst data j) _ _ = _ at f11
  generalize request e q dst data j = b at *
  simp at f0 f2 f3 f4 f5 f6 f7 f8 f9 f10 f11
  unfold parse
  rw [rd_of_slice f10]
  simp only [Outcome.bind_ok, if_true]
  rw [if_neg (by unfold MSG_LEN; omega), f0, f2, f3, f4, f5, f6, f7, f8, rd_of_slice f9, rd_of_slice f11]
  simp only [Outcome.bind_ok, MSG_LEN, fdd, fr, Outcome.pure_eq]
  rw [beVal_beBytes (n := 4) q1, beVal_beBytes (n := 8) q2, beVal_beBytes (n := 4) q4,
    beVal_beBytes (n := 4) q5, beVal_beBytes (n := 4) q7, beVal_beBytes (n := 4) q9, beVal_beBytes (n := 2) q8, beVal_beBytes (n := 2) (by simpa using he)]
  have b3 : (BitVec.ofNat 8 q.availability).toNat = q.availability := by rw [BitVec.toNat_ofNat, Nat.mod_eq_of_lt q3]
  have b6 : (BitVec.ofNat 8 q.inOrder).toNat = q.inOrder := by rw [BitVec.toNat_ofNat, Nat.mod_eq_of_lt q6]
  rw [b3, b6]

theorem parse_reply {e g : Nat} (he : e < 65536) (hg : g < 65536) {r : Int} (h1 : -128 ≤ r) (h2 : r ≤ 127) (L : Nat) (data : List Byte) (j : Junk) :
    parse L (reply e g r data j) = .ok (.reply e g r data) := by
  have hlen := length_reply e g r data j
  have F := fun i hi => slice_fields [beBytes 2 e, beBytes 2 g, beBytes 31 j.rest.toNat, [EthLlc.FLOW_REPLY], [j.byte2], [BitVec.ofInt 8 r]] data i hi
  have f0 := F 0 (by simp)
  have f1 := F 1 (by simp)
  have f3 := F 3 (by simp)
  have f5 := F 5 (by simp)
  clear F
  have fr : (reply e g r data j).drop 38 = data := by
    rw [reply]; exact List.drop_left' (by simp)
  change slice (reply e g r data j) _ _ = _ at f0
  change slice (reply e g r data j) _ _ = _ at f1
  change slice (reply e g r data j) _ _ = _ at f3
  change slice (reply e g r data j) _ _ = _ at f5
  generalize reply e g r data j = b at *
  simp at f0 f1 f3 f5
  unfold parse
  rw [rd_of_slice f3]
  simp only [Outcome.bind_ok]
  rw [if_neg (by decide), if_pos trivial, if_neg (by unfold MSG_LEN; omega), f0, f1, rd_of_slice f5]
  simp only [Outcome.bind_ok, MSG_LEN, fr, Outcome.pure_eq]
  have : (BitVec.ofInt 8 r).toInt = r := by rw [BitVec.toInt_ofInt]; apply Int.bmod_eq_of_le <;> omega
  rw [this, beVal_beBytes (n := 2) (by simpa using he), beVal_beBytes (n := 2) (by simpa using hg)]

theorem recv_frame {dst src etype eid : Nat} (hs : src < 2 ^ 48) (ht : etype < 65536) (he : eid < 65536) {p : List Byte} (hp : p.length < 65536) (live : Nat → Bool) (pad mem : List Byte) :
    recv etype live (frame dst src etype eid p ++ pad) mem =
      if eid = 0 then if 2048 < p.length then .ub else .ok (.mgmt src p)
      else if 4096 ≤ eid then .ub else if live eid then .ok (.deliver eid p) else .ok .drop := by
  have ef : [leBytes 6 dst, leBytes 6 src, beBytes 2 etype, beBytes 2 eid, beBytes 2 p.length].flatten ++ (p ++ (pad ++ mem)) = frame dst src etype eid p ++ pad ++ mem := by
    simp [frame]
  have F := fun i hi => slice_fields [leBytes 6 dst, leBytes 6 src, beBytes 2 etype, beBytes 2 eid, beBytes 2 p.length] (p ++ (pad ++ mem)) i hi
  have f1 := F 1 (by simp)
  have f2 := F 2 (by simp)
  have f3 := F 3 (by simp)
  have f4 := F 4 (by simp)
  clear F
  have f5 : slice (frame dst src etype eid p ++ pad ++ mem) 18 p.length = .ok p := by
    rw [← ef]; exact slice_mid (by simp [length_leBytes]) rfl
  rw [ef] at f1 f2 f3 f4
  unfold recv
  dsimp only
  generalize frame dst src etype eid p ++ pad ++ mem = m at *
  simp [length_leBytes] at f1 f2 f3 f4
  rw [f1, f2, f3, f4]
  simp only [Outcome.bind_ok]
  rw [beVal_beBytes (n := 2) (by simpa using ht), beVal_beBytes (n := 2) (by simpa using he), beVal_beBytes (n := 2) (by simpa using hp), f5]
  simp only [Outcome.bind_ok, ne_eq, not_true_eq_false, if_false, EthLlc.leVal_leBytes (n := 6) (by simpa using hs)]
  rfl

end Ouro.EthDix
