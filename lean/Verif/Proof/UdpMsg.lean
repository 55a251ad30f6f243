import Verif.Spec.Udp
import Verif.Proof.FaMsg
import Verif.Proof.Tac

namespace Ouro.Udp

open Ouro.FaMsg

theorem be_take {l : List Byte} {n v : Nat} {t : List Byte} (h : l = beBytes n v ++ t) (hv : v < 256 ^ n) : beVal (l.take n) = v := by
  rw [h, List.take_left' (length_beBytes n v), beVal_beBytes hv]

theorem length_request (e : Nat) (q : Qos) (dst data : List Byte) (j : Junk) :
    (request e q dst data j).length = 46 + dst.length + data.length := by
  simp [request]; omega

theorem length_reply (e g : Nat) (r : Int) (data : List Byte) (j : Junk) : (reply e g r data j).length = 46 + data.length := by
  simp [reply]; omega

theorem request_head (e : Nat) (q : Qos) (dst data : List Byte) (j : Junk) : beVal ((request e q dst data j).take 4) = 0 :=
  be_take (by simp only [request, List.flatten_cons, List.append_assoc]; rfl) (by decide)

theorem reply_head (e g : Nat) (r : Int) (data : List Byte) (j : Junk) : beVal ((reply e g r data j).take 4) = 0 :=
  be_take (by simp only [reply, List.flatten_cons, List.append_assoc]; rfl) (by decide)

theorem packet_head {e : Nat} (p : List Byte) (h : e < 2 ^ 32) : beVal ((packet e p).take 4) = e :=
  be_take rfl (by simpa using h)

theorem parse_request {e : Nat} (he : e < 2 ^ 32) {q : Qos} (hq : q.WF) {dst : List Byte} (hd : dst.length = 16) (data : List Byte) (j : Junk) :
    parse (request e q dst data j) = .ok (.request e q dst data) := by
  obtain ⟨q1, q2, q3, q4, q5, q6, q7, q8, q9⟩ := hq
  have hlen := length_request e q dst data j
  have F := fun i hi => slice_fields [beBytes 4 0, beBytes 4 e, beBytes 4 j.dEid.toNat, [FLOW_REQ], [j.response], [BitVec.ofNat 8 q.availability], [BitVec.ofNat 8 q.inOrder],
   beBytes 8 q.bandwidth, beBytes 4 q.delay, beBytes 4 q.loss, beBytes 4 q.ber, beBytes 4 q.maxGap, beBytes 4 q.timeout, beBytes 2 q.cypherS] (dst ++ data) i hi
  have f1 := F 1 (by simp)
  have f3 := F 3 (by simp)
  have f5 := F 5 (by simp)
  have f6 := F 6 (by simp)
  have f7 := F 7 (by simp)
  have f8 := F 8 (by simp)
  have f9 := F 9 (by simp)
  have f10 := F 10 (by simp)
  have f11 := F 11 (by simp)
  have f12 := F 12 (by simp)
  have f13 := F 13 (by simp)
  clear F
  change slice (request e q dst data j) _ _ = _ at f1
  change slice (request e q dst data j) _ _ = _ at f3
  change slice (request e q dst data j) _ _ = _ at f5
  change slice (request e q dst data j) _ _ = _ at f6
  change slice (request e q dst data j) _ _ = _ at f7
  change slice (request e q dst data j) _ _ = _ at f8
  change slice (request e q dst data j) _ _ = _ at f9
  change slice (request e q dst data j) _ _ = _ at f10
  change slice (request e q dst data j) _ _ = _ at f11
  change slice (request e q dst data j) _ _ = _ at f12
  change slice (request e q dst data j) _ _ = _ at f13
  have fdd : slice (request e q dst data j) 46 16 = .ok dst := by
    rw [request]; exact slice_mid (by simp) hd
  have fr : (request e q dst data j).drop (46 + 16) = data := by
    have e : request e q dst data j = (request e q dst [] j) ++ data := by simp [request]
    rw [e]; exact List.drop_left' (by rw [length_request, hd]; rfl)
  generalize request e q dst data j = b at *
  simp at f1 f3 f5 f6 f7 f8 f9 f10 f11 f12 f13
  unfold parse
  rw [rd_of_slice f3]
  simp only [Outcome.bind_ok, if_true]
  rw [if_neg (by unfold MSG_LEN HASH_LEN; omega), f1, rd_of_slice f5, rd_of_slice f6, f7, f8, f9, f10, f11, f12, f13]
  simp only [Outcome.bind_ok, MSG_LEN, HASH_LEN, fdd, fr, Outcome.pure_eq]
  rw [beVal_beBytes (n := 4) (by simpa using he), beVal_beBytes (n := 4) q1, beVal_beBytes (n := 8) q2, beVal_beBytes (n := 4) q4,
    beVal_beBytes (n := 4) q5, beVal_beBytes (n := 4) q7, beVal_beBytes (n := 4) q9, beVal_beBytes (n := 2) q8]
  have b3 : (BitVec.ofNat 8 q.availability).toNat = q.availability := by rw [BitVec.toNat_ofNat, Nat.mod_eq_of_lt q3]
  have b6 : (BitVec.ofNat 8 q.inOrder).toNat = q.inOrder := by rw [BitVec.toNat_ofNat, Nat.mod_eq_of_lt q6]
  rw [b3, b6]

theorem parse_reply {e g : Nat} (he : e < 2 ^ 32) (hg : g < 2 ^ 32) {r : Int} (h1 : -128 ≤ r) (h2 : r ≤ 127) (data : List Byte) (j : Junk) :
    parse (reply e g r data j) = .ok (.reply e g r data) := by
  have hlen := length_reply e g r data j
  have F := fun i hi => slice_fields [beBytes 4 0, beBytes 4 e, beBytes 4 g, [FLOW_REPLY], [BitVec.ofInt 8 r], beBytes 32 j.rest.toNat] data i hi
  have f1 := F 1 (by simp)
  have f2 := F 2 (by simp)
  have f3 := F 3 (by simp)
  have f4 := F 4 (by simp)
  clear F
  change slice (reply e g r data j) _ _ = _ at f1
  change slice (reply e g r data j) _ _ = _ at f2
  change slice (reply e g r data j) _ _ = _ at f3
  change slice (reply e g r data j) _ _ = _ at f4
  have fr : (reply e g r data j).drop 46 = data := by
    rw [reply]; exact List.drop_left' (by simp)
  generalize reply e g r data j = b at *
  simp at f1 f2 f3 f4
  unfold parse
  rw [rd_of_slice f3]
  simp only [Outcome.bind_ok]
  rw [if_neg (by decide), if_pos trivial, if_neg (by unfold MSG_LEN; omega), f1, f2, rd_of_slice f4]
  simp only [Outcome.bind_ok, MSG_LEN, fr, Outcome.pure_eq]
  rw [beVal_beBytes (n := 4) (by simpa using he), beVal_beBytes (n := 4) (by simpa using hg)]
  have : (BitVec.ofInt 8 r).toInt = r := by rw [BitVec.toInt_ofInt]; apply Int.bmod_eq_of_le <;> omega
  rw [this]

end Ouro.Udp
