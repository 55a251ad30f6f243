import Verif.Proof.Dt

/-!
# C33, C34 — the data transfer header round-trips; packets do not circulate forever
-/

namespace Ouro.Dt

open Spec.DtWire

/-- C33. For every address size up to 8 bytes, every address that fits, every QoS class, mark, endpoint id and payload, and whatever
was in the header area before: the header is written as specified, reading it back gives the same fields and a time to live one
lower, and removing it gives the payload. -/
theorem C33_header_roundtrip (n : Nat) (hn : n ≤ 8) (maxTtl : Byte) (pci : Pci) (hd : pci.dst.toNat < 256 ^ n)
    (junk payload : List Byte) (hj : junk.length = n + 11) :
    ser (mkInfo n maxTtl) (junk ++ payload) pci =
      .ok (encode n pci.dst.toNat pci.qc maxTtl pci.ecn pci.eid.toNat payload) ∧
    des (mkInfo n maxTtl) (encode n pci.dst.toNat pci.qc maxTtl pci.ecn pci.eid.toNat payload) =
      .ok (encode n pci.dst.toNat pci.qc (maxTtl - 1) pci.ecn pci.eid.toNat payload, { pci with ttl := maxTtl - 1 }) ∧
    shrink (mkInfo n maxTtl) (encode n pci.dst.toNat pci.qc (maxTtl - 1) pci.ecn pci.eid.toNat payload) = .ok payload := by
  obtain ⟨A, q, t, e, E, rest, hA, hE, hraw⟩ := exists_raw n junk (by omega)
  have hrest : rest = [] := by
    have := congrArg List.length hraw
    simp [raw, hA, hE] at this
    apply List.eq_nil_of_length_eq_zero; omega
  subst hrest
  have hjp : junk ++ payload = raw A q t e E payload := by rw [hraw]; simp [raw]
  refine ⟨?_, ?_, ?_⟩
  · rw [hjp, ser_raw n hn maxTtl A q t e E payload hA hE, encode_raw]
  · rw [encode_raw, des_raw n hn maxTtl _ _ _ _ _ _ (by simp) (by simp), encode_raw]
    have h8 : pci.eid.toNat < 256 ^ 8 := pci.eid.isLt
    rw [leVal_leBytes_lt hd, leVal_leBytes_lt h8]
    simp
  · rw [encode_raw, shrink_raw n maxTtl _ _ _ _ _ _ (by simp) (by simp)]

/-- C33, end to end: whatever route a sent packet takes through whatever (changing) forwarding tables, if it is delivered anywhere it
is delivered at a node with the destination address, to the flow or component named by the endpoint id, with the payload as sent. -/
theorem C33_delivered_as_sent {ν : Type} (n : Nat) (hn : n ≤ 8) (maxTtl : Byte) (net : Net ν) (src : ν)
    (dst : BitVec 64) (hd : dst.toNat < 256 ^ n) (qc : Byte) (eid : BitVec 64) (junk payload : List Byte) (hj : junk.length = n + 11)
    (fd : Int) (pkt : List Byte) (hs : writePacket (mkInfo n maxTtl) (net.env 0 src) dst qc eid (some junk) payload = .ok (.sent fd pkt))
    (fuel : Nat) :
    ∃ r, fate (mkInfo n maxTtl) net fuel 1 (net.link 0 src fd) pkt = .ok r ∧
      ∀ y a, r = some (y, a) → a ≠ .drop → ∃ t, (net.env t y).addr = dst ∧
        ((64 ≤ eid.toNat ∧ ∃ ecn, a = .flow eid ecn payload) ∨ (eid.toNat < 64 ∧ a = .comp eid.toNat payload)) := by
  by_cases h1 : dst = (net.env 0 src).addr
  · exfalso; unfold writePacket at hs; rw [if_pos h1] at hs; cases hs
  by_cases h2 : (net.env 0 src).nhop dst < 0
  · exfalso; unfold writePacket at hs; rw [if_neg h1] at hs; simp only at hs; rw [if_pos h2] at hs; cases hs
  by_cases h3 : (net.env 0 src).write ((net.env 0 src).nhop dst) = true
  · rw [writePacket_sent hn hj h1 (by omega) h3] at hs
    cases hs
    obtain ⟨r, e1, e2⟩ := fate_raw n hn maxTtl net fuel 1 (net.link 0 src ((net.env 0 src).nhop dst)) (leBytes n dst.toNat) qc maxTtl
      ((net.env 0 src).mark ((net.env 0 src).nhop dst) 0) (leBytes 8 eid.toNat) payload (by simp) (by simp)
    refine ⟨r, e1, ?_⟩
    intro y a hr ha
    have h8 : eid.toNat < 256 ^ 8 := eid.isLt
    rcases e2 y a hr with h | ⟨j, hj, h⟩
    · exact absurd h ha
    · rw [leVal_leBytes_lt hd] at hj
      rw [leVal_leBytes_lt h8] at h
      refine ⟨j, by rw [← hj]; simp, ?_⟩
      rcases h with ⟨h, ecn, e⟩ | ⟨h, _, e⟩
      · exact Or.inl ⟨h, ecn, by rw [e]; simp⟩
      · exact Or.inr ⟨h, e⟩
  · exfalso
    obtain ⟨A, q, t, e, E, rest, hA, hE, hraw⟩ := exists_raw n junk (by omega)
    have hjp : junk ++ payload = raw A q t e E (rest ++ payload) := by rw [hraw]; simp [raw]
    unfold writePacket at hs
    rw [if_neg h1] at hs
    simp only at hs
    rw [if_neg h2, hjp, ser_raw n hn maxTtl A q t e E _ hA hE] at hs
    simp [h3] at hs

/-- C34, for any received packet with at least a full header: it is relayed at most `t - 1` times (8-bit subtraction), where `t` is
its time-to-live byte, whatever the topology, the forwarding tables and their changes. -/
theorem C34_relays_bounded {ν : Type} (n : Nat) (hn : n ≤ 8) (maxTtl : Byte) (net : Net ν) (fuel i : Nat) (x : ν)
    (pkt : List Byte) (hl : n + 11 ≤ pkt.length) :
    ∃ k, relays (mkInfo n maxTtl) net fuel i x pkt = .ok k ∧ k ≤ (pkt[n + 1] - 1).toNat := by
  obtain ⟨A, q, t, e, E, rest, hA, hE, rfl⟩ := exists_raw n pkt hl
  have : (raw A q t e E rest)[n + 1] = t := by
    have := rd_ttl (q := q) (t := t) (e := e) (E := E) (rest := rest) hA
    simp only [rd] at this
    rw [List.getElem?_eq_getElem (by omega)] at this
    exact Outcome.ok.inj this
  rw [this]
  exact relays_raw n hn maxTtl net fuel i x A q t e E rest hA hE

/-- C34 (partial: configured time to live of at least 1). A packet that a node sends with time to live `m` is relayed at most `m - 1`
times. -/
theorem C34_sent_packet_partial {ν : Type} (n : Nat) (hn : n ≤ 8) (maxTtl : Byte) (hm : maxTtl ≠ 0) (net : Net ν) (src : ν)
    (dst : BitVec 64) (qc : Byte) (eid : BitVec 64) (junk payload : List Byte) (hj : junk.length = n + 11)
    (fd : Int) (pkt : List Byte) (hs : writePacket (mkInfo n maxTtl) (net.env 0 src) dst qc eid (some junk) payload = .ok (.sent fd pkt))
    (fuel : Nat) :
    ∃ k, relays (mkInfo n maxTtl) net fuel 1 (net.link 0 src fd) pkt = .ok k ∧ k ≤ maxTtl.toNat - 1 := by
  have hm' : (maxTtl - 1).toNat = maxTtl.toNat - 1 := by
    have h0 : maxTtl.toNat ≠ 0 := fun h => hm (BitVec.eq_of_toNat_eq h)
    have := maxTtl.isLt
    exact BitVec.toNat_sub_of_le (by rw [BitVec.le_def]; show 1 ≤ _; omega)
  obtain ⟨A, q, t, e, E, rest, hA, hE, hraw⟩ := exists_raw n junk (by omega)
  have hjp : junk ++ payload = raw A q t e E (rest ++ payload) := by rw [hraw]; simp [raw]
  unfold writePacket at hs
  split at hs
  · cases hs
  · simp only at hs
    split at hs
    · cases hs
    · rw [hjp, ser_raw n hn maxTtl A q t e E _ hA hE] at hs
      simp only [Outcome.bind_ok, Outcome.pure_eq] at hs
      split at hs
      · cases hs
        rw [← hm']
        exact relays_raw n hn maxTtl net fuel 1 _ _ _ _ _ _ _ (by simp) (by simp)
      · cases hs

/-- C34, the decision itself, for any packet with a full header that is not for this node: dropped exactly if its time-to-live byte
is 1, there is no next hop, or the write fails; otherwise passed on to that next hop, changed only in the time to live and the mark. -/
theorem C34_relay_decision (n : Nat) (hn : n ≤ 8) (maxTtl : Byte) (env : Env) (dst : BitVec 64) (hd : dst.toNat < 256 ^ n)
    (hne : dst ≠ env.addr) (qc ttl ecn : Byte) (eid : BitVec 64) (payload : List Byte) :
    handler (mkInfo n maxTtl) env (encode n dst.toNat qc ttl ecn eid.toNat payload) = .ok (
      if ttl = 1 ∨ env.nhop dst < 0 ∨ env.write (env.nhop dst) = false then .drop
      else .forward (env.nhop dst)
        (encode n dst.toNat qc (ttl - 1) (env.mark (env.nhop dst) ecn) eid.toNat payload)) := by
  rw [encode_raw, handler_raw n hn maxTtl env _ _ _ _ _ _ (by simp) (by simp), encode_raw]
  rw [leVal_leBytes_lt hd]
  have e1 : BitVec.ofNat 64 dst.toNat = dst := by simp
  have h1 : ttl - 1 = 0 ↔ ttl = 1 := by
    constructor
    · intro h; revert ttl; decide
    · rintro rfl; rfl
  rw [e1, if_pos hne]
  by_cases a : ttl = 1
  · rw [if_pos (h1.mpr a), if_pos (Or.inl a)]
  · rw [if_neg (fun h => a (h1.mp h))]
    by_cases b : env.nhop dst < 0
    · rw [if_pos b, if_pos (Or.inr (Or.inl b))]
    · rw [if_neg b]
      cases c : env.write (env.nhop dst) with
      | true => rw [if_pos rfl, if_neg (by rintro (h | h | h); exacts [a h, b h, absurd h (by decide)])]
      | false => simp

/-- Two nodes, 1 and 2, that send everything to each other. -/
def pingPong : Net Bool := { env := fun _ b => ⟨if b then 1 else 2, fun _ => 0, fun _ e => e, fun _ => true, fun _ => false⟩, link := fun _ b _ => !b }

/-- C34 fails for time to live 0: the packet is relayed 255 times. -/
theorem C34_zero_ttl_violated :
    ∃ pkt, writePacket (mkInfo 4 0) (pingPong.env 0 true) 3 0 5 (some (List.replicate 15 0)) [] = .ok (.sent 0 pkt) ∧
      relays (mkInfo 4 0) pingPong 255 1 false pkt = .ok 255 :=
  ⟨_, rfl, by decide +kernel⟩

/-- A packet shorter than the header makes the code read beyond it. -/
theorem C33_short_packet_violated : des (mkInfo 4 60) [1, 2, 3] = .ub := rfl

/-- Non-vacuity: a packet sent with time to live 60 into a loop is relayed exactly 59 times and then dropped. -/
example : ∃ pkt, writePacket (mkInfo 4 60) (pingPong.env 0 true) 3 2 70 (some (List.replicate 15 9)) [1, 2] = .ok (.sent 0 pkt) ∧
    relays (mkInfo 4 60) pingPong 100 1 false pkt = .ok 59 ∧ fate (mkInfo 4 60) pingPong 100 1 false pkt = .ok (some (true, .drop)) :=
  ⟨_, rfl, by decide +kernel, by decide +kernel⟩

/-- Non-vacuity: a packet reaching its destination. -/
example : ∃ pkt, writePacket (mkInfo 4 60) (pingPong.env 0 true) 2 2 70 (some (List.replicate 15 9)) [1, 2] = .ok (.sent 0 pkt) ∧
    fate (mkInfo 4 60) pingPong 100 1 false pkt = .ok (some (false, .flow 70 0 [1, 2])) :=
  ⟨_, rfl, by decide +kernel⟩

end Ouro.Dt
