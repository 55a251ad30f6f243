import Verif.Spec.Protobuf
import Verif.Proof.Tac

/-!
# C47: conversions to messages and back; C59: enrolment
-/

namespace Ouro.Protobuf

/-! ## C47 -/

/-- **C47, QoS.** -/
theorem C47_qos (s : Qos) : qosOfMsg (qosToMsg s) = s := by
  simp [qosOfMsg, qosToMsg]

theorem strcpy_ok {s : Str} (h : s.length ≤ 255) : strcpy s = .ok s := by simp [strcpy, nameSize, h]

/-- **C47, layer information.** -/
theorem C47_layer (s : LayerInfo) (h : s.name.length ≤ 255) : layerOfMsg (layerToMsg s) = .ok s := by
  simp [layerOfMsg, layerToMsg, strcpy_ok h]

/-- **C47, IPCP information.** -/
theorem C47_ipcp (s : IpcpInfo) (h : s.name.length ≤ 255) : ipcpOfMsg (ipcpToMsg s) = .ok s := by
  simp [ipcpOfMsg, ipcpToMsg, strcpy_ok h]

theorem uni_rt (s : UniConfig) : uniOfMsg (uniToMsg s) = s := by simp [uniOfMsg, uniToMsg, dtOfMsg, dtToMsg]

theorem udp_rt (s : UdpConfig) : udpOfMsg (udpToMsg s) = s := by simp [udpOfMsg, udpToMsg]

theorem eth_rt (s : EthConfig) (h : s.dev.length ≤ 255) : ethOfMsg (ethToMsg s) = .ok s := by
  simp [ethOfMsg, ethToMsg, strcpy_ok h]

/-- **C47, configuration.** For every type of IPCP, converting a configuration to a message and back gives the same configuration. -/
theorem C47_config (s : Config) (h : Valid s) : ∃ m s', configToMsg s = .ok m ∧ configOfMsg m = .ok s' ∧ Same s' s := by
  obtain ⟨hn, h1, h2, h3⟩ := h
  obtain ⟨layer, type, u⟩ := s
  dsimp only at *
  by_cases c1 : type = UNICAST
  · obtain ⟨x, rfl⟩ := h1 c1
    subst c1
    refine ⟨_, ⟨layer, UNICAST, .uni x⟩, rfl, ?_, ?_⟩
    · simp [configOfMsg, C47_layer layer hn, deref, uni_rt]
    · simp [Same]
  · by_cases c2 : type = ETH_LLC ∨ type = ETH_DIX
    · obtain ⟨x, rfl, hx⟩ := h2 c2
      refine ⟨⟨layerToMsg layer, type, none, none, some (ethToMsg x)⟩, ⟨layer, type, .eth x⟩, ?_, ?_, ?_⟩
      · simp [configToMsg, c1, c2]
      · simp [configOfMsg, C47_layer layer hn, deref, eth_rt x hx, c1, c2]
      · simp [Same]
    · by_cases c3 : type = UDP
      · obtain ⟨x, rfl⟩ := h3 c3
        refine ⟨⟨layerToMsg layer, type, none, some (udpToMsg x), none⟩, ⟨layer, type, .udp x⟩, ?_, ?_, ?_⟩
        · subst c3; simp [configToMsg, UDP, UNICAST, ETH_LLC, ETH_DIX]
        · subst c3; simp [configOfMsg, C47_layer layer hn, deref, udp_rt, UDP, UNICAST, ETH_LLC, ETH_DIX]
        · simp [Same]
      · refine ⟨⟨layerToMsg layer, type, none, none, none⟩, ⟨layer, type, .unset⟩, ?_, ?_, ?_⟩
        · simp [configToMsg, c1, c2, c3]
        · simp [configOfMsg, C47_layer layer hn, c1, c2, c3]
        · refine ⟨rfl, rfl, ?_⟩
          rintro (h | h | h | h)
          · exact absurd h c1
          · exact absurd (.inl h) c2
          · exact absurd (.inr h) c2
          · exact absurd h c3

theorem narrow (x : Int64) (h0 : 0 ≤ x.toInt) (h1 : x.toInt < 2 ^ 32) : x.toUInt64.toUInt32.toUInt64.toInt64 = x := by
  apply Int64.toBitVec_inj.1
  apply BitVec.eq_of_toNat_eq
  have hx : x.toBitVec.toNat < 2 ^ 32 := by
    have : x.toInt = x.toBitVec.toInt := rfl
    rw [this, BitVec.toInt_eq_toNat_cond] at h0 h1
    split at h1 <;> omega
  simp only [UInt64.toBitVec_toInt64, UInt32.toBitVec_toUInt64, UInt64.toBitVec_toUInt32, Int64.toBitVec_toUInt64, BitVec.toNat_setWidth]
  omega

/-- **C47, times.** If the nanoseconds are not negative and less than 2³². (Valid times have less than 10⁹.) -/
theorem C47_timespec (s : Timespec) (h0 : 0 ≤ s.nsec.toInt) (h1 : s.nsec.toInt < 10 ^ 9) : timespecOfMsg (timespecToMsg s) = s := by
  simp only [timespecOfMsg, timespecToMsg]
  rw [narrow s.nsec h0 (by omega)]
  simp

/-- **C47, flow information.** All of it, if the maximum packet lifetime is not negative and less than 2³². What is missing: other lifetimes are changed. -/
theorem C47_flow_partial (s : FlowInfo) (h0 : 0 ≤ s.mpl.toInt) (h1 : s.mpl.toInt < 2 ^ 32) : flowOfMsg (flowToMsg s) = s := by
  obtain ⟨id, nPid, n1Pid, mpl, qs, state⟩ := s
  simp only [flowOfMsg, flowToMsg, C47_qos, narrow mpl h0 h1]
  simp

/-- **C47 is violated for the lifetime in flow information**: it is a `time_t` in the structure and 32 bits in the message. -/
theorem C47_flow_violated (s : FlowInfo) (h : s.mpl = -1) : flowOfMsg (flowToMsg s) ≠ s := by
  intro he
  have := congrArg FlowInfo.mpl he
  simp only [flowOfMsg, flowToMsg, h] at this
  exact absurd this (by decide)

theorem copyId_ok {id : Str} (h : id.length = 8) : copyId id = .ok id := by
  simp [copyId, idLen, h, List.take_of_length_le]

/-- **C47, enrolment request.** -/
theorem C47_req (s : EnrollReq) (h : s.id.length = 8) : ∃ m, reqToMsg s = .ok m ∧ reqOfMsg m = .ok s := by
  simp [reqToMsg, reqOfMsg, copyId_ok h]

/-- **C47, enrolment acknowledgement.** -/
theorem C47_ack (s : EnrollAck) (h : s.id.length = 8) : ∃ m, ackToMsg s = .ok m ∧ ackOfMsg m = .ok s := by
  simp [ackToMsg, ackOfMsg, copyId_ok h]

theorem narrow32 (x : Int64) (h0 : 0 ≤ x.toInt) (h1 : x.toInt < 2 ^ 31) : x.toInt32.toInt64 = x := by
  apply Int64.toInt_inj.1
  rw [Int32.toInt_toInt64, Int64.toInt_toInt32]
  simp only [Int.bmod]
  omega

/-- **C47, enrolment response.** A negative response carries no configuration; else the configuration is the same. -/
theorem C47_resp (s : EnrollResp) (h : s.id.length = 8) (h0 : 0 ≤ s.t.nsec.toInt) (h1 : s.t.nsec.toInt < 10 ^ 9)
    (hc : ¬ s.response < 0 → ∃ c, s.conf = some c ∧ Valid c) :
    ∃ m s', respToMsg s = .ok m ∧ respOfMsg m = .ok s' ∧ s'.id = s.id ∧ s'.t = s.t ∧ s'.response = s.response ∧
      (s.response < 0 → s'.conf = none) ∧ (¬ s.response < 0 → ∃ c c', s.conf = some c ∧ s'.conf = some c' ∧ Same c' c) := by
  have ht : (⟨s.t.sec, s.t.nsec.toInt32.toInt64⟩ : Timespec) = s.t := by rw [narrow32 _ h0 (by omega)]
  by_cases hr : s.response < 0
  · have hr' : ¬ s.response ≥ 0 := fun h => absurd hr (Int32.not_lt.2 h)
    refine ⟨_, ⟨s.id, ⟨s.t.sec, s.t.nsec.toInt32.toInt64⟩, s.response, none⟩, by simp only [respToMsg, copyId_ok h, hr, if_true, Outcome.bind_ok, Outcome.pure_eq]; rfl, ?_, rfl, ht, rfl, fun _ => rfl, fun h => absurd hr h⟩
    simp only [respOfMsg, hr', if_false, Outcome.bind_ok, Outcome.pure_eq, copyId_ok h]
  · have hr' : s.response ≥ 0 := Int32.not_lt.1 hr
    obtain ⟨c, hcs, hv⟩ := hc hr
    obtain ⟨m, c', h2, h3, h4⟩ := C47_config c hv
    refine ⟨⟨s.id, s.t.sec, s.t.nsec.toInt32, s.response, some m⟩, ⟨s.id, ⟨s.t.sec, s.t.nsec.toInt32.toInt64⟩, s.response, some c'⟩, ?_, ?_, rfl, ht, rfl, fun h => absurd h hr, fun _ => ⟨c, c', hcs, rfl, h4⟩⟩
    · simp only [respToMsg, copyId_ok h, hr, if_false, Outcome.bind_ok, Outcome.pure_eq, hcs, deref, h2]
    · simp only [respOfMsg, hr', if_true, Outcome.bind_ok, Outcome.pure_eq, copyId_ok h, deref, h3]

/-! ### Cases that meet the hypotheses -/

/-- The default configuration of a unicast IPCP (include/ouroboros/ipcp.h:167-183), with a name. -/
def uniDefault : Config := ⟨⟨[110], 1⟩, UNICAST, .uni ⟨⟨4, 8, 60, 0⟩, 0, 1⟩⟩

example : Valid uniDefault := ⟨by decide, fun _ => ⟨_, rfl⟩, fun h => absurd h (by decide), fun h => absurd h (by decide)⟩
example : Valid ⟨⟨[110], 1⟩, ETH_DIX, .eth ⟨[101, 116, 104], 0xA000⟩⟩ :=
  ⟨by decide, fun h => absurd h (by decide), fun _ => ⟨_, rfl, by decide⟩, fun h => absurd h (by decide)⟩
example : Valid ⟨⟨[110], 1⟩, UDP, .udp ⟨1, 2, 3435⟩⟩ := ⟨by decide, fun h => absurd h (by decide), fun h => absurd h (by decide), fun _ => ⟨_, rfl⟩⟩
example : Valid ⟨⟨[], 0⟩, BROADCAST, .unset⟩ := ⟨by decide, fun h => absurd h (by decide), fun h => absurd h (by decide), fun h => absurd h (by decide)⟩

/-- **C47, received configurations: a part that is missing is not noticed.** A message with a type that has a specific part, but without that part, is undefined: the pointer is null. -/
theorem C47_missing_violated (l : LayerInfoMsg) (h : l.name.length ≤ 255) (t : UInt32) (ht : t = UNICAST ∨ t = ETH_LLC ∨ t = ETH_DIX ∨ t = UDP) :
    configOfMsg ⟨l, t, none, none, none⟩ = .ub := by
  have hl : layerOfMsg l = .ok ⟨l.name, l.algo⟩ := by simp [layerOfMsg, strcpy_ok h]
  rcases ht with rfl | rfl | rfl | rfl <;> simp [configOfMsg, hl, deref, UNICAST, ETH_LLC, ETH_DIX, UDP]

/-- **C47, received configurations: sizes are cut off.** A message that says addresses have 260 bytes is taken as 4. -/
theorem C47_truncated_violated (m : DtConfigMsg) (h : m.addrSize = 260) : (dtOfMsg m).addrSize = 4 := by
  simp only [dtOfMsg, h]; decide

/-- **C47, received names that are too long overflow the structure.** -/
theorem C47_long_violated (m : LayerInfoMsg) (h : 255 < m.name.length) : layerOfMsg m = .ub := by
  have : ¬ m.name.length ≤ nameSize := by unfold nameSize; omega
  simp [layerOfMsg, strcpy, this]

/-! ## C59 -/

/-- **C59, the same configuration.** If the messages fit in the buffer, an IPCP that enrols with a member of its own type gets the configuration of the member, for every
configuration, identifier and clock. -/
theorem C59_same {R W : Type} (kr : Codec EnrollReq R) (kw : Codec EnrollRespMsg W) (lr : kr.Law) (lw : kw.Law) (id : Str) (hid : id.length = 8) (conf : Config) (hv : Valid conf)
    (t : Timespec) (h0 : 0 ≤ t.nsec.toInt) (h1 : t.nsec.toInt < 10 ^ 9) (hr : kr.size (kr.pack ⟨id⟩) ≤ 1024)
    (hw : ∀ m, respToMsg ⟨id, t, 0, some conf⟩ = .ok m → kw.size (kw.pack m) ≤ 1024) :
    ∃ r w c, bootReq kr id = .ok (some r) ∧ handle kr kw conf t r = .ok (some w) ∧ bootReply kw conf.type id w = .ok (some c) ∧ Same c conf := by
  obtain ⟨m, s', hm, hs', hid', _, hresp, _, hcf⟩ := C47_resp ⟨id, t, 0, some conf⟩ hid h0 h1 (fun _ => ⟨conf, rfl, hv⟩)
  obtain ⟨c, c', hc, hc', hsame⟩ := hcf (show ¬ (0 : Int32) < 0 by decide)
  cases hc
  dsimp only at hid' hresp hc'
  refine ⟨kr.pack ⟨id⟩, kw.pack m, c', ?_, ?_, ?_, hsame⟩
  · simp only [bootReq, ser, reqToMsg, copyId_ok hid, Outcome.bind_ok, Outcome.pure_eq]
    rw [if_neg (by unfold bufLen; omega)]
  · have h2 := hw m hm
    simp only [handle, reqDes, lr ⟨id⟩, hid, idLen, ne_eq, not_true, if_false, reqOfMsg, copyId_ok hid, Outcome.bind_ok, Outcome.pure_eq, ser, hm]
    rw [if_neg (by unfold bufLen; omega)]
  · have ht : id.take idLen = id := by rw [List.take_of_length_le]; simp [hid, idLen]
    have : ¬ (0 : Int32) < 0 := by decide
    have hty : c'.type = conf.type := hsame.2.1
    simp [bootReply, respDes, lw m, hs', hid', ht, hresp, this, hc', deref, hty]

/-- **C59, only that.** Enrolment succeeds only with a reply that has the identifier of the request, is not a denial, and has a configuration for this type of IPCP; the configuration is
the one of that reply. -/
theorem C59_only {W : Type} (kw : Codec EnrollRespMsg W) (type : UInt32) (id : Str) (hid : id.length = 8) (w : W) (c : Config) (h : bootReply kw type id w = .ok (some c)) :
    ∃ m cm, kw.unpack w = some m ∧ m.id.take 8 = id ∧ ¬ m.response < 0 ∧ m.conf = some cm ∧ configOfMsg cm = .ok c ∧ cm.type = type := by
  have ht : id.take idLen = id := by rw [List.take_of_length_le]; simp [hid, idLen]
  simp only [bootReply, respDes] at h
  cases hm : kw.unpack w with
  | none => rw [hm] at h; cases h
  | some m =>
    rw [hm] at h
    simp only at h
    refine ⟨m, ?_⟩
    cases hrm : respOfMsg m with
    | ub => rw [hrm] at h; cases h
    | ok r =>
      rw [hrm] at h
      simp only [Outcome.bind_ok, Outcome.pure_eq, ht] at h
      split at h
      · cases h
      · rename_i hide
        split at h
        · cases h
        · rename_i hneg
          simp only [respOfMsg] at hrm
          by_cases hr : m.response ≥ 0
          · simp only [hr, if_true] at hrm
            cases hmc : m.conf with
            | none => rw [hmc] at hrm; cases hrm
            | some cm =>
              rw [hmc] at hrm
              simp only [deref, Outcome.bind_ok] at hrm
              cases hco : configOfMsg cm with
              | ub => rw [hco] at hrm; cases hrm
              | ok c2 =>
                rw [hco] at hrm
                simp only [Outcome.bind_ok, Outcome.pure_eq] at hrm
                cases hcp : copyId m.id with
                | ub => rw [hcp] at hrm; cases hrm
                | ok i =>
                  rw [hcp] at hrm
                  simp only [Outcome.bind_ok] at hrm
                  cases hrm
                  simp only [deref, Outcome.bind_ok] at h
                  simp only [ne_eq, Decidable.not_not] at hide
                  split at h
                  · cases h
                  · rename_i hty
                    cases h
                    refine ⟨cm, rfl, ?_, hneg, rfl, hco, ?_⟩
                    · unfold copyId at hcp
                      split at hcp
                      · cases hcp; exact hide
                      · cases hcp
                    · have : c.type = cm.type := by
                        simp only [configOfMsg] at hco
                        cases hl : layerOfMsg cm.layer with
                        | ub => rw [hl] at hco; cases hco
                        | ok l =>
                          rw [hl] at hco
                          simp only [Outcome.bind_ok, Outcome.pure_eq] at hco
                          split at hco
                          · cases hu : cm.uni with
                            | none => rw [hu] at hco; cases hco
                            | some x => rw [hu] at hco; cases hco; rfl
                          · split at hco
                            · cases hu : cm.eth with
                              | none => rw [hu] at hco; cases hco
                              | some x =>
                                rw [hu] at hco
                                simp only [deref, Outcome.bind_ok] at hco
                                cases he : ethOfMsg x with
                                | ub => rw [he] at hco; cases hco
                                | ok e => rw [he] at hco; cases hco; rfl
                            · split at hco
                              · cases hu : cm.udp with
                                | none => rw [hu] at hco; cases hco
                                | some x => rw [hu] at hco; cases hco; rfl
                              · cases hco; rfl
                      rw [← this]
                      simpa using hty
          · exfalso
            simp only [hr, if_false, Outcome.bind_ok, Outcome.pure_eq] at hrm
            cases hcp : copyId m.id with
            | ub => rw [hcp] at hrm; cases hrm
            | ok i =>
              rw [hcp] at hrm
              simp only [Outcome.bind_ok] at hrm
              cases hrm
              exact hneg (Int32.not_le.1 hr)

/-- **C59, any request.** Whatever a peer sends as a request, the member answers with its configuration under the identifier of the request, or not at all; it does not crash. -/
theorem C59_any_request {R W : Type} (kr : Codec EnrollReq R) (kw : Codec EnrollRespMsg W) (conf : Config) (hv : Valid conf) (t : Timespec) (h0 : 0 ≤ t.nsec.toInt) (h1 : t.nsec.toInt < 10 ^ 9) (r : R) :
    handle kr kw conf t r = .ok none ∨ ∃ q m s c, kr.unpack r = some q ∧ handle kr kw conf t r = .ok (some (kw.pack m)) ∧ respOfMsg m = .ok s ∧ s.id = q.id ∧ s.response = 0 ∧
      s.conf = some c ∧ Same c conf := by
  simp only [handle, reqDes]
  cases hu : kr.unpack r with
  | none => exact .inl rfl
  | some m =>
    dsimp only
    by_cases hl : m.id.length = 8
    · obtain ⟨m', s', hm, hs', hid', _, hresp, _, hcf⟩ := C47_resp ⟨m.id, t, 0, some conf⟩ hl h0 h1 (fun _ => ⟨conf, rfl, hv⟩)
      obtain ⟨c, c', hc, hc', hsame⟩ := hcf (show ¬ (0 : Int32) < 0 by decide)
      cases hc
      simp only [hl, idLen, ne_eq, not_true, if_false, reqOfMsg, copyId_ok hl, Outcome.bind_ok, Outcome.pure_eq, ser, hm]
      split
      · exact .inl rfl
      · exact .inr ⟨m, m', s', c', rfl, rfl, hs', hid', hresp, hc', hsame⟩
    · simp only [idLen, ne_eq, hl, not_false_iff, if_true]
      exact .inl rfl

/-- A codec. -/
def idCodec (M : Type) : Codec M M := ⟨id, some, fun _ => 0⟩

/-- A case that meets the hypotheses of `C59_same`. -/
example : ∃ r w c, bootReq (idCodec _) [1, 2, 3, 4, 5, 6, 7, 8] = .ok (some r) ∧ handle (idCodec _) (idCodec _) uniDefault ⟨1, 2⟩ r = .ok (some w) ∧
    bootReply (idCodec _) uniDefault.type [1, 2, 3, 4, 5, 6, 7, 8] w = .ok (some c) ∧ Same c uniDefault :=
  C59_same _ _ (fun _ => rfl) (fun _ => rfl) _ rfl uniDefault
    ⟨by decide, fun _ => ⟨_, rfl⟩, fun h => absurd h (by decide), fun h => absurd h (by decide)⟩ _ (by decide) (by decide) (Nat.zero_le _) (fun _ _ => Nat.zero_le _)

/-- **C59 is violated for replies**: the length of the identifier of a reply is not checked, unlike that of a request. A reply with a short one makes the enrolling IPCP read past its end. -/
theorem C59_reply_violated {W : Type} (kw : Codec EnrollRespMsg W) (lw : kw.Law) (m : EnrollRespMsg) (h : m.id.length < 8) (type : UInt32) (id : Str) : bootReply kw type id (kw.pack m) = .ub := by
  have hc : copyId m.id = .ub := by
    have : ¬ idLen ≤ m.id.length := by unfold idLen; omega
    simp [copyId, this]
  have : respOfMsg m = .ub := by
    simp only [respOfMsg]
    split
    · cases m.conf with
      | none => rfl
      | some cm =>
        simp only [deref, Outcome.bind_ok]
        cases configOfMsg cm with
        | ub => rfl
        | ok c => simp [hc]
    · simp [hc]
  simp [bootReply, respDes, lw m, this]

/-- **C59 is violated for replies without a configuration** that are not a denial. -/
theorem C59_no_config_violated {W : Type} (kw : Codec EnrollRespMsg W) (lw : kw.Law) (m : EnrollRespMsg) (h : m.conf = none) (hr : 0 ≤ m.response) (type : UInt32) (id : Str) :
    bootReply kw type id (kw.pack m) = .ub := by
  have : m.response ≥ 0 := hr
  simp [bootReply, respDes, lw m, respOfMsg, this, h, deref]

/-- **C59 is violated for acknowledgements**: a short identifier makes the member read past its end. -/
theorem C59_ack_violated {W : Type} (k : Codec EnrollAck W) (l : k.Law) (m : EnrollAck) (h : m.id.length < 8) : ackDes k (k.pack m) = .ub := by
  have : ¬ idLen ≤ m.id.length := by unfold idLen; omega
  simp [ackDes, l m, ackOfMsg, copyId, this]

end Ouro.Protobuf
