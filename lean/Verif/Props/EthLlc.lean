import Verif.Proof.EthLlcTalk

/-!
# C63 — flows over Ethernet stay with their peers
-/

namespace Ouro.EthLlc

open Ouro.FaMsg

/-- C63. A request is read as it was sent: SAP, QoS, name and data, whatever the uninitialised bytes are. -/
theorem C63_request_roundtrip (e : Byte) (q : Qos) (hq : q.WF) (L : Nat) (dst : List Byte) (hd : dst.length = L) (data : List Byte) (j : Junk) :
    parse L (request e.toNat q dst data j) = .ok (.request e.toNat q dst data) :=
  parse_request e.isLt hq hd data j

example : parse 2 (request 9 ⟨1, 2, 3, 4, 5, 6, 7, 8, 9⟩ [1, 2] [3] ⟨77, 3, 99⟩) = .ok (.request 9 ⟨1, 2, 3, 4, 5, 6, 7, 8, 9⟩ [1, 2] [3]) := by decide +kernel

/-- C63. A reply is read as it was sent, if the response fits 8 bits. -/
theorem C63_reply_roundtrip (e g : Byte) (r : Int) (h1 : -128 ≤ r) (h2 : r ≤ 127) (L : Nat) (data : List Byte) (j : Junk) :
    parse L (reply e.toNat g.toNat r data j) = .ok (.reply e.toNat g.toNat r data) :=
  parse_reply e.isLt g.isLt h1 h2 L data j

example : parse 32 (reply 4 7 (-3) [1, 2] ⟨77, 3, 99⟩) = .ok (.reply 4 7 (-3) [1, 2]) := by decide +kernel

/-- C63. Questions for names and answers are read as they were sent. -/
theorem C63_query_roundtrip (L : Nat) (h : List Byte) (hh : h.length = L) (j : Junk) :
    parse L (queryMsg NAME_QUERY_REQ h j) = .ok (.query h) ∧ parse L (queryMsg NAME_QUERY_REPLY h j) = .ok (.answer h) :=
  parse_query hh j

/-- C63. The bits of SAPs are in reversed order in a frame, and reversing them again gives the SAP. -/
theorem C63_bits (b : Byte) : reverseBits (reverseBits b) = b ∧ ∀ i, i < 8 → (reverseBits b).getLsbD i = b.getLsbD (7 - i) :=
  ⟨reverse_invol b, reverse_lsb b⟩

/-- C63. A frame has its parts where the standard wants them. -/
theorem C63_frame (dst src : Nat) (hd : dst < 2 ^ 48) (hs : src < 2 ^ 48) (dsap ssap : Byte) (p : List Byte) :
    IsFrame (frame dst src (reverseBits dsap) (reverseBits ssap) p) dst src dsap.toNat ssap.toNat p := by
  have := frame_is hd hs dsap.isLt ssap.isLt p
  simpa using this

example : IsFrame (frame 1 2 (reverseBits 5) (reverseBits 6) [7, 8]) 1 2 5 6 [7, 8] := C63_frame 1 2 (by decide) (by decide) 5 6 [7, 8]

/-- C63 (partial: nobody deallocates a flow while the IPCP still works on its request). Whatever frames come in, a packet is delivered on a flow only if it came from the SAP and the address that asked for the flow or replied to its
request. -/
theorem C63_isolation_partial (c : Cfg) (hm : c.mac < 2 ^ 48) (ops : List Op) (hc : Along c Calm init ops) (s : Host) (h : run c init ops = .ok s)
    (l1 l2 : List Event) (fd a sap : Nat) (p : List Byte) (hl : s.log = l1 ++ .delivered fd a sap p :: l2) : Peer l1 fd a sap :=
  (run_ainv hm ops init (init_ainv c) hc s h).hist _ _ _ hl

/-- C63 (partial, as above). What is sent for a flow was written to it, comes from this host, and goes to its peer; or to address 0, if the peer is not known. -/
theorem C63_sent_partial (c : Cfg) (hm : c.mac < 2 ^ 48) (ops : List Op) (hc : Along c Calm init ops) (s : Host) (h : run c init ops = .ok s)
    (l1 l2 : List Event) (fd : Nat) (b : List Byte) (hl : s.log = l1 ++ .sent fd b :: l2) :
    ∃ p, .wrote fd p ∈ l1 ∧ ∃ dst dsap ssap, IsFrame b dst c.mac dsap ssap p ∧ (Peer l1 fd dst dsap ∨ dst = 0 ∧ dsap = 255) :=
  (run_ainv hm ops init (init_ainv c) hc s h).hist _ _ _ hl

/-- C63 (partial, as above). Flows are offered, and questions are answered, for registered names only. -/
theorem C63_registered_partial (c : Cfg) (hm : c.mac < 2 ^ 48) (ops : List Op) (hc : Along c Calm init ops) (s : Host) (h : run c init ops = .ok s) (l1 l2 : List Event) (n : List Byte)
    (hl : (∃ fd a sap q d, s.log = l1 ++ .offered fd a sap n q d :: l2) ∨ ∃ a, s.log = l1 ++ .answered a n :: l2) : Registered l1 n := by
  rcases hl with ⟨_, _, _, _, _, hl⟩ | ⟨_, hl⟩
  · exact (run_ainv hm ops init (init_ainv c) hc s h).hist _ _ _ hl
  · exact (run_ainv hm ops init (init_ainv c) hc s h).hist _ _ _ hl

/-- C63 (partial, as above). A request goes to a host that said it has the name. -/
theorem C63_destination_partial (c : Cfg) (hm : c.mac < 2 ^ 48) (ops : List Op) (hc : Along c Calm init ops) (s : Host) (h : run c init ops = .ok s)
    (l1 l2 : List Event) (fd a : Nat) (n : List Byte) (q : Qos) (d : List Byte) (hl : s.log = l1 ++ .requested fd a n q d :: l2) : .announced n a ∈ l1 :=
  (run_ainv hm ops init (init_ainv c) hc s h).hist _ _ _ hl

/-- C63 (partial: frames are whole, come from hosts of the layer and are read before their buffer is used again; fewer than 62 flows; no refusals; only flows with a SAP are deallocated). There is no undefined behaviour. -/
theorem C63_no_crash_partial (c : Cfg) (hm : c.mac < 2 ^ 48) (ops : List Op) (hc : Along c Calm init ops) (hf : Along c (Fair c) init ops) : ∃ s, run c init ops = .ok s := by
  obtain ⟨s, h, -⟩ := run_binv hm ops init (init_ainv c) (init_binv c) hc hf
  exact ⟨s, h⟩

/-- C63 (partial, as above). No two flows have the same SAP, and no flow has two; none has the SAP of the management frames. -/
theorem C63_saps_partial (c : Cfg) (hm : c.mac < 2 ^ 48) (ops : List Op) (hc : Along c Calm init ops) (hf : Along c (Fair c) init ops) (s : Host) (h : run c init ops = .ok s)
    (fd fd' sap sap' : Nat) (h1 : HasSap s.log fd sap) (h2 : HasSap s.log fd' sap') : (fd = fd' ↔ sap = sap') ∧ 2 ≤ sap ∧ sap < 64 := by
  obtain ⟨A, B, R⟩ := reach hm hc hf h
  have e1 := B.has _ _ h1
  have e2 := B.has _ _ h2
  rcases B.sapv fd with hn | ⟨x, x1, x2, x3, -, x5, -⟩
  · rw [hn] at e1; omega
  rcases B.sapv fd' with hn | ⟨y, y1, y2, y3, -, y5, -⟩
  · rw [hn] at e2; omega
  have hx : x = sap := by rw [x3] at e1; exact_mod_cast e1
  have hy : y = sap' := by rw [y3] at e2; exact_mod_cast e2
  subst hx hy
  refine ⟨⟨?_, ?_⟩, x1, x2⟩
  · rintro rfl
    rw [x3] at y3; exact_mod_cast y3
  · rintro rfl
    rw [x5] at y5; cases y5; rfl

/-- C63 (partial, as above; the SAP of the peer is below 128). A packet from the one peer of a flow is delivered on that flow as it was sent, whatever padding or old memory follows it. -/
theorem C63_delivery_partial (c : Cfg) (hm : c.mac < 2 ^ 48) (ops : List Op) (hc : Along c Calm init ops) (hf : Along c (Fair c) init ops) (s : Host) (h : run c init ops = .ok s)
    (fd sap a t : Nat) (hb : ∀ b, s.busy = some b → b.fd ≠ fd) (h1 : HasSap s.log fd sap) (h2 : Peer s.log fd a t) (h3 : ∀ a' t', Peer s.log fd a' t' → a' = a ∧ t' = t) (ht : t < 128)
    (dst : Nat) (p pad mem : List Byte) (hp : p.length ≤ 1497) :
    step c s (.recv (frame dst a (reverseBits (BitVec.ofNat 8 sap)) (reverseBits (BitVec.ofNat 8 t)) p ++ pad) mem none) = .ok { s with log := s.log ++ [.delivered fd a t p] } := by
  obtain ⟨A, B, R⟩ := reach hm hc hf h
  obtain ⟨x1, x2, -, x5, x6, x7⟩ := flow_row A B hb h1 h2 h3
  have hr := R fd
  have hrs : (s.ef fd).rSap = t := by
    unfold toU8 at x7; omega
  have ha : a < 2 ^ 48 := x6 ▸ A.adr fd
  exact recv_data ha hp x2 (by omega) ht x5 hrs x6 (A.tab _ _ x5).1 pad mem

/-- C63 (partial, as above). A packet that a writer has taken from a flow and that fits is sent to the one peer of that flow, from the SAP of the flow. -/
theorem C63_send_partial (c : Cfg) (hm : c.mac < 2 ^ 48) (ops : List Op) (hc : Along c Calm init ops) (hf : Along c (Fair c) init ops) (s : Host) (h : run c init ops = .ok s)
    (fd sap a t : Nat) (hb : ∀ b, s.busy = some b → b.fd ≠ fd) (h1 : HasSap s.log fd sap) (h2 : Peer s.log fd a t) (h3 : ∀ a' t', Peer s.log fd a' t' → a' = a ∧ t' = t)
    (w : Nat) (p : List Byte) (hw : s.wr w = some (fd, p)) (hp : p.length + 3 ≤ c.mtu) :
    ∃ s' b, step c s (.send w true) = .ok s' ∧ s'.log = s.log ++ [.sent fd b] ∧ IsFrame b a c.mac t sap p := by
  obtain ⟨A, B, R⟩ := reach hm hc hf h
  obtain ⟨x1, x2, x3, x5, x6, x7⟩ := flow_row A B hb h1 h2 h3
  have hs : sends c p.length true = true := by simp [sends]; omega
  have ha : a < 2 ^ 48 := x6 ▸ A.adr fd
  have e : step c s (.send w true) = .ok { s with wr := upd s.wr w none, log := s.log ++ [.sent fd (frame a c.mac (reverseBits (BitVec.ofNat 8 t)) (reverseBits (BitVec.ofNat 8 sap)) p)] } := by
    simp only [step, hw, hs, if_true, x6, x7, x3, toU8_nat (show sap < 256 by omega)]
  exact ⟨_, _, e, rfl, frame_is ha hm (by rw [← x7]; exact toU8_lt _) (by omega) p⟩

/-- C63 (partial, as above). The reply for a flow goes to the host that asked for it, and is read there as: this SAP accepts the request of your SAP, with this data. -/
theorem C63_response_partial (c : Cfg) (hm : c.mac < 2 ^ 48) (ops : List Op) (hc : Along c Calm init ops) (hf : Along c (Fair c) init ops) (s : Host) (h : run c init ops = .ok s)
    (fd a t : Nat) (hb : ∀ b, s.busy = some b → b.fd ≠ fd) (h2 : Peer s.log fd a t) (h3 : ∀ a' t', Peer s.log fd a' t' → a' = a ∧ t' = t) (hr : Room s.log) (haw : s.await = some fd)
    (data : List Byte) (hp : 36 + data.length + 3 ≤ c.mtu) (j : Junk) :
    ∃ s' b m sap, step c s (.resp fd 0 data true j) = .ok s' ∧ s'.out = s.out ++ [(a, b)] ∧ IsFrame b a c.mac 1 1 m ∧ parse c.hashLen m = .ok (.reply sap t 0 data) ∧ HasSap s'.log fd sap := by
  obtain ⟨A, B, R⟩ := reach hm hc hf h
  obtain ⟨sap, e1, e2, e3, e4⟩ := room_sap B hr
  have hp' : Peer s.log fd (s.ef fd).addr (toU8 (s.ef fd).rSap) := by
    rcases A.cur fd a t h2 with ⟨b, hb1, hb2⟩ | hp
    · exact (hb b hb1 hb2).elim
    · exact hp
  obtain ⟨x6, x7⟩ := h3 _ _ hp'
  have ha : a < 2 ^ 48 := x6 ▸ A.adr fd
  have ht : t < 256 := by rw [← x7]; exact toU8_lt _
  have hs : sends c (reply sap t 0 data j).length true = true := by simp [sends, length_reply]; omega
  have hs1 : ¬ MAX_SAPS ≤ sap := by unfold MAX_SAPS; omega
  have e : step c s (.resp fd 0 data true j) = .ok { s with
      await := none, used := upd s.used sap true, ef := upd s.ef fd { s.ef fd with sap := sap }, efToFd := upd s.efToFd sap (some fd), opened := upd s.opened fd true,
      out := s.out ++ [(a, frame a c.mac (reverseBits 1) (reverseBits 1) (reply sap t 0 data j))], log := s.log ++ [.responded fd data, .assigned fd sap] } := by
    simp only [step, resp, haw, e1, ne_eq, not_true_eq_false, if_false, hs1, upd_same, x6, x7, hs, if_true]
  refine ⟨_, _, reply sap t 0 data j, sap, e, rfl, ?_, parse_reply (by omega) ht (by decide) (by decide) _ _ _, ?_⟩
  · exact frame_is ha hm (dsap := 1) (ssap := 1) (by decide) (by decide) _
  · exact (sap_mem (by simp)).2 (.inl (by simp))

/-- C63 (partial, as above). A request goes to a host that said it has the name, and is read there as: this SAP asks for the name, with this QoS and this data. -/
theorem C63_request_partial (c : Cfg) (hm : c.mac < 2 ^ 48) (ops : List Op) (hc : Along c Calm init ops) (hf : Along c (Fair c) init ops) (s : Host) (h : run c init ops = .ok s)
    (fd : Nat) (hfd : freeFd s fd = true) (n : List Byte) (hn : n.length = c.hashLen) (a : Nat) (hd : (n, a) ∈ s.dir) (hr : Room s.log) (q : Qos) (hq : q.WF)
    (data : List Byte) (hp : 36 + c.hashLen + data.length + 3 ≤ c.mtu) (j : Junk) :
    ∃ s' a b m sap, step c s (.alloc fd n q data true j) = .ok s' ∧ .announced n a ∈ s.log ∧ s'.out = s.out ++ [(a, b)] ∧ IsFrame b a c.mac 1 1 m ∧ parse c.hashLen m = .ok (.request sap q n data) ∧
      HasSap s'.log fd sap := by
  obtain ⟨A, B, R⟩ := reach hm hc hf h
  obtain ⟨sap, e1, e2, e3, e4⟩ := room_sap B hr
  obtain ⟨x, hx⟩ : ∃ x, s.dir.find? (fun e => e.1 == n) = some x := by
    rw [← Option.isSome_iff_exists, List.find?_isSome]
    exact ⟨_, hd, by simp⟩
  have hx1 : x.1 = n := by simpa using List.find?_some hx
  obtain ⟨hx2, hx3⟩ := A.dirI x (List.mem_of_find?_eq_some hx)
  have hs : sends c (request sap q n data j).length true = true := by simp [sends, length_request, hn]; omega
  have hs1 : ¬ MAX_SAPS ≤ sap := by unfold MAX_SAPS; omega
  have e : step c s (.alloc fd n q data true j) = .ok { s with
      live := upd s.live fd true, used := upd s.used sap true, ef := upd s.ef fd { s.ef fd with sap := sap }, efToFd := upd s.efToFd sap (some fd),
      out := s.out ++ [(x.2, frame x.2 c.mac (reverseBits 1) (reverseBits 1) (request sap q n data j))], log := s.log ++ [.requested fd x.2 n q data, .assigned fd sap] } := by
    simp only [step, alloc, hfd, hn, hx, e1, hs, hs1, ne_eq, not_true_eq_false, or_false, if_false, if_true, Bool.true_eq_false]
  refine ⟨_, x.2, _, request sap q n data j, sap, e, hx1 ▸ hx2, rfl, ?_, parse_request (by omega) hq hn _ _, ?_⟩
  · exact frame_is hx3 hm (dsap := 1) (ssap := 1) (by decide) (by decide) _
  · exact (sap_mem (by simp)).2 (.inl (by simp))

/-- The hypotheses can be met, by a flow that was asked for here and by one that another host asked for. -/
example : Along c0 Calm init opening ∧ Along c0 (Fair c0) init opening ∧ Along c0 Calm init serving ∧ Along c0 (Fair c0) init serving ∧
    check (opening ++ [.write 0 64 [1, 2], .send 0 true, .recv (frame c0.mac 9 (reverseBits 2) (reverseBits 5) [3, 4]) [] none, .dealloc 64]) (fun s => s.log ==
      [.announced h0 9, .requested 64 9 h0 q0 [5], .assigned 64 2, .replied 64 9 5 0 [6], .wrote 64 [1, 2], .sent 64 (frame 9 c0.mac (reverseBits 5) (reverseBits 2) [1, 2]), .delivered 64 9 5 [3, 4], .closed 64]) = true ∧
    check (serving ++ [.write 0 64 [1, 2], .send 0 true, .recv (frame c0.mac 9 (reverseBits 2) (reverseBits 5) [3, 4]) [] none]) (fun s => s.log ==
      [.registered h0, .offered 64 9 5 h0 q0 [5], .responded 64 [6], .assigned 64 2, .wrote 64 [1, 2], .sent 64 (frame 9 c0.mac (reverseBits 5) (reverseBits 2) [1, 2]), .delivered 64 9 5 [3, 4]]) = true :=
  ⟨opening_calm, opening_fair, serving_calm, serving_fair, by decide +kernel, by decide +kernel⟩

/-- C63. Two hosts: if no frame gets lost and nobody is too fast, a request for a name becomes a pair of flows, with the QoS and the data that were given, and packets arrive in both directions as they were written. -/
theorem C63_established (a b f g w w' : Nat) (L M : Nat) (ha : a < 2 ^ 48) (hb : b < 2 ^ 48) (hf : 64 ≤ f ∧ f < 4096) (hg : 64 ≤ g ∧ g < 4096) (n : List Byte) (hn : n.length = L) (q : Qos) (hq : q.WF)
    (hM : M ≤ 1500) (d r p p' : List Byte) (hd : 36 + L + d.length + 3 ≤ M) (hr : 36 + r.length + 3 ≤ M) (hp : p.length + 3 ≤ M) (hp' : p'.length + 3 ≤ M) (ja jb j1 j2 j3 : Junk) :
    ∃ s1 s2 s3 s4 s5 f1 f2 f3 f4,
      run ⟨a, M, L⟩ init [.recv (frame a b (reverseBits 1) (reverseBits 1) (queryMsg NAME_QUERY_REPLY n j1)) [] none, .mgmt none true j1, .alloc f n q d true ja] = .ok s1 ∧ s1.out = [(b, f1)] ∧
      run ⟨b, M, L⟩ init [.reg n, .recv f1 [] none, .mgmt (some g) true j2, .mgmtStore, .resp g 0 r true jb] = .ok s2 ∧ s2.out = [(a, f2)] ∧
      run ⟨a, M, L⟩ s1 [.recv f2 [] none, .mgmt none true j3, .write w f p, .send w true] = .ok s3 ∧ .sent f f3 ∈ s3.log ∧
      run ⟨b, M, L⟩ s2 [.recv f3 [] none, .write w' g p', .send w' true] = .ok s4 ∧ .sent g f4 ∈ s4.log ∧
      run ⟨a, M, L⟩ s3 [.recv f4 [] none] = .ok s5 ∧
      s4.log = [.registered n, .offered g a 2 n q d, .responded g r, .assigned g 2, .delivered g a 2 p, .wrote g p', .sent g f4] ∧
      s5.log = [.announced n b, .requested f b n q d, .assigned f 2, .replied f b 2 0 r, .wrote f p, .sent f f3, .delivered f b 2 p'] :=
  established a b f g w w' L M ha hb hf hg n hn q hq hM d r p p' hd hr hp hp' ja jb j1 j2 j3

/-- C63. Any host can crash any other with one frame: the SAP it is for is not compared with the size of the table. -/
theorem C63_sap_crash_violated (c : Cfg) (s : Host) (dst src : Nat) (hs : src < 2 ^ 48) (dsap ssap : Byte) (h : 64 ≤ dsap.toNat) (p pad mem : List Byte) (hp : p.length ≤ 1497) :
    step c s (.recv (frame dst src (reverseBits dsap) (reverseBits ssap) p ++ pad) mem none) = .ub := by
  have := recv_frame (s := s) (dst := dst) hs (reverseBits dsap) (reverseBits ssap) hp pad mem
  simp only [step]
  rw [this, reverse_invol, reverse_invol, if_neg (by omega), if_pos h]

/-- C63. A management frame that says it is shorter than its header makes the reader copy 64 kB into a buffer of 2 kB. -/
theorem C63_short_crash_violated (c : Cfg) (s : Host) (dst src n : Nat) (hn : n < 3) (p mem : List Byte) :
    step c s (.recv ([leBytes 6 dst, leBytes 6 src, beBytes 2 n, [reverseBits 1], [reverseBits 1], [3]].flatten ++ p) mem none) = .ub := by
  have F := fun i hi => slice_fields [leBytes 6 dst, leBytes 6 src, beBytes 2 n, [reverseBits 1], [reverseBits 1], [(3 : Byte)]] (p ++ mem) i hi
  have f2 := F 2 (by simp)
  have f3 := F 3 (by simp)
  have f4 := F 4 (by simp)
  clear F
  simp only [step, recv]
  rw [List.append_assoc]
  generalize [leBytes 6 dst, leBytes 6 src, beBytes 2 n, [reverseBits 1], [reverseBits 1], [(3 : Byte)]].flatten ++ (p ++ mem) = m at *
  simp [length_leBytes] at f2 f3 f4
  rw [f2, rd_of_slice f3, rd_of_slice f4]
  simp only [Outcome.bind_ok]
  rw [beVal_beBytes (n := 2) (by norm_num; omega), if_neg (by omega), if_pos (by decide)]
  cases h : slice ((none : Option (List Byte)).getD m) HDR_LEN ((n + 65533) % 65536) with
  | ub => rfl
  | ok x =>
    simp only [Outcome.bind_ok]
    cases h' : slice ((none : Option (List Byte)).getD m) 6 6 with
    | ub => rfl
    | ok y =>
      simp only [Outcome.bind_ok]
      rw [if_pos (by unfold MGMT_FRAME_SIZE; omega)]

/-- C63. The number of bytes that were received is not used: a peer that says its packet is longer than it is has the memory behind it delivered to the application, which may hold packets of others. -/
theorem C63_stale_violated (c : Cfg) (s : Host) (dst src : Nat) (hs : src < 2 ^ 48) (fd sap t : Nat) (h1 : sap < 64) (h0 : sap ≠ 1) (h2 : t < 128) (h3 : s.efToFd sap = some fd) (h4 : (s.ef fd).rSap = t) (h5 : (s.ef fd).addr = src)
    (h6 : s.live fd = true) (p m rest : List Byte) (hp : (p ++ m).length ≤ 1497) :
    step c s (.recv ([leBytes 6 dst, leBytes 6 src, beBytes 2 (3 + (p ++ m).length), [reverseBits (BitVec.ofNat 8 sap)], [reverseBits (BitVec.ofNat 8 t)], [3]].flatten ++ p) (m ++ rest) none) =
      .ok { s with log := s.log ++ [.delivered fd src t (p ++ m)] } := by
  have := recv_data (s := s) (dst := dst) hs hp h1 h0 h2 h3 h4 h5 h6 rest []
  simp only [step]
  rw [← this]
  have key : ∀ x y y' : List Byte, x ++ y = y' → recv s x y none = recv s y' [] none := by
    intro x y y' hxy
    unfold recv
    simp only [hxy, List.append_nil]
  refine key _ _ _ ?_
  simp [frame]

example : ∃ s, run c0 init serving = .ok s ∧ s.efToFd 2 = some 64 ∧ (s.ef 64).rSap = 5 ∧ (s.ef 64).addr = 9 ∧ s.live 64 = true := by
  obtain ⟨s, h1, h2⟩ := check_prop (ops := serving) (p := fun s => s.efToFd 2 == some 64 && s.ef 64 == ⟨2, 5, 9⟩ && s.live 64) (by decide +kernel)
  simp only [Bool.and_eq_true, beq_iff_eq] at h2
  exact ⟨s, h1, h2.1.1, by rw [h2.1.2], by rw [h2.1.2], h2.2⟩

/-- C63. A management frame is copied after its buffer was given back: if another thread has filled the buffer by then, what it wrote is handled as a management frame from an address it chose. -/
theorem C63_released_violated (c : Cfg) (s : Host) (dst src a b : Nat) (ha : a < 2 ^ 48) (d e x : Byte) (y : List Byte) (m m' rest : List Byte) (hl : m'.length = m.length) (hp : m.length ≤ 1497) :
    step c s (.recv (frame dst src (reverseBits 1) (reverseBits 1) m) [] (some ([leBytes 6 b, leBytes 6 a, beBytes 2 y.length, [d], [e], [x]].flatten ++ m' ++ rest))) = .ok { s with queue := ⟨a, m'⟩ :: s.queue } := by
  obtain ⟨p1, p2, p3, -, -⟩ := frame_parts dst src (reverseBits 1) (reverseBits 1) m []
  have F := slice_fields [leBytes 6 b, leBytes 6 a, beBytes 2 y.length, [d], [e], [x]] (m' ++ rest) 1 (by simp)
  have G : slice ([leBytes 6 b, leBytes 6 a, beBytes 2 y.length, [d], [e], [x]].flatten ++ (m' ++ rest)) 17 m.length = .ok m' := slice_mid (by simp [length_leBytes]) hl
  simp only [step, recv]
  rw [p1, p2, p3]
  simp only [Outcome.bind_ok]
  rw [beVal_beBytes (n := 2) (by norm_num; omega), if_neg (by omega), if_pos (by decide), show (3 + m.length + 65533) % 65536 = m.length by omega]
  simp only [Option.getD_some, List.append_assoc, HDR_LEN, G, Outcome.bind_ok]
  generalize [leBytes 6 b, leBytes 6 a, beBytes 2 y.length, [d], [e], [x]].flatten ++ (m' ++ rest) = z at *
  simp [length_leBytes] at F
  rw [F]
  simp only [Outcome.bind_ok]
  rw [if_neg (by unfold MGMT_FRAME_SIZE; omega), leVal_leBytes (n := 6) (by simpa using ha)]

/-- C63. A short management frame is read beyond its end. -/
theorem C63_short_message_violated (c : Cfg) (s : Host) (dst src : Nat) (hs : src < 2 ^ 48) (b1 b2 : Byte) (rest : List Byte) (hr : rest.length + 3 < 36 + c.hashLen) (hr' : rest.length ≤ 1400) (hb : s.busy = none) (fd : Option Nat) (ok : Bool) (j : Junk) :
    run c s [.recv (frame dst src (reverseBits 1) (reverseBits 1) (b1 :: b2 :: FLOW_REQ :: rest)) [] none, .mgmt fd ok j] = .ub := by
  have e := recv_mgmt (s := s) (dst := dst) hs (p := b1 :: b2 :: FLOW_REQ :: rest) (by simp; omega)
  have hp : parse c.hashLen (b1 :: b2 :: FLOW_REQ :: rest) = .ub := by
    unfold parse
    have : rd (b1 :: b2 :: FLOW_REQ :: rest) 2 = .ok FLOW_REQ := rfl
    rw [this]
    simp only [Outcome.bind_ok, if_true]
    rw [if_pos (by simp only [List.length_cons]; unfold MSG_LEN; omega)]
  simp only [run, step, e, mgmt, hb, hp]

/-- C63. Anybody can take over a flow of which they know the SAP: a reply is accepted from any address, also if none is expected. From then on packets of the impostor are delivered, and packets of the peer are not. -/
theorem C63_hijack_violated (c : Cfg) (s : Host) (fd sap x t : Nat) (h1 : sap < 64) (h0 : sap ≠ 1) (h3 : s.efToFd sap = some fd) (h6 : s.live fd = true) (hq : s.queue = []) (hb : s.busy = none) (hx : x < 2 ^ 48) (ht : t < 128)
    (j j' : Junk) (p : List Byte) (hp : p.length ≤ 1497) (a u : Nat) (ha : a < 2 ^ 48) (hu : u < 256) (hau : a ≠ x ∨ u ≠ t) (p' : List Byte) (hp' : p'.length ≤ 1497) :
    ∃ s', run c s [.recv (frame c.mac x (reverseBits 1) (reverseBits 1) (reply t sap 0 [] j)) [] none, .mgmt none true j', .recv (frame c.mac x (reverseBits (BitVec.ofNat 8 sap)) (reverseBits (BitVec.ofNat 8 t)) p) [] none,
        .recv (frame c.mac a (reverseBits (BitVec.ofNat 8 sap)) (reverseBits (BitVec.ofNat 8 u)) p') [] none] = .ok s' ∧
      s'.log = s.log ++ [.replied fd x t 0 [], .delivered fd x t p] := by
  have e1 := recv_mgmt (s := s) (dst := c.mac) hx (p := reply t sap 0 [] j) (by rw [length_reply]; simp)
  have pr := parse_reply (e := t) (g := sap) (by omega) (by omega) (r := 0) (by decide) (by decide) c.hashLen [] j
  have t1 : toI8 t = t := by unfold toI8; rw [if_pos ht]
  let s1 : Host := { s with ef := upd s.ef fd ⟨(s.ef fd).sap, t, x⟩, opened := upd s.opened fd true, log := s.log ++ [.replied fd x t 0 []] }
  have e2 : mgmt c { s with queue := ⟨x, reply t sap 0 [] j⟩ :: s.queue } none true j' = .ok s1 := by
    simp only [mgmt, hb, hq, pr, allocReply, h3]
    rw [if_neg (by unfold MAX_SAPS; omega)]
    simp [h6, t1, s1, ← hq, ← hb]
  have e3 := recv_data (s := s1) (dst := c.mac) hx hp h1 h0 ht (fd := fd) h3 (by simp [s1, upd_same]) (by simp [s1, upd_same]) h6 [] []
  rw [List.append_nil] at e3
  have e4 := recv_other (s := { s1 with log := s1.log ++ [.delivered fd x t p] }) (dst := c.mac) ha hp' h1 h0 hu (fd := fd) h3
    (by
      simp only [s1, upd_same]
      rcases hau with h | h
      · exact .inr (Ne.symm h)
      · exact .inl (by intro hc; exact h (by exact_mod_cast hc.symm))) [] []
  rw [List.append_nil] at e4
  simp only [run, step, e1, e2, e3, e4]
  exact ⟨_, rfl, by simp [s1]⟩

example : ∃ s, run c0 init serving = .ok s ∧ s.efToFd 2 = some 64 ∧ s.live 64 = true ∧ s.queue = [] ∧ s.busy = none ∧ Peer s.log 64 9 5 := by
  obtain ⟨s, h1, h2⟩ := check_prop (ops := serving) (p := fun s => s.efToFd 2 == some 64 && s.live 64 && s.queue.isEmpty && s.busy.isNone && (since s.log 64).contains (.offered 64 9 5 h0 q0 [5])) (by decide +kernel)
  simp only [Bool.and_eq_true, beq_iff_eq, List.isEmpty_iff, Option.isNone_iff_eq_none, List.contains_iff_mem] at h2
  exact ⟨s, h1, h2.1.1.1.1, h2.1.1.1.2, h2.1.1.2, h2.1.2, .inl ⟨_, _, _, h2.2⟩⟩

/-- C63. Anybody can say they have a name, without being asked; the next request for it goes to them, whoever else has the name. -/
theorem C63_poison_violated (c : Cfg) (s : Host) (hq : s.queue = []) (hb : s.busy = none) (x : Nat) (hx : x < 2 ^ 48) (n : List Byte) (hn : n.length = c.hashLen) (hl : c.hashLen ≤ 1000) (hd : (n, x) ∉ s.dir)
    (fd : Nat) (hfd : freeFd s fd = true) (sap : Nat) (hs : allocSap s.used = some sap) (hs' : sap < 64) (q : Qos) (d : List Byte) (hM : 36 + c.hashLen + d.length + 3 ≤ c.mtu) (j j' j'' : Junk) :
    ∃ s', run c s [.recv (frame c.mac x (reverseBits 1) (reverseBits 1) (queryMsg NAME_QUERY_REPLY n j)) [] none, .mgmt none true j', .alloc fd n q d true j''] = .ok s' ∧
      s'.log = s.log ++ [.announced n x, .requested fd x n q d, .assigned fd sap] := by
  have e1 := recv_mgmt (s := s) (dst := c.mac) hx (p := queryMsg NAME_QUERY_REPLY n j) (by simp [queryMsg, hn]; omega)
  have pq := (parse_query hn j).2
  let s1 : Host := { s with dir := (n, x) :: s.dir, log := s.log ++ [.announced n x] }
  have e2 : mgmt c { s with queue := ⟨x, queryMsg NAME_QUERY_REPLY n j⟩ :: s.queue } none true j' = .ok s1 := by
    simp only [mgmt, hb, hq, pq]
    simp [s1, ← hq, ← hb, hd]
  have hf1 : freeFd s1 fd = true := hfd
  have hsd : sends c (request sap q n d j'').length true = true := by simp [sends, length_request, hn]; omega
  have hs1 : ¬ MAX_SAPS ≤ sap := by unfold MAX_SAPS; omega
  simp only [run, step, e1, e2, alloc]
  rw [if_neg (by simp [hf1, hn])]
  simp [s1, hs, hs1, hsd]

example : ∃ s, run c0 init announce = .ok s ∧ s.queue = [] ∧ s.busy = none ∧ (h0, 13) ∉ s.dir ∧ freeFd s 64 = true ∧ allocSap s.used = some 2 := by
  obtain ⟨s, h1, h2⟩ := check_prop (ops := announce) (p := fun s => s.queue.isEmpty && s.busy.isNone && !s.dir.contains (h0, 13) && freeFd s 64 && allocSap s.used == some 2) (by decide +kernel)
  simp only [Bool.and_eq_true, beq_iff_eq, List.isEmpty_iff, Option.isNone_iff_eq_none, Bool.not_eq_true', List.contains_eq_mem, decide_eq_false_iff_not] at h2
  exact ⟨s, h1, h2.1.1.1.1, h2.1.1.1.2, h2.1.1.2, h2.1.2, h2.2⟩

/-- C63. There are 64 SAPs from 2 on, but the table has 64 entries from 0 on: the 63rd flow is written behind its end. -/
theorem C63_many_flows_violated : run c0 init (announce ++ (List.range 62).map (fun i => .alloc (64 + i) h0 q0 [] true j0)) ≠ .ub ∧
    run c0 init (announce ++ (List.range 63).map (fun i => .alloc (64 + i) h0 q0 [] true j0)) = .ub := by
  refine ⟨?_, fails_ub (by decide +kernel)⟩
  obtain ⟨s, h, -⟩ := check_prop (ops := announce ++ (List.range 62).map (fun i => .alloc (64 + i) h0 q0 [] true j0)) (p := fun _ => true) (by decide +kernel)
  rw [h]; simp

/-- C63. When a request is refused, its SAP is given to another flow while the first one still has it. When the first one is deallocated, the other no longer gets packets from its peer. -/
theorem C63_refusal_violated : Along c0 Calm init (refusal ++ [.dealloc 64, .recv (frame c0.mac 9 (reverseBits 2) (reverseBits 6) [1]) [] none]) ∧
    (∃ s, run c0 init refusal = .ok s ∧ HasSap s.log 64 2 ∧ HasSap s.log 65 2 ∧ Peer s.log 65 9 6) ∧
    ∃ s, run c0 init (refusal ++ [.dealloc 64, .recv (frame c0.mac 9 (reverseBits 2) (reverseBits 6) [1]) [] none]) = .ok s ∧ .closed 65 ∉ s.log ∧ ∀ p, .delivered 65 9 6 p ∉ s.log := by
  refine ⟨along_of calmT_calm _ _ (by decide +kernel), ?_, ?_⟩
  · obtain ⟨s, h1, h2⟩ := check_prop (ops := refusal) (p := fun s => (since s.log 64).contains (.assigned 64 2) && (since s.log 65).contains (.assigned 65 2) && (since s.log 65).contains (.replied 65 9 6 0 [])) (by decide +kernel)
    simp only [Bool.and_eq_true, List.contains_iff_mem] at h2
    exact ⟨s, h1, h2.1.1, h2.1.2, .inr ⟨_, h2.2⟩⟩
  · obtain ⟨s, h1, h2⟩ := check_prop (ops := refusal ++ [.dealloc 64, .recv (frame c0.mac 9 (reverseBits 2) (reverseBits 6) [1]) [] none]) (p := fun s => s.log ==
      [.announced h0 9, .requested 64 9 h0 q0 [], .assigned 64 2, .replied 64 9 5 (-1) [], .requested 65 9 h0 q0 [], .assigned 65 2, .replied 65 9 6 0 [], .closed 64]) (by decide +kernel)
    simp only [beq_iff_eq] at h2
    exact ⟨s, h1, by rw [h2]; simp, by rw [h2]; simp⟩

/-- C63. The same if a reply cannot be sent: the flow keeps the SAP that is given to the next one. -/
theorem C63_failed_reply_violated : ∃ s, run c0 init [.reg h0, .recv (mframe 9 (request 5 q0 h0 [] j0)) [] none, .mgmt (some 64) true j0, .mgmtStore, .resp 64 0 [] false j0,
      .recv (mframe 9 (request 6 q0 h0 [] j0)) [] none, .mgmt (some 65) true j0, .mgmtStore, .resp 65 0 [] true j0, .dealloc 64, .recv (frame c0.mac 9 (reverseBits 2) (reverseBits 6) [1]) [] none] = .ok s ∧
    HasSap s.log 65 2 ∧ Peer s.log 65 9 6 ∧ ∀ p, .delivered 65 9 6 p ∉ s.log := by
  obtain ⟨s, h1, h2⟩ := check_prop (ops := [.reg h0, .recv (mframe 9 (request 5 q0 h0 [] j0)) [] none, .mgmt (some 64) true j0, .mgmtStore, .resp 64 0 [] false j0,
      .recv (mframe 9 (request 6 q0 h0 [] j0)) [] none, .mgmt (some 65) true j0, .mgmtStore, .resp 65 0 [] true j0, .dealloc 64, .recv (frame c0.mac 9 (reverseBits 2) (reverseBits 6) [1]) [] none])
    (p := fun s => (since s.log 65).contains (.assigned 65 2) && (since s.log 65).contains (.offered 65 9 6 h0 q0 []) && s.log ==
      [.registered h0, .offered 64 9 5 h0 q0 [], .offered 65 9 6 h0 q0 [], .responded 65 [], .assigned 65 2, .closed 64]) (by decide +kernel)
  simp only [Bool.and_eq_true, beq_iff_eq, List.contains_iff_mem] at h2
  exact ⟨s, h1, h2.1.1, .inl ⟨_, _, _, h2.1.2⟩, by rw [h2.2]; simp⟩

/-- C63. A flow that has no SAP cannot be deallocated: entry 255 of a table of 64 is written. -/
theorem C63_dealloc_crash_violated (c : Cfg) (s : Host) (fd : Nat) (hl : s.live fd = true) (h : (s.ef fd).sap = -1) : step c s (.dealloc fd) = .ub := by
  simp only [step, hl, h, if_true]
  rw [if_pos (by decide)]

example : run c0 init [.reg h0, .recv (mframe 9 (request 5 q0 h0 [5] j0)) [] none, .mgmt (some 64) true j0, .mgmtStore, .resp 64 (-1) [] true j0, .dealloc 64] = .ub := fails_ub (by decide +kernel)

/-- C63. Who asked for a flow is never told that it was refused: the IPCP waits for descriptor -1 for ever, or uses it to look up tables. -/
theorem C63_refuse_violated (c : Cfg) (s : Host) (fd : Nat) (r : Int) (hr : r ≠ 0) (d : List Byte) (ok : Bool) (j : Junk) : step c s (.resp fd r d ok j) = .ub ∨ step c s (.resp fd r d ok j) = .ok s := by
  simp only [step, resp]
  rw [if_pos hr]
  split
  · exact .inl rfl
  · exact .inr rfl

/-- C63. The daemon's response can come before the handler has stored who asked: then the reply is sent to address 0, and who asked gets none. -/
theorem C63_early_response_violated : ∃ s, run c0 init [.reg h0, .recv (mframe 9 (request 5 q0 h0 [5] j0)) [] none, .mgmt (some 64) true j0, .resp 64 0 [6] true j0, .mgmtStore] = .ok s ∧
    .responded 64 [6] ∈ s.log ∧ s.busy = none ∧ s.await = none ∧ s.queue = [] ∧ ∀ x ∈ s.out, x.1 = 0 := by
  obtain ⟨s, h1, h2⟩ := check_prop (ops := [.reg h0, .recv (mframe 9 (request 5 q0 h0 [5] j0)) [] none, .mgmt (some 64) true j0, .resp 64 0 [6] true j0, .mgmtStore])
    (p := fun s => s.log.contains (.responded 64 [6]) && s.busy.isNone && s.await.isNone && s.queue.isEmpty && s.out.all (fun x => x.1 == 0)) (by decide +kernel)
  simp only [Bool.and_eq_true, Option.isNone_iff_eq_none, List.isEmpty_iff, List.contains_iff_mem, List.all_eq_true, beq_iff_eq] at h2
  exact ⟨s, h1, h2.1.1.1.1, h2.1.1.1.2, h2.1.1.2, h2.1.2, h2.2⟩

/-- C63. So without the condition of `C63_isolation_partial` packets of a host are delivered on a flow that has nothing to do with that host. -/
theorem C63_reuse_violated : ∃ s l1, run c0 init reuse = .ok s ∧ s.log = l1 ++ [.delivered 64 9 5 [1]] ∧ ¬ Peer l1 64 9 5 := by
  obtain ⟨s, h1, h2⟩ := check_prop (ops := reuse) (p := fun s => s.log ==
    [.announced h0 7, .registered h0, .offered 64 9 5 h0 q0 [], .responded 64 [], .assigned 64 2] ++ [.closed 64] ++ [.requested 64 7 h0 q0 [], .assigned 64 2] ++ [.delivered 64 9 5 [1]]) (by decide +kernel)
  simp only [beq_iff_eq] at h2
  refine ⟨s, _, h1, h2, fun hp => ?_⟩
  rw [peer_dull (by simp [Dull])] at hp
  exact peer_closed hp

/-- C63. A reply carries 32 bytes of the sender's memory that nobody has written to. -/
theorem C63_leak_violated (e g : Nat) (r : Int) (data : List Byte) (j : Junk) : ((reply e g r data j).drop 3).take 32 = beBytes 32 j.rest.toNat := by
  simp only [reply, List.flatten_cons, List.flatten_nil, List.append_nil, List.singleton_append, List.cons_append, List.drop_succ_cons, List.drop_zero, List.append_assoc]
  exact List.take_left' (length_beBytes _ _)

end Ouro.EthLlc

namespace Ouro.EthDix

open Ouro.EthLlc (Qos)

/-- C63. Without LLC, requests are read as they were sent. -/
theorem C63_dix_request_roundtrip (e : BitVec 16) (q : Qos) (hq : q.WF) (L : Nat) (dst : List Byte) (hd : dst.length = L) (data : List Byte) (j : Junk) :
    parse L (request e.toNat q dst data j) = .ok (.request e.toNat q dst data) :=
  parse_request e.isLt hq hd data j

/-- C63. Without LLC, replies are read as they were sent, if the response fits 8 bits. -/
theorem C63_dix_reply_roundtrip (e g : BitVec 16) (r : Int) (h1 : -128 ≤ r) (h2 : r ≤ 127) (L : Nat) (data : List Byte) (j : Junk) :
    parse L (reply e.toNat g.toNat r data j) = .ok (.reply e.toNat g.toNat r data) :=
  parse_reply e.isLt g.isLt h1 h2 L data j

example : parse 2 (request 900 ⟨1, 2, 3, 4, 5, 6, 7, 8, 9⟩ [1, 2] [3] ⟨77, 3, 99, 5⟩) = .ok (.request 900 ⟨1, 2, 3, 4, 5, 6, 7, 8, 9⟩ [1, 2] [3]) ∧
    parse 2 (reply 64 700 (-3) [1, 2] ⟨77, 3, 99, 5⟩) = .ok (.reply 64 700 (-3) [1, 2]) := by decide +kernel

/-- C63. Without LLC, a packet for a flow is delivered on that flow as it was sent, whatever padding or old memory follows it. -/
theorem C63_dix_delivery (dst src etype fd : Nat) (hs : src < 2 ^ 48) (ht : etype < 65536) (hf : 64 ≤ fd ∧ fd < 4096) (p pad mem : List Byte) (hp : p.length ≤ 1500) (live : Nat → Bool) (hl : live fd = true) :
    recv etype live (frame dst src etype fd p ++ pad) mem = .ok (.deliver fd p) := by
  rw [recv_frame hs ht (by omega) (by omega), if_neg (by omega), if_neg (by omega), if_pos hl]

/-- C63. Without LLC, nobody looks at who sent a packet, or to whom: any host can have any packet delivered on any flow. -/
theorem C63_dix_isolation_violated (dst dst' src src' etype fd : Nat) (hs : src < 2 ^ 48) (hs' : src' < 2 ^ 48) (ht : etype < 65536) (hf : 64 ≤ fd ∧ fd < 4096) (p : List Byte) (hp : p.length ≤ 1500) (live : Nat → Bool) :
    recv etype live (frame dst src etype fd p) [] = recv etype live (frame dst' src' etype fd p) [] := by
  have h1 := recv_frame (dst := dst) hs ht (by omega : fd < 65536) (by omega : p.length < 65536) live [] []
  have h2 := recv_frame (dst := dst') hs' ht (by omega : fd < 65536) (by omega : p.length < 65536) live [] []
  rw [List.append_nil] at h1 h2
  rw [h1, h2, if_neg (by omega), if_neg (by omega : ¬ fd = 0)]

/-- C63. Without LLC, any host can crash any other with one frame: the endpoint it is for is not compared with the number of flows. -/
theorem C63_dix_crash_violated (dst src etype eid : Nat) (hs : src < 2 ^ 48) (ht : etype < 65536) (h1 : 4096 ≤ eid) (h2 : eid < 65536) (p pad mem : List Byte) (hp : p.length ≤ 1500) (live : Nat → Bool) :
    recv etype live (frame dst src etype eid p ++ pad) mem = .ub := by
  rw [recv_frame hs ht (by omega) (by omega), if_neg (by omega), if_pos h1]

/-- C63. Without LLC, any host can become the peer of any flow, and can write behind the table of flows. -/
theorem C63_dix_hijack_violated (ef : Nat → Ef) (src seid deid : Nat) :
    (deid < 4096 → ∃ ef', allocReply ef src seid deid 0 = .ok ef' ∧ ef' deid = ⟨seid, src⟩) ∧ (4096 ≤ deid → allocReply ef src seid deid 0 = .ub) := by
  unfold allocReply SYS_MAX_FLOWS EthLlc.PROG_MAX_FLOWS
  constructor
  · intro h
    rw [if_neg (by omega)]
    simp only [ne_eq, not_true_eq_false, if_false]
    rw [if_neg (by omega)]
    exact ⟨_, rfl, by simp [EthLlc.upd]⟩
  · intro h
    split
    · rfl
    · rfl

end Ouro.EthDix
