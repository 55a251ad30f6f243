import Verif.Proof.UdpWit

/-!
# C62 — flows over UDP connect the two ends of a request
-/

namespace Ouro.Udp

open Ouro.FaMsg

/-- C62. A request is read as it was sent: endpoint, QoS, name and data, whatever the uninitialised bytes are. -/
theorem C62_request_roundtrip (e : BitVec 32) (q : Qos) (hq : q.WF) (dst : List Byte) (hd : dst.length = 16) (data : List Byte) (j : Junk) :
    parse (request e.toNat q dst data j) = .ok (.request e.toNat q dst data) :=
  parse_request e.isLt hq hd data j

example : parse (request 64 ⟨1, 2, 3, 4, 5, 6, 7, 8, 9⟩ h0 [1, 2] ⟨77, 3, 99⟩) = .ok (.request 64 ⟨1, 2, 3, 4, 5, 6, 7, 8, 9⟩ h0 [1, 2]) := by decide +kernel

/-- C62. A reply is read as it was sent, if the response fits 8 bits. -/
theorem C62_reply_roundtrip (e g : BitVec 32) (r : Int) (h1 : -128 ≤ r) (h2 : r ≤ 127) (data : List Byte) (j : Junk) :
    parse (reply e.toNat g.toNat r data j) = .ok (.reply e.toNat g.toNat r data) :=
  parse_reply e.isLt g.isLt h1 h2 data j

example : parse (reply 64 70 (-3) [1, 2] ⟨77, 3, 99⟩) = .ok (.reply 64 70 (-3) [1, 2]) := by decide +kernel

/-- C62. A response that does not fit 8 bits is read as another one: -1024 as 0, which means accepted. -/
theorem C62_response_violated : parse (reply 64 70 (-1024) [] j0) = .ok (.reply 64 70 0 []) := by decide +kernel

/-- C62 (partial: descriptors are not used again, nobody else sends, messages fit and nothing is refused). However datagrams are lost, repeated and reordered and the threads interleaved, no host
has undefined behaviour. -/
theorem C62_no_crash_partial (ops : List Op) (hs : Sane ops) (hf : Fresh ops) : ∃ s, run init ops = .ok s := by
  obtain ⟨s, _, h, _⟩ := reach_inv hs hf
  exact ⟨s, h⟩

/-- C62 (partial, as above). A packet is delivered on a flow only after it was written to the other end of that flow; at most its end is cut off. -/
theorem C62_delivery_partial (ops : List Op) (hs : Sane ops) (hf : Fresh ops) (s : Net) (h : run init ops = .ok s)
    (l1 l2 : List Event) (a f : Nat) (p : List Byte) (hl : s.log = l1 ++ .delivered a f p :: l2) :
    ∃ b g p', .wrote b g p' ∈ l1 ∧ Paired l1 a f b g ∧ p = p'.take 8976 := by
  obtain ⟨s', _, h', I⟩ := reach_inv hs hf
  rw [h] at h'; cases h'
  exact I.log.del hl

/-- C62 (partial, as above). A flow is offered only for a request from the other host, with its name, QoS and data. -/
theorem C62_offer_partial (ops : List Op) (hs : Sane ops) (hf : Fresh ops) (s : Net) (h : run init ops = .ok s)
    (b g a f i : Nat) (n : List Byte) (q : Qos) (d : List Byte) (hl : .offered b g a f n q d i ∈ s.log) : .requested a f b n q d ∈ s.log := by
  obtain ⟨s', _, h', I⟩ := reach_inv hs hf
  rw [h] at h'; cases h'
  exact (I.log.off hl).2.2.2

/-- C62 (partial, as above). A requester is told that its flow is allocated only after the other host responded, for a flow it offered for this request, with the data it gave. -/
theorem C62_reply_partial (ops : List Op) (hs : Sane ops) (hf : Fresh ops) (s : Net) (h : run init ops = .ok s)
    (l1 l2 : List Event) (a f : Nat) (r : Int) (d : List Byte) (hl : s.log = l1 ++ .replied a f r d :: l2) :
    r = 0 ∧ ∃ b g, Connected l1 a f b g ∧ .responded b g d ∈ l1 := by
  obtain ⟨s', _, h', I⟩ := reach_inv hs hf
  rw [h] at h'; cases h'
  exact I.log.repl hl

/-- C62 (partial, as above). An offered flow belongs to one request. -/
theorem C62_one_request_partial (ops : List Op) (hs : Sane ops) (hf : Fresh ops) (s : Net) (h : run init ops = .ok s)
    (b g a f a' f' : Nat) (h1 : Connected s.log a f b g) (h2 : Connected s.log a' f' b g) : a = a' ∧ f = f' := by
  obtain ⟨s', _, h', I⟩ := reach_inv hs hf
  rw [h] at h'; cases h'
  obtain ⟨_, _, _, _, -, o1⟩ := h1
  obtain ⟨_, _, _, _, -, o2⟩ := h2
  obtain ⟨e1, e2, -⟩ := I.log.offU o1 o2
  exact ⟨e1, e2⟩

/-- C62 (partial, as above). If no datagram is received twice, a request is offered as one flow only. -/
theorem C62_one_flow_partial (ops : List Op) (hs : Sane ops) (hf : Fresh ops) (hr : (received ops).Nodup) (s : Net) (h : run init ops = .ok s)
    (a f b g b' g' : Nat) (h1 : Connected s.log a f b g) (h2 : Connected s.log a f b' g') : b = b' ∧ g = g' := by
  obtain ⟨_, _, U, I⟩ := run_once ops hs [] [] init s init_inv init_once hf (by simp) hr (by simp) h
  obtain ⟨_, _, _, i, -, o1⟩ := h1
  obtain ⟨_, _, _, k, -, o2⟩ := h2
  obtain ⟨-, x, x1, x2, x3⟩ := U.off o1
  obtain ⟨-, y, y1, y2, y3⟩ := U.off o2
  have : i = k := U.net x1 y1 (x2.trans y2.symm) x3 y3
  subst this
  exact U.oo o1 o2

/-- C62 (partial, as above). So a packet cannot reach a third flow: if it is delivered, and no datagram was received twice, its writer is the one flow paired with the receiver. -/
theorem C62_one_peer_partial (ops : List Op) (hs : Sane ops) (hf : Fresh ops) (hr : (received ops).Nodup) (s : Net) (h : run init ops = .ok s)
    (a f b g b' g' : Nat) (h1 : Paired s.log a f b g) (h2 : Paired s.log a f b' g') : b = b' ∧ g = g' := by
  obtain ⟨s', _, h', I⟩ := reach_inv hs hf
  rw [h] at h'; cases h'
  rcases h1 with h1 | h1 <;> rcases h2 with h2 | h2
  · exact C62_one_flow_partial ops hs hf hr s h a f b g b' g' h1 h2
  · obtain ⟨_, _, _, _, r1, -⟩ := h1
    obtain ⟨_, _, _, _, -, o2⟩ := h2
    exact (I.log.excl r1 o2).elim
  · obtain ⟨_, _, _, _, -, o1⟩ := h1
    obtain ⟨_, _, _, _, r2, -⟩ := h2
    exact (I.log.excl r2 o1).elim
  · exact C62_one_request_partial ops hs hf s h a f b g b' g' h1 h2

example : Sane opening ∧ Fresh opening ∧ (received opening).Nodup ∧ check opening (fun s =>
    s.log == [.requested 1 64 2 h0 q0 [5], .offered 2 70 1 64 h0 q0 [5] 0, .responded 2 70 [6], .replied 1 64 0 [6]]) = true :=
  ⟨opening_sane, by unfold Fresh; decide +kernel, by decide +kernel, by decide +kernel⟩

/-- C62. If nothing gets lost and nobody is too fast, a flow is set up and packets of up to 8976 bytes arrive as they were written. -/
theorem C62_established (a b f g w : Nat) (ha : a ≠ 0) (hb : b ≠ 0) (hab : a ≠ b) (hf : 64 ≤ f ∧ f < 4096) (hg : 64 ≤ g ∧ g < 4096) (n : List Byte) (hn : n.length = 16) (q : Qos) (hq : q.WF)
    (d r p : List Byte) (hd : 46 + 16 + d.length ≤ 2048) (hr : 46 + r.length ≤ 2048) (hp : p.length ≤ 8976) (j j' : Junk) :
    ∃ s, run init [.alloc a f (some b) n q d j, .store a f, .recv 0, .mgmt b (some g), .mgmtStore b, .resp b g 0 r j', .recv 1, .mgmt a none,
        .write a w f p, .send a w, .recv 2] = .ok s ∧
      s.log = [.requested a f b n q d, .offered b g a f n q d 0, .responded b g r, .replied a f 0 r, .wrote a f p, .delivered b g p] := by
  have := established a b f g w ha hb hab hf hg n hn q hq d r p hd hr (by omega) j j'
  rwa [List.take_of_length_le hp] at this

/-- C62. The writer takes packets of up to 8980 bytes and adds 4 in front; the reader has a buffer of 8980 bytes. The last bytes of the longest packets are missing, and nobody is told. -/
theorem C62_cut_violated : ∃ ops s p p', Sane ops ∧ Fresh ops ∧ run init ops = .ok s ∧ .wrote 1 64 p ∈ s.log ∧ .delivered 2 70 p' ∈ s.log ∧ p'.length + 4 = p.length ∧
    ∀ x, .delivered 2 70 x ∈ s.log → x ≠ p := by
  obtain ⟨p, hp⟩ : ∃ p : List Byte, p.length = 8980 := ⟨List.replicate 8980 7, List.length_replicate ..⟩
  obtain ⟨s, h1, h2⟩ := established 1 2 64 70 0 (by decide) (by decide) (by decide) (by decide) (by decide) h0 rfl q0 q0_wf [] [] p (by decide) (by decide) (by omega) j0 j0
  refine ⟨_, s, p, p.take 8976, ?_, ?_, h1, by rw [h2]; simp, by rw [h2]; simp, ?_, ?_⟩
  · intro op h
    simp only [List.mem_cons, List.not_mem_nil, or_false] at h
    rcases h with rfl | rfl | rfl | rfl | rfl | rfl | rfl | rfl | rfl | rfl | rfl <;> trivial
  · unfold Fresh; simp [given]
  · rw [List.length_take, hp]; rfl
  · intro x hx
    rw [h2] at hx
    simp only [List.mem_cons, reduceCtorEq, Event.delivered.injEq, true_and, List.not_mem_nil, or_false, false_or] at hx
    rw [hx]
    intro hc
    have := congrArg List.length hc
    rw [List.length_take, hp] at this
    omega

/-- C62. A reply that arrives before the requester's thread has stored where it sent the request is dropped: both hosts did their work, every datagram was received, and the requester is never told. -/
theorem C62_early_reply_violated : ∃ ops s, Sane ops ∧ Fresh ops ∧ run init ops = .ok s ∧ received ops = List.range s.net.length ∧ .responded 2 70 [6] ∈ s.log ∧
    (s.hosts 1).queue = [] ∧ (s.hosts 2).queue = [] ∧ ∀ a f r d, .replied a f r d ∉ s.log := by
  obtain ⟨s, h1, h2⟩ := check_prop (ops := [.alloc 1 64 (some 2) h0 q0 [5] j0, .recv 0, .mgmt 2 (some 70), .mgmtStore 2, .resp 2 70 0 [6] j0, .recv 1, .mgmt 1 none, .store 1 64])
    (p := fun s => decide (s.net.length = 2) && (s.log == [.requested 1 64 2 h0 q0 [5], .offered 2 70 1 64 h0 q0 [5] 0, .responded 2 70 [6]])
      && (s.hosts 1).queue.isEmpty && (s.hosts 2).queue.isEmpty) (by decide +kernel)
  simp only [Bool.and_eq_true, decide_eq_true_eq, beq_iff_eq, List.isEmpty_iff] at h2
  obtain ⟨⟨⟨h2, h3⟩, h4⟩, h5⟩ := h2
  refine ⟨_, s, ?_, ?_, h1, ?_, ?_, h4, h5, ?_⟩
  · intro op h
    simp only [List.mem_cons, List.not_mem_nil, or_false] at h
    rcases h with rfl | rfl | rfl | rfl | rfl | rfl | rfl | rfl <;> trivial
  · unfold Fresh; decide +kernel
  · rw [h2]; decide
  · rw [h3]; simp
  · intro a f r d hm
    rw [h3] at hm; simp at hm

/-- C62. The daemon's response can come before the handler has stored who asked: it goes nowhere, although everything was received and answered. -/
theorem C62_early_response_violated : ∃ ops s, Sane ops ∧ Fresh ops ∧ run init ops = .ok s ∧ .resp 2 70 0 [6] j0 ∈ ops ∧ received ops = List.range s.net.length ∧
    (s.hosts 2).await = none ∧ .offered 2 70 1 64 h0 q0 [5] 0 ∈ s.log ∧ ∀ b g d, .responded b g d ∉ s.log := by
  obtain ⟨s, h1, h2⟩ := check_prop (ops := [.alloc 1 64 (some 2) h0 q0 [5] j0, .store 1 64, .recv 0, .mgmt 2 (some 70), .resp 2 70 0 [6] j0, .mgmtStore 2])
    (p := fun s => decide (s.net.length = 1) && (s.log == [.requested 1 64 2 h0 q0 [5], .offered 2 70 1 64 h0 q0 [5] 0]) && (s.hosts 2).await.isNone) (by decide +kernel)
  simp only [Bool.and_eq_true, decide_eq_true_eq, beq_iff_eq, Option.isNone_iff_eq_none] at h2
  obtain ⟨⟨h2, h3⟩, h4⟩ := h2
  refine ⟨_, s, ?_, ?_, h1, by simp, ?_, h4, ?_, ?_⟩
  · intro op h
    simp only [List.mem_cons, List.not_mem_nil, or_false] at h
    rcases h with rfl | rfl | rfl | rfl | rfl | rfl <;> trivial
  · unfold Fresh; decide +kernel
  · rw [h2]; decide
  · rw [h3]; simp
  · intro b g d hm
    rw [h3] at hm; simp at hm

/-- C62. A refusal never reaches the requester: whatever the state, the response is given for descriptor -1, so that the IPCP waits or reads outside its table. -/
theorem C62_refusal_violated (s : Net) (a fd : Nat) (r : Int) (hr : r ≠ 0) (data : List Byte) (j : Junk) :
    (step s (.resp a fd r data j) = .ub ∧ (s.hosts a).await = none) ∨ (step s (.resp a fd r data j) = .ok s ∧ (s.hosts a).await ≠ none) := by
  simp only [step, if_pos hr]
  split
  · rename_i h; exact .inl ⟨rfl, h⟩
  · rename_i h; exact .inr ⟨rfl, h⟩

/-- C62. A request with 1987 bytes of data is sent, and overruns the buffer of the host that receives it. -/
theorem C62_long_request_violated : ∃ ops, Fresh ops ∧ (∀ d, .inject d ∉ ops) ∧ run init ops = .ub := by
  refine ⟨[.alloc 1 64 (some 2) h0 q0 (List.replicate 1987 5) j0, .store 1 64, .recv 0], ?_, ?_, fails_ub (by decide +kernel)⟩
  · unfold Fresh; decide +kernel
  · intro d h
    simp only [List.mem_cons, reduceCtorEq, List.not_mem_nil, or_false] at h

/-- C62. A host crashes on any datagram for an endpoint of 4096 or more, from anywhere and in every state. -/
theorem C62_any_sender_crash_violated (s : Net) (src dst e : Nat) (p : List Byte) (h1 : 4096 ≤ e) (h2 : e < 2 ^ 32) :
    run s [.inject ⟨src, dst, packet e p⟩, .recv s.net.length] = .ub := by
  have hr : ∀ h : Host, reader h dst s.net.length ⟨src, dst, packet e p⟩ = .ub := by
    intro h
    unfold reader
    dsimp only
    rw [if_neg (by simp only [List.length_take, packet, List.length_append, length_beBytes]; unfold MAX_PACKET; omega), List.take_take]
    rw [show min 4 MAX_PACKET = 4 from rfl, packet_head p h2, if_neg (by omega), if_pos (by unfold PROG_MAX_FLOWS; omega)]
  simp only [run, step, List.getElem?_concat_length, hr]

/-- C62. A short request from anywhere is undefined behaviour, too. -/
theorem C62_short_request_violated : ∃ d : Dgram, d.bytes.length = 46 ∧ run init [.inject d, .recv 0, .mgmt d.dst (some 64)] = .ub :=
  ⟨⟨9, 2, List.replicate 12 0 ++ [1] ++ List.replicate 33 0⟩, by decide, fails_ub (by decide +kernel)⟩

/-- C62. Packets from a host that has nothing to do with a flow are delivered on it. -/
theorem C62_spoof_violated (p : List Byte) (hp : p.length ≤ 8976) : ∃ s, run init (opening ++ [.inject ⟨9, 2, packet 70 p⟩, .recv 2]) = .ok s ∧ .delivered 2 70 p ∈ s.log ∧
    ∀ a f x, .wrote a f x ∉ s.log := by
  obtain ⟨s, h1, h2⟩ := check_prop (ops := opening) (p := fun s => decide (s.net.length = 2) && (s.hosts 2).live 70 &&
    (s.log == [.requested 1 64 2 h0 q0 [5], .offered 2 70 1 64 h0 q0 [5] 0, .responded 2 70 [6], .replied 1 64 0 [6]])) (by decide +kernel)
  simp only [Bool.and_eq_true, decide_eq_true_eq, beq_iff_eq] at h2
  obtain ⟨⟨h2, h3⟩, h4⟩ := h2
  have happ : ∀ (l : List Op) (s0 s1 : Net) (m : List Op), run s0 l = .ok s1 → run s0 (l ++ m) = run s1 m := by
    intro l
    induction l with
    | nil => intro s0 s1 m h; cases h; rfl
    | cons o l ih =>
      intro s0 s1 m h
      simp only [run, List.cons_append] at h ⊢
      split at h
      · cases h
      · exact ih _ _ _ h
  have t3 : (packet 70 p).take MAX_PACKET = packet 70 p := List.take_of_length_le (by simp only [packet, List.length_append, length_beBytes]; unfold MAX_PACKET; omega)
  have t4 : (packet 70 p).drop 4 = p := List.drop_left' (length_beBytes 4 70)
  have hr : reader (s.hosts 2) 2 2 ⟨9, 2, packet 70 p⟩ = .ok (s.hosts 2, [.delivered 2 70 p]) := by
    unfold reader
    simp only [t3, t4, packet_head p (show 70 < 2 ^ 32 by decide)]
    rw [if_neg (by simp [packet]), if_neg (by decide), if_neg (by decide), if_pos h3]
  have hg : (s.net ++ [(⟨9, 2, packet 70 p⟩ : Dgram)])[2]? = some ⟨9, 2, packet 70 p⟩ := by
    rw [← h2]; exact List.getElem?_concat_length ..
  rw [happ _ _ _ _ h1]
  simp only [run, step, hg, hr]
  refine ⟨_, rfl, by simp, ?_⟩
  intro a f x hm
  simp only [h4, List.mem_append, List.mem_cons, reduceCtorEq, List.not_mem_nil, or_false] at hm

/-- C62. A request that the network delivers twice becomes two flows. -/
theorem C62_duplicate_violated : ∃ ops s, Sane ops ∧ Fresh ops ∧ run init ops = .ok s ∧ Connected s.log 1 64 2 70 ∧ Connected s.log 1 64 2 71 := by
  obtain ⟨s, h1, h2⟩ := check_prop (ops := opening ++ [.recv 0, .mgmt 2 (some 71)]) (p := fun s => s.log == [.requested 1 64 2 h0 q0 [5], .offered 2 70 1 64 h0 q0 [5] 0, .responded 2 70 [6],
    .replied 1 64 0 [6], .offered 2 71 1 64 h0 q0 [5] 0]) (by decide +kernel)
  simp only [beq_iff_eq] at h2
  refine ⟨_, s, ?_, ?_, h1, ⟨h0, q0, [5], 0, by rw [h2]; simp, by rw [h2]; simp⟩, ⟨h0, q0, [5], 0, by rw [h2]; simp, by rw [h2]; simp⟩⟩
  · intro op h
    rcases List.mem_append.1 h with h | h
    · exact opening_sane op h
    · simp only [List.mem_cons, List.not_mem_nil, or_false] at h
      rcases h with rfl | rfl <;> trivial
  · unfold Fresh; decide +kernel

/-- C62. A packet that is still under way when its flow is deallocated is delivered on the next flow that gets the same descriptor: host 3 has written nothing. -/
theorem C62_late_packet_violated : ∃ ops s, Sane ops ∧ run init ops = .ok s ∧ (received ops).Nodup ∧
    s.log = [.requested 1 64 2 h0 q0 [5], .offered 2 70 1 64 h0 q0 [5] 0, .responded 2 70 [6], .replied 1 64 0 [6], .wrote 1 64 [1, 2],
      .requested 3 65 2 h0 q0 [], .offered 2 70 3 65 h0 q0 [] 3, .responded 2 70 [], .replied 3 65 0 [], .delivered 2 70 [1, 2]] := by
  obtain ⟨s, h1, h2⟩ := check_prop (ops := opening ++ [.write 1 0 64 [1, 2], .send 1 0, .dealloc 2 70, .alloc 3 65 (some 2) h0 q0 [] j0, .store 3 65, .recv 3, .mgmt 2 (some 70), .mgmtStore 2,
      .resp 2 70 0 [] j0, .recv 4, .mgmt 3 none, .recv 2])
    (p := fun s => s.log == [.requested 1 64 2 h0 q0 [5], .offered 2 70 1 64 h0 q0 [5] 0, .responded 2 70 [6], .replied 1 64 0 [6], .wrote 1 64 [1, 2],
      .requested 3 65 2 h0 q0 [], .offered 2 70 3 65 h0 q0 [] 3, .responded 2 70 [], .replied 3 65 0 [], .delivered 2 70 [1, 2]]) (by decide +kernel)
  refine ⟨_, s, ?_, h1, by decide +kernel, by simpa using h2⟩
  intro op h
  rcases List.mem_append.1 h with h | h
  · exact opening_sane op h
  · simp only [List.mem_cons, List.not_mem_nil, or_false] at h
    rcases h with rfl | rfl | rfl | rfl | rfl | rfl | rfl | rfl | rfl | rfl | rfl | rfl <;> trivial

/-- C62. A writer that has taken a packet looks up the destination afterwards. If the flow is deallocated and its descriptor given to a new flow meanwhile, the packet goes to the peer of the new one: host 3 gets
what was written for host 2. -/
theorem C62_wrong_peer_violated : ∃ ops s, Sane ops ∧ run init ops = .ok s ∧ (received ops).Nodup ∧
    s.log = [.requested 1 64 2 h0 q0 [5], .offered 2 70 1 64 h0 q0 [5] 0, .responded 2 70 [6], .replied 1 64 0 [6], .wrote 1 64 [1, 2],
      .requested 1 64 3 h0 q0 [], .offered 3 80 1 64 h0 q0 [] 2, .responded 3 80 [], .replied 1 64 0 [], .delivered 3 80 [1, 2]] := by
  obtain ⟨s, h1, h2⟩ := check_prop (ops := opening ++ [.write 1 0 64 [1, 2], .dealloc 1 64, .alloc 1 64 (some 3) h0 q0 [] j0, .store 1 64, .recv 2, .mgmt 3 (some 80), .mgmtStore 3,
      .resp 3 80 0 [] j0, .recv 3, .mgmt 1 none, .send 1 0, .recv 4])
    (p := fun s => s.log == [.requested 1 64 2 h0 q0 [5], .offered 2 70 1 64 h0 q0 [5] 0, .responded 2 70 [6], .replied 1 64 0 [6], .wrote 1 64 [1, 2],
      .requested 1 64 3 h0 q0 [], .offered 3 80 1 64 h0 q0 [] 2, .responded 3 80 [], .replied 1 64 0 [], .delivered 3 80 [1, 2]]) (by decide +kernel)
  refine ⟨_, s, ?_, h1, by decide +kernel, by simpa using h2⟩
  intro op h
  rcases List.mem_append.1 h with h | h
  · exact opening_sane op h
  · simp only [List.mem_cons, List.not_mem_nil, or_false] at h
    rcases h with rfl | rfl | rfl | rfl | rfl | rfl | rfl | rfl | rfl | rfl | rfl | rfl <;> trivial

/-- C62. Every reply carries 32 bytes of the memory of the responding process that were never written. -/
theorem C62_leak_violated (e g : Nat) (r : Int) (data : List Byte) (j : Junk) : ((reply e g r data j).drop 14).take 32 = beBytes 32 j.rest.toNat := by
  have e : reply e g r data j = [beBytes 4 0, beBytes 4 e, beBytes 4 g, [FLOW_REPLY], [BitVec.ofInt 8 r]].flatten ++ (beBytes 32 j.rest.toNat ++ data) := by
    simp [reply]
  rw [e, List.drop_left' (by simp), List.take_left' (length_beBytes 32 _)]

end Ouro.Udp
