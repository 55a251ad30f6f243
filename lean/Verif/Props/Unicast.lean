import Verif.Proof.Unicast

/-!
# C76: the flows over a unicast layer are kept apart
-/

namespace Ouro.Unicast

/-- Packets an application reads from its flow were written to the flow at the other end of it: the flow for whose request it was set up, or that was
set up for its request.  For all members, next hops, losses, duplicates and schedules that are `Proper`. -/
theorem C76_isolation_partial {L : Layer} (hL : L.Ok) {s : State} (h : Reach L s) {i j : Nat} {b : List Byte} (hd : (j, i, b) ∈ s.delivered) :
    Peer s i j ∧ (i, b) ∈ s.written :=
  (inv_reach hL h).delivered j i b hd

/-- If packets are not duplicated below, a flow has one other end. -/
theorem C76_one_peer_partial {L : Layer} (hL : L.Ok) {s : State} (h : ReachOnce L s) {i j k : Nat} (hj : Peer s i j) (hk : Peer s i k) : j = k := by
  have hi := inv_reach hL h.reach
  have ho := once_reach h
  rcases hj with hj | hj <;> rcases hk with hk | hk
  · exact ho.fst hj hk
  · have a := (hi.ghost.pairs _ _ hj).2.2.1
    have b := (hi.ghost.pairs _ _ hk).2.2.2.1
    rw [a] at b; cases b
  · have a := (hi.ghost.pairs _ _ hj).2.2.2.1
    have b := (hi.ghost.pairs _ _ hk).2.2.1
    rw [a] at b; cases b
  · exact ho.snd _ _ _ hj hk

/-- Then all packets an application reads from a flow come from one flow. -/
theorem C76_one_sender_partial {L : Layer} (hL : L.Ok) {s : State} (h : ReachOnce L s) {i k j : Nat} {b c : List Byte}
    (hb : (j, i, b) ∈ s.delivered) (hc : (j, k, c) ∈ s.delivered) : i = k :=
  C76_one_peer_partial hL h ((C76_isolation_partial hL h.reach hb).1.symm) ((C76_isolation_partial hL h.reach hc).1.symm)

/-- No member dereferences the congestion context of a flow that has none. -/
theorem C76_no_crash_partial {L : Layer} (hL : L.Ok) {s : State} (h : Reach L s) : s.crashed = false := (inv_reach hL h).crashed

/-- An application is told that its flow is there only if the other end accepted it. -/
theorem C76_told_partial {L : Layer} (hL : L.Ok) {s : State} (h : Reach L s) {i : Nat} (hi : i ∈ s.told) :
    ∃ j, (i, j) ∈ s.pairs ∧ j ∈ s.accepted :=
  (inv_reach hL h).told i hi

/-- A flow whose response is awaited stays so until it is answered: no other request takes its place. -/
theorem C76_awaited_partial {L : Layer} {s t : State} {op : Op} {n fd : Nat} (ha : (s.node n).allocId = some fd)
    (hr : ∀ hop, op ≠ .respond n fd hop) (hs : step L s op = some t) : (t.node n).allocId = some fd :=
  awaited_step ha hr hs

/-- Two requests at a member: the second waits until the first is answered. -/
example : ∃ s t, ReachOnce demo s ∧ (s.node 2).allocId = some 64 ∧ s.cmds ≠ [] ∧ step demo s (.request 2 0 (some 65)) = none ∧
    step demo s (.respond 2 64 (some 0)) = some t ∧ (step demo t (.request 2 0 (some 65))).isSome = true := by
  obtain ⟨s, hs, h⟩ := some_of_all (s := runP demo init [.alloc 0 64 (some 5) 3 (some 2), .alloc 1 64 (some 6) 3 (some 2), .arrive 0 false, .arrive 0 false,
      .request 2 0 (some 64), .setup 2 (some 7)])
    (p := fun s => decide ((s.node 2).allocId = some 64 ∧ s.cmds ≠ []) && (step demo s (.request 2 0 (some 65))).isNone &&
      ((step demo s (.respond 2 64 (some 0))).bind (fun t => step demo t (.request 2 0 (some 65)))).isSome) (by decide +kernel)
  simp only [Bool.and_eq_true] at h
  obtain ⟨⟨h1, h2⟩, h3⟩ := h
  have h1 := of_decide_eq_true h1
  cases ht : step demo s (.respond 2 64 (some 0)) with
  | none => rw [ht] at h3; cases h3
  | some t =>
    rw [ht] at h3
    exact ⟨s, t, once_runP demo_ok .init (by decide +kernel) hs, h1.1, h1.2, by simpa using h2, ht, h3⟩

/-- A history that meets all hypotheses, with packets read in both directions, a congestion report, and a requester that was told. -/
example : ∃ s, ReachOnce demo s ∧ s.delivered = [(1, 0, [1, 2]), (0, 1, [9])] ∧ s.pairs = [(0, 1)] ∧ s.told = [0] ∧ s.accepted = [1] := by
  obtain ⟨t, ht, h⟩ := some_of_all (s := runP demo init (opened ++ [.write 0 [1, 2], .read 0 64, .send 0 (some 2), .arrive 0 true, .deliver 0,
      .notify 0 (some 0), .arrive 0 false, .update 0 0, .write 1 [9], .read 2 64, .send 0 (some 0), .arrive 0 false, .deliver 0]))
    (p := fun s => decide (s.delivered = [(1, 0, [1, 2]), (0, 1, [9])] ∧ s.pairs = [(0, 1)] ∧ s.told = [0] ∧ s.accepted = [1])) (by decide +kernel)
  exact ⟨t, once_runP demo_ok .init (by decide +kernel) ht, of_decide_eq_true h⟩

/-- A flow is deallocated and its descriptor used by another flow, all hypotheses met: a late packet of the first flow is not given to the second. -/
example : ∃ s, ReachOnce demo s ∧ s.pairs = [(0, 1), (2, 3)] ∧ (s.node 2).np1 64 = some 3 ∧ s.written = [(0, [1])] ∧ s.delivered = [] ∧ s.transit = [] := by
  obtain ⟨t, ht, h⟩ := some_of_all (s := runP demo init (opened ++ [.write 0 [1], .read 0 64, .send 0 (some 2), .close 2 64, .clear 2 64, .release 2 64,
      .alloc 1 64 (some 9) 3 (some 2), .arrive 1 false, .request 2 0 (some 64), .setup 2 (some 8), .arrive 0 false]))
    (p := fun s => decide (s.pairs = [(0, 1), (2, 3)] ∧ (s.node 2).np1 64 = some 3 ∧ s.written = [(0, [1])] ∧ s.delivered = [] ∧ s.transit = []))
    (by decide +kernel)
  exact ⟨t, once_runP demo_ok .init (by decide +kernel) ht, of_decide_eq_true h⟩

/-! ### What the code does not do -/

/-- A flow is deallocated while a thread is about to write a packet to its descriptor, and the descriptor is used again: the packet of another flow
is given to the application of the new flow. -/
theorem C76_late_write_violated : ∃ ops s, run demo init ops = some s ∧ ∃ i j b, (j, i, b) ∈ s.delivered ∧ ¬ Peer s i j := by
  obtain ⟨t, ht, h⟩ := some_of_all (s := run demo init (opened ++ [.write 0 [1], .read 0 64, .send 0 (some 2), .arrive 0 false,
      .close 2 64, .clear 2 64, .release 2 64, .alloc 1 64 (some 9) 3 (some 2), .arrive 0 false, .request 2 0 (some 64), .deliver 0]))
    (p := fun s => decide ((3, 0, [1]) ∈ s.delivered ∧ ((0, 3) ∉ s.pairs ∧ (3, 0) ∉ s.pairs))) (by decide +kernel)
  have h := of_decide_eq_true h
  exact ⟨_, t, ht, 0, 3, [1], h.1, fun hp => hp.elim h.2.1 h.2.2⟩

/-- The same while the scheduler has a packet of the flow: it is sent to the peer of the new flow. -/
theorem C76_late_send_violated : ∃ ops s, run demo init ops = some s ∧ s.crashed = false ∧ ∃ i j b, (j, i, b) ∈ s.delivered ∧ ¬ Peer s i j := by
  obtain ⟨t, ht, h⟩ := some_of_all (s := run demo init (opened ++ [.write 0 [1], .read 0 64, .close 0 64, .clear 0 64, .release 0 64,
      .alloc 0 64 (some 6) 2 (some 1), .arrive 0 false, .request 1 0 (some 64), .setup 1 (some 8), .register 0 64, .respond 1 64 (some 0),
      .arrive 0 false, .reply 0 0, .send 0 (some 1), .arrive 0 false, .deliver 0]))
    (p := fun s => decide (s.crashed = false ∧ (3, 0, [1]) ∈ s.delivered ∧ ((0, 3) ∉ s.pairs ∧ (3, 0) ∉ s.pairs))) (by decide +kernel)
  have h := of_decide_eq_true h
  exact ⟨_, t, ht, h.1, 0, 3, [1], h.2.1, fun hp => hp.elim h.2.2.1 h.2.2.2⟩

/-- If the descriptor is not used again in time, the member dereferences the missing congestion context of the flow. -/
theorem C76_crash_violated : ∃ ops s, run demo init ops = some s ∧ s.crashed = true := by
  obtain ⟨t, ht, h⟩ := some_of_all (s := run demo init (opened ++ [.write 0 [1], .read 0 64, .close 0 64, .clear 0 64, .send 0 (some 2)]))
    (p := fun s => s.crashed) (by decide +kernel)
  exact ⟨_, t, ht, h⟩

/-- The random half of an endpoint id has 32 bits.  When it comes up again for the same descriptor, a packet to the flow that had it is given to the
flow that has it now. -/
theorem C76_repeated_id_violated : ∃ ops s, run demo init ops = some s ∧ ∃ i j b, (j, i, b) ∈ s.delivered ∧ ¬ Peer s i j := by
  obtain ⟨t, ht, h⟩ := some_of_all (s := run demo init (opened ++ [.write 0 [1], .read 0 64, .send 0 (some 2), .close 2 64, .clear 2 64, .release 2 64,
      .alloc 1 64 (some 9) 3 (some 2), .arrive 1 false, .request 2 0 (some 64), .setup 2 (some 7), .arrive 0 false, .deliver 0]))
    (p := fun s => decide ((3, 0, [1]) ∈ s.delivered ∧ ((0, 3) ∉ s.pairs ∧ (3, 0) ∉ s.pairs))) (by decide +kernel)
  have h := of_decide_eq_true h
  exact ⟨_, t, ht, 0, 3, [1], h.1, fun hp => hp.elim h.2.1 h.2.2⟩

/-- A reply that arrives before `fa_alloc` has entered the flow is dropped: the other end has accepted, nothing is under way, and the requester has
not been told. -/
theorem C76_quick_reply_violated : ∃ s, ReachOnce demo s ∧ (0, 1) ∈ s.pairs ∧ 1 ∈ s.accepted ∧ s.told = [] ∧ s.transit = [] ∧ s.cmds = [] ∧
    (s.node 0).allocating 64 = none := by
  obtain ⟨t, ht, h⟩ := some_of_all (s := runP demo init [.alloc 0 64 (some 5) 3 (some 2), .arrive 0 false, .request 2 0 (some 64), .setup 2 (some 7),
      .respond 2 64 (some 0), .arrive 0 false, .reply 0 0, .register 0 64])
    (p := fun s => decide ((0, 1) ∈ s.pairs ∧ 1 ∈ s.accepted ∧ s.told = [] ∧ s.transit = [] ∧ s.cmds = [] ∧ (s.node 0).allocating 64 = none)) (by decide +kernel)
  exact ⟨t, once_runP demo_ok .init (by decide +kernel) ht, of_decide_eq_true h⟩

/-- A response given before the flow is set up is not sent, and the flow is set up all the same: the server has a flow that the requester is
never told of. -/
theorem C76_quick_response_violated : ∃ s, ReachOnce demo s ∧ (0, 1) ∈ s.pairs ∧ (s.node 2).np1 64 = some 1 ∧ ((s.node 2).flows 64).ctx = true ∧
    (s.node 2).allocId = none ∧ s.accepted = [] ∧ s.told = [] ∧ s.transit = [] ∧ s.cmds = [] := by
  obtain ⟨t, ht, h⟩ := some_of_all (s := runP demo init [.alloc 0 64 (some 5) 3 (some 2), .register 0 64, .arrive 0 false, .request 2 0 (some 64),
      .respond 2 64 (some 0), .setup 2 (some 7)])
    (p := fun s => decide ((0, 1) ∈ s.pairs ∧ (s.node 2).np1 64 = some 1 ∧ ((s.node 2).flows 64).ctx = true ∧
      (s.node 2).allocId = none ∧ s.accepted = [] ∧ s.told = [] ∧ s.transit = [] ∧ s.cmds = [])) (by decide +kernel)
  exact ⟨t, once_runP demo_ok .init (by decide +kernel) ht, of_decide_eq_true h⟩

/-- Two flows are set up for one request that the layer below has duplicated. -/
theorem C76_duplicate_violated : ∃ s, Reach demo s ∧ Peer s 0 1 ∧ Peer s 0 2 := by
  obtain ⟨t, ht, h⟩ := some_of_all (s := runP demo init [.alloc 0 64 (some 5) 3 (some 2), .register 0 64, .dup 0, .arrive 0 false, .arrive 0 false,
      .request 2 0 (some 64), .setup 2 (some 7), .respond 2 64 (some 0), .request 2 0 (some 65), .setup 2 (some 8)])
    (p := fun s => decide ((0, 1) ∈ s.pairs ∧ (0, 2) ∈ s.pairs)) (by decide +kernel)
  have h := of_decide_eq_true h
  exact ⟨t, reach_runP demo_ok .init ht, Or.inl h.1, Or.inl h.2⟩

/-- A request that cannot be sent fails, and its descriptor stays in use. -/
theorem C76_failed_alloc_violated : ∃ s, ReachOnce demo s ∧ (s.node 0).np1 64 = some 0 ∧ ((s.node 0).flows 64).ctx = false ∧
    (s.node 0).allocating 64 = none ∧ s.transit = [] := by
  obtain ⟨t, ht, h⟩ := some_of_all (s := runP demo init [.alloc 0 64 (some 5) 3 none])
    (p := fun s => decide ((s.node 0).np1 64 = some 0 ∧ ((s.node 0).flows 64).ctx = false ∧ (s.node 0).allocating 64 = none ∧ s.transit = []))
    (by decide +kernel)
  exact ⟨t, once_runP demo_ok .init (by decide +kernel) ht, of_decide_eq_true h⟩

end Ouro.Unicast
