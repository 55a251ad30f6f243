import Verif.Proof.AckWheel

/-!
# Timers (C44, C58)
-/

namespace Ouro.TimerWheel

open Ouro Ouro.Frct Ouro.Seqno Spec.TimerHistory

/-! ## Retransmission -/

/-- Entries are examined on time: in the first turn after an instant at most one slot of their level away from their timeout. (Missing from
    C44: it may be up to one slot *before* the timeout, and the wheel must not be late by a revolution; see below.) -/
theorem C44_examined_on_time_partial {s : St} (h : Reach s) : ∀ ev ∈ s.out, OnTime ev := (inv_reach h).evs

/-- If the turns of the wheel are at most `d` apart, an entry is examined less than `d` and two slots after its timeout at the latest. -/
theorem C44_lateness_partial {s : St} (h : Reach s) {d : Nat} : ∀ ev ∈ s.out, ev.now ≤ ev.prev + d →
    ev.now < ev.ent.at_ + ev.ent.rto + res ev.ent.lvl + d ∧ ev.ent.at_ + ev.ent.rto < ev.now + res ev.ent.lvl := by
  intro ev hv hd
  obtain ⟨u, h1, h2, h3, h4⟩ := (inv_reach h).evs ev hv
  omega

/-- No entry that is due is left on the wheel by a turn. -/
theorem C44_not_missed_partial {s : St} (h : Reach s) : ∀ l k x, x ∈ s.rxms l k → s.last < dueAt x := by
  intro l k x hx
  obtain ⟨h1, h2, h3, h4, h5⟩ := (inv_reach h).slots l k x hx
  subst h2
  exact (Nat.div_lt_iff_lt_mul (res_pos _)).mp h4

/-- Whatever happens to flows, clock and buffers: what is retransmitted has not been acknowledged, its time has not run out, and it is the
    packet that was entrusted to the wheel, with a current acknowledgement. -/
theorem C44_only_unacknowledged_resent {s : St} {q : List Rxm} (h : Exec s q) : ∀ ev ∈ s.out, ∀ p, ev.res = .resent p → Justified q ev p := by
  intro ev hv p hp
  obtain ⟨⟨r, h1, h2, h3, a, h4⟩, hs⟩ := (kept_exec h).out ev hv
  obtain ⟨ep, h5, h6, h7, h8⟩ := hs.resent p hp
  refine ⟨r, ep, h1, h5, by rw [← h2]; exact h6, by rw [← h3]; exact h7, ?_⟩
  rw [h8, h4]

/-- No packet is forgotten: every packet entrusted to the wheel is still on it, or has been given up for a reason. -/
theorem C44_not_forgotten {s : St} {q : List Rxm} (h : Exec s q) : ∀ i, i < q.length →
    OnWheel s i ∨ ∃ ev ∈ s.out, ev.ent.id = i ∧ GivenUp q ev := by
  intro i hi
  have hk := kept_exec h
  rcases hk.all i (by rw [hk.len]; exact hi) with h1 | ⟨x, hx, _⟩ | ⟨ev, hv, h1, h2⟩
  · exact Or.inl h1
  · cases hx
  · right
    refine ⟨ev, hv, h1, ?_⟩
    obtain ⟨⟨r, h3, h4, _⟩, hs⟩ := hk.out ev hv
    rcases hs.over h2 with h | h | ⟨h, ep, h5, h6⟩
    · exact Or.inl h
    · exact Or.inr (Or.inl h)
    · exact Or.inr (Or.inr ⟨h, r, ep, h3, h5, by rw [← h4]; exact h6⟩)

/-! ### Concrete executions -/

private def ep0 (rto : Int) (lwe : W) : Ep :=
  { create 10000000000 120000000000 60000000000 true 0 with rto := rto, snd := { (create 10000000000 120000000000 60000000000 true 0).snd with lwe := lwe } }

private def fl (rto : Int) (lwe : W) : Nat → Option (Nat × Ep) := fun fd => if fd = 64 then some (7, ep0 rto lwe) else none

private def pk : Rxm := ⟨11, 0, ⟨true, false, false, false, false, 0, 11, 1, [1#8, 2#8]⟩⟩

private def good : Nat → Bool × Bool := fun _ => (true, true)

private def run (s : St) (ops : List Op) : St := ops.foldl step s

private def given (s : St) : List Op → List Rxm
  | [] => []
  | op :: ops => made s op ++ given (step s op) ops

private theorem exec_run (ops : List Op) : ∀ {s : St} {q : List Rxm}, Exec s q → Exec (run s ops) (q ++ given s ops) := by
  induction ops with
  | nil => intro s q h; rw [given, List.append_nil]; exact h
  | cons op ops ih =>
    intro s q h
    rw [given, ← List.append_assoc]
    exact ih (h.step (op := op))

private instance decAgain {α : Type} (o : Option α) (P : α → Prop) [∀ q, Decidable (P q)] : Decidable (∀ q, o = some q → P q) :=
  match o with
  | none => .isTrue (by intro q h; cases h)
  | some x => if h : P x then .isTrue (by intro q hq; cases hq; exact h) else .isFalse fun h' => h (h' x rfl)

private instance (l n r k : Nat) : Decidable (Fits l n r k) := inferInstanceAs (Decidable (_ < _))

/-- The time slot of 1.05 ms. -/
private def tick (n : Nat) : Nat := n * 2 ^ 20

private def s0 (rto : Int) (lwe : W) : St := init (tick 1000) (fl rto lwe)

private theorem ok_rxm {s : St} {fd now : Nat} {r : Rxm} {v : Nat × Ep} (h : s.flows fd = some v) (h1 : s.last ≤ now)
    (h2 : ∀ lk, place now v.2.rto.toNat = some lk → Fits s.last now v.2.rto.toNat lk.1) : Ok s (.rxm fd r now) := by
  refine ⟨h1, ?_⟩
  intro fid ep l k hf hp
  rw [h] at hf
  cases hf
  exact h2 (l, k) hp

/-- A packet with a timeout of 5 ms is written in slot 1000; the wheel is turned in slots 1003 and 1006 and the packet is sent again then,
    and dropped in slot 1013 when it has been acknowledged in the meantime. -/
private def demo : St := run (s0 5000000 11) [.rxm 64 pk (tick 1000), .turn (tick 1003) good, .turn (tick 1006) good, .flows (fl 5000000 12), .turn (tick 1013) good]

private theorem demo_reach : Reach demo := by
  have h0 : Reach (s0 5000000 11) := .init _ _
  have h1 := h0.step (op := .rxm 64 pk (tick 1000)) (ok_rxm (v := (7, ep0 5000000 11)) rfl (by decide) (by decide +kernel))
  have h2 := h1.step (op := .turn (tick 1003) good) ⟨by decide +kernel, by decide +kernel, by decide +kernel⟩
  have h3 := h2.step (op := .turn (tick 1006) good) ⟨by decide +kernel, by decide +kernel, by decide +kernel⟩
  have h4 := h3.step (op := .flows (fl 5000000 12)) trivial
  have h5 := h4.step (op := .turn (tick 1013) good) ⟨by decide +kernel, by decide +kernel, by decide +kernel⟩
  exact h5

example : Reach demo ∧ demo.out.map (fun ev => (ev.now, ev.res)) =
    [(tick 1006, .resent { pk.pkt with ackno := 0 }), (tick 1013, .acked)] := ⟨demo_reach, by decide +kernel⟩

example : Exec demo [pk] := by
  have hq : given (init (tick 1000) (fl 5000000 11)) [.rxm 64 pk (tick 1000), .turn (tick 1003) good, .turn (tick 1006) good,
      .flows (fl 5000000 12), .turn (tick 1013) good] = [pk] := by decide +kernel
  have := exec_run [.rxm 64 pk (tick 1000), .turn (tick 1003) good, .turn (tick 1006) good, .flows (fl 5000000 12), .turn (tick 1013) good] (.init (tick 1000) (fl 5000000 11))
  rw [hq] at this
  exact this

/-- C44 as stated is false: with a timeout of 1048575 ns (the least the code ever uses is 250000 ns), a packet is examined, and sent again, one
    nanosecond after it was written. -/
theorem C44_no_earlier_violated : ∃ s, Reach s ∧ ∃ ev ∈ s.out, (∃ p, ev.res = .resent p) ∧ ev.now = ev.ent.at_ + 1 ∧ ev.ent.rto = 1048575 := by
  have h0 : Reach (s0 1048575 11) := .init _ _
  have h1 := h0.step (op := .rxm 64 pk (tick 1001 - 1)) (ok_rxm (v := (7, ep0 1048575 11)) rfl (by decide) (by decide +kernel))
  have h2 := h1.step (op := .turn (tick 1001) good) ⟨by decide +kernel, by decide +kernel, by decide +kernel⟩
  refine ⟨_, h2, ?_⟩
  have hl : (step (step (s0 1048575 11) (.rxm 64 pk (tick 1001 - 1))) (.turn (tick 1001) good)).out.map
      (fun ev => (ev.res, ev.now, ev.ent.at_, ev.ent.rto)) = [(.resent { pk.pkt with ackno := 0 }, tick 1001, tick 1001 - 1, 1048575)] := by
    decide +kernel
  obtain ⟨ev, hv, he⟩ := List.mem_map.mp (hl ▸ List.mem_singleton.mpr rfl)
  simp only [Prod.mk.injEq] at he
  obtain ⟨a, b, c, d⟩ := he
  exact ⟨ev, hv, ⟨_, a⟩, by rw [b, c]; decide, d⟩

/-- If the wheel lags by a single slot when a packet with a timeout of 255 slots is written, the packet is examined in the next turn, here at the
    very instant it was written rather than 267 ms later. -/
theorem C44_lagging_violated : ∃ s q, Exec s q ∧ ∃ ev ∈ s.out, (∃ p, ev.res = .resent p) ∧ ev.now = ev.ent.at_ ∧ ev.ent.rto = tick 255 := by
  refine ⟨_, _, exec_run [.turn (tick 1000) good, .rxm 64 pk (tick 1001), .turn (tick 1001) good] (.init (tick 1000) (fl (tick 255) 11)), ?_⟩
  have hl : (run (init (tick 1000) (fl (tick 255) 11)) [.turn (tick 1000) good, .rxm 64 pk (tick 1001), .turn (tick 1001) good]).out.map
      (fun ev => (ev.res, ev.now, ev.ent.at_, ev.ent.rto)) = [(.resent { pk.pkt with ackno := 0 }, tick 1001, tick 1001, tick 255)] := by
    decide +kernel
  obtain ⟨ev, hv, he⟩ := List.mem_map.mp (hl ▸ List.mem_singleton.mpr rfl)
  simp only [Prod.mk.injEq] at he
  obtain ⟨a, b, c, d⟩ := he
  exact ⟨ev, hv, ⟨_, a⟩, by rw [b, c], d⟩

/-- If no turn is made for exactly 256 slots (268 ms), the next turn examines nothing: a packet with a timeout of 5 ms is still on the wheel
    268 ms after it was written, although the wheel has just been turned. -/
theorem C44_missed_violated : ∃ s q, Exec s q ∧ s.out = [] ∧ ∃ l k, ∃ x ∈ s.rxms l k, x.rto = 5000000 ∧ x.at_ + tick 256 = s.last := by
  refine ⟨_, _, exec_run [.turn (tick 1000) good, .rxm 64 pk (tick 1000), .turn (tick 1256) good] (.init (tick 1000) (fl 5000000 11)), ?_, 0, 1005 % 256, ?_⟩
  · exact List.length_eq_zero_iff.mp (by decide +kernel)
  · decide +kernel

/-! ## Delayed acknowledgements -/

/-- The instant a request is due is between 10 ms and 10.27 ms after it. -/
theorem C58_due (t : Nat) : t + 10000000 < adueAt t ∧ adueAt t ≤ t + 10000000 + 2 ^ 18 := by
  unfold adueAt adue ares
  omega

/-- Every acknowledgement asked for on a flow is attempted in the first turn at or after the instant it is due; until then it is on the
    wheel. (Missing from C58: a descriptor must not be given to another flow while an acknowledgement is pending on it; see below.) -/
theorem C58_answered_partial {s : ASt} {q : List (Nat × Nat)} (h : AReach s q) : ∀ r ∈ q, Awaiting s r.1 r.2 ∨ Answered s r.1 r.2 :=
  (ainv_reach h).mid.req

/-- No request that is due is left waiting by a turn. -/
theorem C58_not_missed_partial {s : ASt} {q : List (Nat × Nat)} (h : AReach s q) : ∀ r ∈ q, adueAt r.2 ≤ s.last → Answered s r.1 r.2 := by
  intro r hr hd
  rcases (ainv_reach h).mid.req r hr with ⟨k, a, ha, h1, h2⟩ | h1
  · obtain ⟨_, h3, _⟩ := (ainv_reach h).mid.slots k a ha
    have := (Nat.div_lt_iff_lt_mul ares_pos).mp h3
    rw [h2] at this
    unfold adueAt at hd
    omega
  · exact h1

/-- Every acknowledgement attempted has been asked for on its flow, and is attempted in the first turn at or after the instant it is due. -/
theorem C58_only_requested_partial {s : ASt} {q : List (Nat × Nat)} (h : AReach s q) :
    ∀ y ∈ s.tried, ∃ t, (y.flowId, t) ∈ q ∧ y.prev < adueAt t ∧ adueAt t ≤ y.now :=
  (ainv_reach h).mid.just

private def afl (id : Nat) : Nat → Option Nat := fun fd => if fd = 64 then some id else none

/-- Three requests on flow 7, two of them in the same slot, one turn before and one after they are due. -/
private def ademo : ASt := astep (astep (astep (astep (astep (ainit 100000000 (afl 7)) (.ask 64 100000000)) (.ask 64 100000100)) (.ask 64 103000000)) (.turn 105000000)) (.turn 115000000)

example : AReach ademo [(7, 100000000), (7, 100000100), (7, 103000000)] ∧
    ademo.tried = [⟨7, 115000000, 105000000, true⟩, ⟨7, 115000000, 105000000, true⟩] := by
  refine ⟨?_, by decide +kernel⟩
  have h0 : AReach (ainit 100000000 (afl 7)) [] := .init _ _
  have h1 := h0.step (op := .ask 64 100000000) ⟨by decide, by decide⟩
  have h2 := h1.step (op := .ask 64 100000100) ⟨by decide, by decide⟩
  have h3 := h2.step (op := .ask 64 103000000) ⟨by decide, by decide⟩
  have h4 := h3.step (op := .turn 105000000) ⟨by decide, by decide⟩
  exact h4.step (op := .turn 115000000) ⟨by decide +kernel, by decide +kernel⟩

/-- C58 in full is false: flow 7 asks for an acknowledgement and is closed, its descriptor is given to flow 8, which asks for one within the same
    slot: the request is taken for a duplicate and flow 8 never gets an acknowledgement for it. -/
theorem C58_reused_descriptor_violated : ∃ s q, AExec s q ∧ ∃ r ∈ q, adueAt r.2 ≤ s.last ∧ ¬ Awaiting s r.1 r.2 ∧ ¬ Answered s r.1 r.2 := by
  have h0 : AExec (ainit 100000000 (afl 7)) [] := .init _ _
  have h1 := h0.step (op := .ask 64 100000000) (Or.inr ⟨by decide, by decide⟩)
  have h2 := h1.step (op := .flows (afl 8)) (Or.inl ⟨_, rfl⟩)
  have h3 := h2.step (op := .ask 64 100000100) (Or.inr ⟨by decide, by decide⟩)
  have h4 := h3.step (op := .turn 115000000) (Or.inr ⟨by decide, by decide⟩)
  refine ⟨_, _, h4, (8, 100000100), by decide, by decide, ?_, ?_⟩
  · rintro ⟨k, a, ha, hb, _⟩
    have hk : ∀ k, ∀ a ∈ (astep (astep (astep (ainit 100000000 (afl 7)) (.ask 64 100000000)) (.flows (afl 8))) (.ask 64 100000100)).acks k, a.flowId = 7 := by
      intro k a ha
      have hm : (astep (astep (astep (ainit 100000000 (afl 7)) (.ask 64 100000000)) (.flows (afl 8))) (.ask 64 100000100)).acks k =
          if k = adue 100000000 % 256 then [⟨64, 7, 100000000⟩] else [] := rfl
      rw [hm] at ha
      split at ha
      · rw [List.mem_singleton] at ha; subst ha; rfl
      · cases ha
    have hsub : ∀ (js : List Nat) (s : ASt) (now k : Nat) (a : Ack), a ∈ (js.foldl (avisit now) s).acks k → a ∈ s.acks k := by
      intro js
      induction js with
      | nil => intro s now k a h; exact h
      | cons j js ih =>
        intro s now k a h
        have := ih _ _ _ _ h
        unfold avisit at this
        dsimp only at this
        rw [afold_eq] at this
        dsimp only at this
        split at this
        · cases this
        · exact this
    have hturn : ∀ (s : ASt) (now : Nat), a ∈ (astep s (.turn now)).acks k → a ∈ s.acks k := by
      intro s now h
      unfold astep aturn at h
      exact hsub _ s now k a h
    have := hk k a (hturn _ _ ha)
    rw [this] at hb
    exact absurd hb (by decide)
  · rintro ⟨y, hy, hb, _⟩
    have ht : (astep (astep (astep (astep (ainit 100000000 (afl 7)) (.ask 64 100000000)) (.flows (afl 8))) (.ask 64 100000100)) (.turn 115000000)).tried =
        [⟨7, 115000000, 99614720, false⟩] := by decide +kernel
    rw [ht, List.mem_singleton] at hy
    subst hy
    exact absurd hb (by decide)

end Ouro.TimerWheel
