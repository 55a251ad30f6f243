import Verif.Proof.Fa

/-!
# C35 — flow endpoints are not confused
-/

namespace Ouro.Fa

open Spec.FiniteMap Spec.Endpoints
open Ouro.Pft (rd_ok wr_ok)

/-- Operations as the rest of the system issues them: descriptors handed out for flows are in `[64, 4096)` (src/lib/dev.c:582), the
random number generator works, and endpoint id 0 does not occur in received messages (see `C35_update_for_id_zero_violated`). -/
def Valid : Op → Prop
  | .send _ _ => True
  | .register fd rnd _ => 64 ≤ fd ∧ fd < 4096 ∧ rnd.isSome
  | .request fd rnd _ _ => 64 ≤ fd ∧ fd < 4096 ∧ rnd.isSome
  | .reply rEid _ _ => rEid ≠ 0
  | .update rEid => rEid ≠ 0
  | .respond fd _ _ => 64 ≤ fd ∧ fd < 4096
  | .dealloc fd _ => 64 ≤ fd ∧ fd < 4096
  | .rcv eid => eid ≠ 0
  | .snd _ => False

instance : DecidablePred Valid := fun op => by cases op <;> unfold Valid <;> infer_instance

/-- What an operation means. The id of a flow is its random number followed by its descriptor. -/
def event : Op → Event
  | .register fd (some r) addr => .opened fd (mkEid r fd) addr
  | .request fd (some r) addr eid => .requested fd (mkEid r fd) addr eid
  | .reply rEid sEid response => .answered rEid sEid (decide (0 ≤ response))
  | .respond fd response sent => if sent ∧ 0 ≤ response then .other else .closed fd
  | .dealloc fd true => .closed fd
  | _ => .other

/-- The live flows after a history. -/
def liveAfter (ops : List Op) : Map Nat Ep := (ops.map event).foldl Spec.Endpoints.step empty

theorem step_ref {s : State} {m : Map Nat Ep} (h : Ref s m) (op : Op) (hv : Valid op) :
    ∃ s' o, step s op = .ok (s', o) ∧ Ref s' (Spec.Endpoints.step m (event op)) := by
  have hlen : s.flows.length = 4096 := h.len
  cases op with
  | send fd rnd => exact ⟨s, _, rfl, by cases rnd <;> exact h⟩
  | register fd rnd addr =>
    obtain ⟨h1, h2, h3⟩ := hv
    cases rnd with
    | none => cases h3
    | some r =>
      refine ⟨_, _, by simp only [step, wr_ok (show fd < s.flows.length by omega), Outcome.bind_ok, Outcome.pure_eq]; rfl, ?_⟩
      exact ref_put h fd h1 h2 _ ⟨r, rfl⟩ _ (by rw [genEid_some s fd r (by omega)]; rfl)
  | request fd rnd sAddr sEid =>
    obtain ⟨h1, h2, h3⟩ := hv
    cases rnd with
    | none => cases h3
    | some r =>
      refine ⟨_, _, by simp only [step, wr_ok (show fd < s.flows.length by omega), Outcome.bind_ok, Outcome.pure_eq]; rfl, ?_⟩
      exact ref_put h fd h1 h2 _ ⟨r, rfl⟩ _ (by rw [genEid_some s fd r (by omega)]; rfl)
  | reply rEid sEid response =>
    obtain ⟨o, e1, e2⟩ := eidToFd_spec h rEid hv
    simp only [step, e1, Outcome.bind_ok, event]
    cases o with
    | none =>
      refine ⟨s, _, rfl, ?_⟩
      rw [answered_none (fun fd hf => by cases (e2 fd).mpr hf)]
      exact h
    | some fd =>
      obtain ⟨ep, hm, he⟩ := (e2 fd).mp rfl
      obtain ⟨r1, r2, r3⟩ := h.range fd ep hm
      have hfl : fd < s.flows.length := by rw [h.len]; exact r2
      simp only [rd_ok hfl, wr_ok hfl, Outcome.bind_ok, Outcome.pure_eq]
      refine ⟨_, _, rfl, ?_⟩
      rw [answered_some h hm he]
      by_cases hresp : response < 0
      · have : ¬ (0 ≤ response) := by omega
        simp only [if_pos hresp, this, decide_false, Bool.false_eq_true, if_false]
        exact ref_remove h fd
      · have : 0 ≤ response := by omega
        simp only [if_neg hresp, this, decide_true, if_true]
        exact ref_put h fd r1 r2 { ep with reid := sEid } r3 _ (by rw [h.live fd ep hfl hm])
  | update rEid =>
    obtain ⟨o, e1, e2⟩ := eidToFd_spec h rEid hv
    simp only [step, e1, Outcome.bind_ok, event]
    cases o with
    | none => exact ⟨s, _, rfl, h⟩
    | some fd =>
      obtain ⟨ep, hm, he⟩ := (e2 fd).mp rfl
      have hfl : fd < s.flows.length := by rw [h.len]; exact (h.range fd ep hm).2.1
      simp only [rd_ok hfl, h.live fd ep hfl hm, Outcome.bind_ok, if_true]
      exact ⟨s, _, rfl, h⟩
  | respond fd response sent =>
    have hfl : fd < s.flows.length := by rw [hlen]; exact hv.2
    simp only [step, rd_ok hfl, Outcome.bind_ok, event]
    cases sent with
    | false =>
      simp only [Bool.false_eq_true, if_false, false_and, wr_ok hfl, Outcome.bind_ok, Outcome.pure_eq]
      exact ⟨_, _, rfl, ref_remove h fd⟩
    | true =>
      simp only [if_true, true_and, wr_ok hfl, Outcome.bind_ok, Outcome.pure_eq]
      refine ⟨_, _, rfl, ?_⟩
      by_cases hresp : response < 0
      · rw [if_pos hresp, if_neg (by omega)]
        exact ref_remove h fd
      · rw [if_neg hresp, if_pos (by omega)]
        have : s.flows.set fd s.flows[fd] = s.flows := List.set_getElem_self hfl
        rw [this]
        exact h
  | dealloc fd fini =>
    have hfl : fd < s.flows.length := by rw [hlen]; exact hv.2
    cases fini with
    | false => exact ⟨s, _, rfl, h⟩
    | true =>
      simp only [step, if_true, wr_ok hfl, Outcome.bind_ok, Outcome.pure_eq]
      exact ⟨_, _, rfl, ref_remove h fd⟩
  | rcv eid =>
    obtain ⟨o, e1, e2⟩ := eidToFd_spec h eid hv
    simp only [step, e1, Outcome.bind_ok, event]
    cases o with
    | none => exact ⟨s, _, rfl, h⟩
    | some fd =>
      obtain ⟨ep, hm, he⟩ := (e2 fd).mp rfl
      have hfl : fd < s.flows.length := by rw [h.len]; exact (h.range fd ep hm).2.1
      simp only [rd_ok hfl, h.live fd ep hfl hm, Outcome.bind_ok, if_true]
      exact ⟨s, _, rfl, h⟩
  | snd fd => exact absurd hv (by simp [Valid])

theorem run_append (s : State) (a b : List Op) :
    run s (a ++ b) = (do
      let (s1, r1) ← run s a
      let (s2, r2) ← run s1 b
      return (s2, r1 ++ r2)) := by
  induction a generalizing s with
  | nil => simp [run]; cases run s b <;> rfl
  | cons op a ih =>
    simp only [List.cons_append, run]
    cases h : step s op with
    | ub => rfl
    | ok x =>
      obtain ⟨s1, r⟩ := x
      simp only [Outcome.bind_ok, ih]
      cases h2 : run s1 a with
      | ub => rfl
      | ok y =>
        obtain ⟨s2, r2⟩ := y
        simp only [Outcome.bind_ok, Outcome.pure_eq]
        cases h3 : run s2 b with
        | ub => rfl
        | ok z => rfl

theorem reachable (e : BitVec 32) (ops : List Op) (hv : ∀ op ∈ ops, Valid op) :
    ∃ s rs, run (init e) ops = .ok (s, rs) ∧ Ref s (liveAfter ops) := by
  induction ops using List.reverseRecOn with
  | nil => exact ⟨_, _, rfl, ref_init e⟩
  | append_singleton ops op ih =>
    obtain ⟨s, rs, e1, h⟩ := ih (fun o ho => hv o (by simp [ho]))
    obtain ⟨s', r, e', h'⟩ := step_ref h op (hv op (by simp))
    refine ⟨s', rs ++ [r], ?_, ?_⟩
    · rw [run_append, e1]
      simp [run, e']
    · simpa [liveAfter] using h'

/-- C35 (partial: the random number generator never fails, id 0 is never received). After every history of requests, replies,
responses, updates and deallocations, with arbitrary ids from the network: endpoint ids of live flows differ; a packet for an id goes
to the flow that owns it, and is dropped if no live flow does; a reply is given to the flow whose request it answers, and ignored
(the table unchanged) if there is none; a live flow's packets are sent to its own remote end. -/
theorem C35_endpoints_partial (e : BitVec 32) (ops : List Op) (hv : ∀ op ∈ ops, Valid op) :
    ∃ s rs, run (init e) ops = .ok (s, rs) ∧
      (∀ eid fd fd', owner (liveAfter ops) eid fd → owner (liveAfter ops) eid fd' → fd = fd') ∧
      (∀ eid, eid ≠ 0 → ∃ o, step s (.rcv eid) = .ok (s, o) ∧
        (∀ fd, owner (liveAfter ops) eid fd → o = .deliver fd) ∧ ((∀ fd, ¬ owner (liveAfter ops) eid fd) → o = .ret (-1))) ∧
      (∀ eid reid response, eid ≠ 0 → ∃ s' o, step s (.reply eid reid response) = .ok (s', o) ∧
        (∀ fd, owner (liveAfter ops) eid fd → o = .allocated fd response) ∧
        ((∀ fd, ¬ owner (liveAfter ops) eid fd) → s' = s ∧ o = .ret (-ENOTALLOC))) ∧
      (∀ fd ep, liveAfter ops fd = some ep → step s (.snd fd) = .ok (s, .packet ep.raddr ep.reid)) := by
  obtain ⟨s, rs, e1, h⟩ := reachable e ops hv
  refine ⟨s, rs, e1, fun eid fd fd' a b => owner_unique h a b, ?_, ?_, ?_⟩
  · intro eid hne
    obtain ⟨o, e2, e3⟩ := eidToFd_spec h eid hne
    simp only [step, e2, Outcome.bind_ok]
    cases o with
    | none =>
      refine ⟨_, rfl, ?_, fun _ => rfl⟩
      intro fd hf; cases (e3 fd).mpr hf
    | some fd =>
      obtain ⟨ep, hm, he⟩ := (e3 fd).mp rfl
      have hfl : fd < s.flows.length := by rw [h.len]; exact (h.range fd ep hm).2.1
      simp only [rd_ok hfl, h.live fd ep hfl hm, Outcome.bind_ok, if_true]
      refine ⟨_, rfl, ?_, ?_⟩
      · intro x hx; rw [owner_unique h hx ⟨ep, hm, he⟩]
      · intro hx; exact absurd ⟨ep, hm, he⟩ (hx fd)
  · intro eid reid response hne
    obtain ⟨o, e2, e3⟩ := eidToFd_spec h eid hne
    simp only [step, e2, Outcome.bind_ok]
    cases o with
    | none =>
      refine ⟨s, _, rfl, ?_, fun _ => ⟨rfl, rfl⟩⟩
      intro fd hf; cases (e3 fd).mpr hf
    | some fd =>
      obtain ⟨ep, hm, he⟩ := (e3 fd).mp rfl
      have hfl : fd < s.flows.length := by rw [h.len]; exact (h.range fd ep hm).2.1
      simp only [rd_ok hfl, wr_ok hfl, Outcome.bind_ok, Outcome.pure_eq]
      refine ⟨_, _, rfl, ?_, ?_⟩
      · intro x hx; rw [owner_unique h hx ⟨ep, hm, he⟩]
      · intro hx; exact absurd ⟨ep, hm, he⟩ (hx fd)
  · intro fd ep hm
    have hfl : fd < s.flows.length := by rw [h.len]; exact (h.range fd ep hm).2.1
    simp only [step, rd_ok hfl, h.live fd ep hfl hm, Outcome.bind_ok, if_true, Outcome.pure_eq]

/-- C35 fails for endpoint id 0: a flow update message for it reaches slot 0, which no flow ever used, and its missing congestion
context is dereferenced. -/
theorem C35_update_for_id_zero_violated (e : BitVec 32) : step (init e) (.update 0) = .ub := by
  simp [-List.reduceReplicate, step, eidToFd, init, maxFlows, rd]

/-- C35 fails for endpoint id 0: a reply for it is taken for the reply to a request of descriptor 0, which has none. -/
theorem C35_reply_for_id_zero_violated (e : BitVec 32) :
    ∃ s, step (init e) (.reply 0 7 0) = .ok (s, .allocated 0 0) := by
  simp [-List.reduceReplicate, step, eidToFd, init, maxFlows, rd, wr]

/-- C35 fails if the random number generator fails: two flows get the same id. -/
theorem C35_same_id_violated (e : BitVec 32) :
    ∃ s, run (init e) [.request 64 none 1 2, .request 65 none 3 4] = .ok (s, [.ret 64, .ret 65]) ∧
      (s.flows[64]?).map Flow.sEid = some (e.setWidth 64) ∧ (s.flows[65]?).map Flow.sEid = some (e.setWidth 64) := by
  refine ⟨⟨((List.replicate 4096 ⟨0, 0, 0, false⟩).set 64 ⟨e.setWidth 64, 2, 1, true⟩).set 65 ⟨e.setWidth 64, 4, 3, true⟩, e⟩, ?_, ?_, ?_⟩
  · simp [-List.reduceReplicate, run, step, init, maxFlows, wr, flowInit, genEid]
  · simp [-List.reduceReplicate]
  · simp [-List.reduceReplicate]

/-- A reply that arrives between the sending of the request and its registration is lost: the flow never learns its remote end. -/
theorem C35_early_reply_violated (e : BitVec 32) :
    ∃ s, run (init e) [.send 64 (some 5), .reply (mkEid 5 64) 99 0, .register 64 (some 5) 7] =
      .ok (s, [.request (mkEid 5 64), .ret (-ENOTALLOC), .ret 0]) ∧ (s.flows[64]?).map Flow.rEid = some (-1 : BitVec 64) := by
  refine ⟨⟨(List.replicate 4096 ⟨0, 0, 0, false⟩).set 64 ⟨mkEid 5 64, -1, 7, true⟩, e⟩, ?_, ?_⟩
  · simp [-List.reduceReplicate, run, step, init, maxFlows, wr, flowInit, genEid, eidToFd, rd, mkEid]
  · simp [-List.reduceReplicate]

/-- Non-vacuity: two flows, a late packet for a closed one, a packet for the open one. -/
example : (∀ op ∈ [Op.request 64 (some 5) 1 2, .register 65 (some 6) 3, .dealloc 64 true, .rcv (mkEid 5 64)], Valid op) ∧
    owner (liveAfter [Op.request 64 (some 5) 1 2, .register 65 (some 6) 3, .dealloc 64 true]) (mkEid 6 65) 65 ∧
    (∀ fd, ¬ owner (liveAfter [Op.request 64 (some 5) 1 2, .dealloc 64 true]) (mkEid 5 64) fd) := by
  refine ⟨by decide, ⟨_, rfl, rfl⟩, ?_⟩
  rintro fd ⟨ep, h1, h2⟩
  simp only [liveAfter, List.map, event, List.foldl, Spec.Endpoints.step, remove, put, empty] at h1
  split at h1
  · cases h1
  · cases h1

end Ouro.Fa
