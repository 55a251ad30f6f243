import Verif.Model.AllocId
import Verif.Proof.Tac

/-! # Proofs about the hand-over of incoming flows -/

namespace Ouro.AllocId

/-- The flow whose response is awaited, according to a history (latest event first): the last one the daemon gave a descriptor for, unless it was responded. -/
def awaited : List (Op × Out) → Option Int
  | [] => none
  | (.answer r, .ret _) :: l => if 0 ≤ r then some r else awaited l
  | (_, .responded _) :: _ => none
  | _ :: l => awaited l

/-- Histories. -/
def Reached (s : State) (log : List (Op × Out)) : Prop := ∃ ops, run create ops = (s, log)

theorem run_snoc (l : List Op) (op : Op) (s : State) :
    run s (l ++ [op]) = ((step (run s l).1 op).1, (run s l).2 ++ [(op, (step (run s l).1 op).2)]) := by
  induction l generalizing s with
  | nil => simp [run]
  | cons o l ih => simp [run, ih]

/-- Invariant: `alloc_id` is the awaited flow; while a request is being handed over there is none. -/
structure Inv (s : State) (log : List (Op × Out)) : Prop where
  alloc : s.allocId = (awaited log.reverse).getD (-1)
  nonneg : ∀ fd, awaited log.reverse = some fd → 0 ≤ fd
  call : s.calling.isSome → s.allocId = -1

theorem tryRequest_inv {s : State} {log : List (Op × Out)} (hi : Inv s log) (w : Nat) (op : Op) (hop : ∀ r, op ≠ .answer r) (hn : s.calling = none) :
    Inv (tryRequest s w).1 (log ++ [(op, (tryRequest s w).2)]) := by
  have hk : ∀ o, (∀ fd, o ≠ .responded fd) → awaited (log ++ [(op, o)]).reverse = awaited log.reverse := by
    intro o ho
    rw [List.reverse_append]
    simp only [List.reverse_cons, List.reverse_nil, List.nil_append, List.singleton_append]
    cases op <;> cases o <;> simp_all [awaited]
  unfold tryRequest
  split
  · have := hk .sleeps (by simp)
    exact ⟨by rw [this]; exact hi.alloc, by rw [this]; exact hi.nonneg, by simp [hn]⟩
  · split
    · have := hk (.ret (-EIPCPSTATE)) (by simp)
      exact ⟨by rw [this]; exact hi.alloc, by rw [this]; exact hi.nonneg, by simp [hn]⟩
    · rename_i h1 h2
      have := hk .asks (by simp)
      refine ⟨by rw [this]; exact hi.alloc, by rw [this]; exact hi.nonneg, fun _ => ?_⟩
      have ho : s.oper = true := by simpa using h2
      by_contra h
      exact h1 ⟨h, ho⟩

theorem tryRespond_inv {s : State} {log : List (Op × Out)} (hi : Inv s log) (w : Nat) (fd : Int) (op : Op) (hop : ∀ r, op ≠ .answer r)
    (hn : s.calling = none) : Inv (tryRespond s w fd).1 (log ++ [(op, (tryRespond s w fd).2)]) := by
  have hk : ∀ o, (∀ fd, o ≠ .responded fd) → awaited (log ++ [(op, o)]).reverse = awaited log.reverse := by
    intro o ho
    rw [List.reverse_append]
    simp only [List.reverse_cons, List.reverse_nil, List.nil_append, List.singleton_append]
    cases op <;> cases o <;> simp_all [awaited]
  unfold tryRespond
  split
  · have := hk .sleeps (by simp)
    exact ⟨by rw [this]; exact hi.alloc, by rw [this]; exact hi.nonneg, by simp [hn]⟩
  · split
    · have := hk (.ret (-1)) (by simp)
      exact ⟨by rw [this]; exact hi.alloc, by rw [this]; exact hi.nonneg, by simp [hn]⟩
    · have : awaited (log ++ [(op, Out.responded fd)]).reverse = none := by
        rw [List.reverse_append]
        simp only [List.reverse_cons, List.reverse_nil, List.nil_append, List.singleton_append]
        cases op <;> simp_all [awaited]
      exact ⟨by rw [this]; rfl, by rw [this]; simp, by simp [hn]⟩

theorem step_inv {s : State} {log : List (Op × Out)} (hi : Inv s log) (op : Op) : Inv (step s op).1 (log ++ [(op, (step s op).2)]) := by
  have same : ∀ o, (∀ fd, o ≠ .responded fd) → (∀ r, op ≠ .answer r) → awaited (log ++ [(op, o)]).reverse = awaited log.reverse := by
    intro o ho hop
    rw [List.reverse_append]
    simp only [List.reverse_cons, List.reverse_nil, List.nil_append, List.singleton_append]
    cases op <;> cases o <;> simp_all [awaited]
  have nothing : (∀ r, op ≠ .answer r) → Inv s (log ++ [(op, .blocked)]) := by
    intro hop
    have := same .blocked (by simp) hop
    exact ⟨by rw [this]; exact hi.alloc, by rw [this]; exact hi.nonneg, hi.call⟩
  cases op with
  | request w =>
    simp only [step]
    split
    · exact nothing (by simp)
    · rename_i h
      rw [not_or] at h
      exact tryRequest_inv hi w _ (by simp) (by simpa using h.1)
  | respond w fd =>
    simp only [step]
    split
    · exact nothing (by simp)
    · rename_i h
      rw [not_or] at h
      exact tryRespond_inv hi w fd _ (by simp) (by simpa using h.1)
  | wake w =>
    simp only [step]
    split
    · exact nothing (by simp)
    · rename_i h
      split
      · exact nothing (by simp)
      · exact tryRequest_inv hi w _ (by simp) (by simpa using h)
      · exact tryRespond_inv hi w _ _ (by simp) (by simpa using h)
  | stop =>
    simp only [step]
    have := same .done (by simp) (by simp)
    exact ⟨by rw [this]; exact hi.alloc, by rw [this]; exact hi.nonneg, hi.call⟩
  | answer r =>
    simp only [step]
    split
    · have : awaited (log ++ [(Op.answer r, Out.blocked)]).reverse = awaited log.reverse := by
        rw [List.reverse_append]; simp [awaited]
      exact ⟨by rw [this]; exact hi.alloc, by rw [this]; exact hi.nonneg, hi.call⟩
    · have : awaited (log ++ [(Op.answer r, Out.ret r)]).reverse = if 0 ≤ r then some r else awaited log.reverse := by
        rw [List.reverse_append]; simp [awaited]
      split
      · rename_i h
        rw [if_neg (by omega)] at this
        exact ⟨by rw [this]; exact hi.alloc, by rw [this]; exact hi.nonneg, by simp⟩
      · rename_i h
        rw [if_pos (by omega)] at this
        exact ⟨by rw [this]; rfl, by rw [this]; intro fd h'; cases h'; omega, by simp⟩

theorem reached_inv {s : State} {log : List (Op × Out)} (h : Reached s log) : Inv s log := by
  obtain ⟨ops, h⟩ := h
  have : ∀ ops : List Op, Inv (run create ops).1 (run create ops).2 := by
    intro ops
    induction ops using List.reverseRecOn with
    | nil => exact ⟨rfl, by simp [run, awaited], by simp [run, create]⟩
    | append_singleton l op ih => rw [run_snoc]; exact step_inv ih op
  have := this ops
  rwa [h] at this

theorem stays {s : State} {fd : Int} (h : s.allocId = fd) (hfd : 0 ≤ fd) (hc : s.calling = none) (op : Op) :
    (step s op).2 ≠ .asks ∧ ((step s op).2 = .responded fd ∨
      ((step s op).1.allocId = fd ∧ (step s op).1.calling = none ∧ ∀ g, (step s op).2 ≠ .responded g)) := by
  have hreq : ∀ w, (tryRequest s w).2 ≠ .asks ∧ ((tryRequest s w).2 = .responded fd ∨
      ((tryRequest s w).1.allocId = fd ∧ (tryRequest s w).1.calling = none ∧ ∀ g, (tryRequest s w).2 ≠ .responded g)) := by
    intro w
    unfold tryRequest
    split
    · exact ⟨by simp, .inr ⟨h, hc, by simp⟩⟩
    · split
      · exact ⟨by simp, .inr ⟨h, hc, by simp⟩⟩
      · rename_i h1 h2
        exact absurd ⟨by omega, by simpa using h2⟩ h1
  have hresp : ∀ w g, (tryRespond s w g).2 ≠ .asks ∧ ((tryRespond s w g).2 = .responded fd ∨
      ((tryRespond s w g).1.allocId = fd ∧ (tryRespond s w g).1.calling = none ∧ ∀ g', (tryRespond s w g).2 ≠ .responded g')) := by
    intro w g
    unfold tryRespond
    split
    · exact ⟨by simp, .inr ⟨h, hc, by simp⟩⟩
    · split
      · exact ⟨by simp, .inr ⟨h, hc, by simp⟩⟩
      · rename_i h1 h2
        have : s.allocId = g := by
          by_contra hne
          exact h1 ⟨hne, by simpa using h2⟩
        exact ⟨by simp, .inl (by rw [← this, h])⟩
  cases op with
  | request w =>
    simp only [step]
    split
    · exact ⟨by simp, .inr ⟨h, hc, by simp⟩⟩
    · exact hreq w
  | respond w g =>
    simp only [step]
    split
    · exact ⟨by simp, .inr ⟨h, hc, by simp⟩⟩
    · exact hresp w g
  | wake w =>
    simp only [step]
    split
    · exact ⟨by simp, .inr ⟨h, hc, by simp⟩⟩
    · split
      · exact ⟨by simp, .inr ⟨h, hc, by simp⟩⟩
      · exact hreq w
      · exact hresp w _
  | stop => exact ⟨by simp [step], .inr ⟨h, hc, by simp [step]⟩⟩
  | answer r => rw [show step s (.answer r) = (s, .blocked) by simp only [step, hc]]; exact ⟨by simp, .inr ⟨h, hc, by simp⟩⟩

/-- Nothing is handed over before the response to the awaited flow. -/
theorem stays_run {s : State} {fd : Int} (h : s.allocId = fd) (hfd : 0 ≤ fd) (hc : s.calling = none) (ops : List Op)
    (hno : ∀ e ∈ (run s ops).2, e.2 ≠ .responded fd) :
    (run s ops).1.allocId = fd ∧ (run s ops).1.calling = none ∧ ∀ e ∈ (run s ops).2, e.2 ≠ .asks ∧ ∀ g, e.2 ≠ .responded g := by
  induction ops generalizing s with
  | nil => exact ⟨h, hc, by simp [run]⟩
  | cons op ops ih =>
    simp only [run, List.mem_cons] at hno ⊢
    obtain ⟨h1, h2⟩ := stays h hfd hc op
    have h3 := h2.resolve_left (hno (op, (step s op).2) (.inl rfl))
    obtain ⟨h4, h5, h6⟩ := ih h3.1 h3.2.1 (fun e he => hno e (.inr he))
    refine ⟨h4, h5, ?_⟩
    rintro e (rfl | he)
    · exact ⟨h1, h3.2.2⟩
    · exact h6 e he

theorem run_append (l1 l2 : List Op) (s : State) :
    run s (l1 ++ l2) = ((run (run s l1).1 l2).1, (run s l1).2 ++ (run (run s l1).1 l2).2) := by
  induction l1 generalizing s with
  | nil => simp [run]
  | cons o l1 ih => simp [run, ih]

theorem run_log_split {s : State} (ops : List Op) {pre post : List (Op × Out)} (h : (run s ops).2 = pre ++ post) :
    ∃ o1 o2, ops = o1 ++ o2 ∧ (run s o1).2 = pre ∧ (run (run s o1).1 o2).2 = post := by
  induction pre generalizing s ops with
  | nil => exact ⟨[], ops, rfl, rfl, by simpa [run] using h⟩
  | cons e pre ih =>
    cases ops with
    | nil => simp [run] at h
    | cons op ops =>
      simp only [run, List.cons_append, List.cons.injEq] at h
      obtain ⟨o1, o2, h1, h2, h3⟩ := ih ops h.2
      exact ⟨op :: o1, o2, by simp [h1], by simp [run, h2, h.1], by simpa [run] using h3⟩

theorem awaited_some {log : List (Op × Out)} {fd : Int} (h : awaited log.reverse = some fd) :
    0 ≤ fd ∧ ∃ pre post r, log = pre ++ (.answer fd, .ret r) :: post ∧ (∀ e ∈ post, ∀ g, e.2 ≠ .responded g) ∧
      (∀ e ∈ post, ∀ g r, e = (.answer g, .ret r) → g < 0) := by
  induction log using List.reverseRecOn with
  | nil => simp [awaited] at h
  | append_singleton l e ih =>
    rw [List.reverse_append] at h
    simp only [List.reverse_cons, List.reverse_nil, List.nil_append, List.singleton_append] at h
    obtain ⟨o, x⟩ := e
    have next : (∀ g, x ≠ .responded g) → (∀ g r, (o, x) = (Op.answer g, Out.ret r) → g < 0) → awaited l.reverse = some fd →
        0 ≤ fd ∧ ∃ pre post r, l ++ [(o, x)] = pre ++ (.answer fd, .ret r) :: post ∧ (∀ e ∈ post, ∀ g, e.2 ≠ .responded g) ∧
          (∀ e ∈ post, ∀ g r, e = (.answer g, .ret r) → g < 0) := by
      intro hx hg hl
      obtain ⟨h1, pre, post, r, h2, h3, h4⟩ := ih hl
      refine ⟨h1, pre, post ++ [(o, x)], r, by simp [h2], ?_, ?_⟩
      · intro e he
        rcases List.mem_append.mp he with he | he
        · exact h3 e he
        · rw [List.mem_singleton.mp he]; exact hx
      · intro e he
        rcases List.mem_append.mp he with he | he
        · exact h4 e he
        · rw [List.mem_singleton.mp he]; exact hg
    cases o with
    | answer r =>
      cases x with
      | ret q =>
        simp only [awaited] at h
        split at h
        · cases h; exact ⟨by assumption, l, [], q, rfl, by simp, by simp⟩
        · exact next (by simp) (by intro g r' he; injection he with h1; injection h1; omega) h
      | responded g => simp [awaited] at h
      | _ => exact next (by simp) (by intro g r' he; injection he with h1 h2; cases h2) (by simpa [awaited] using h)
    | request w => cases x <;> first | (simp [awaited] at h; done) | exact next (by simp) (by intro g r' he; injection he with h1 h2; cases h1) (by simpa [awaited] using h)
    | respond w fd' => cases x <;> first | (simp [awaited] at h; done) | exact next (by simp) (by intro g r' he; injection he with h1 h2; cases h1) (by simpa [awaited] using h)
    | wake w => cases x <;> first | (simp [awaited] at h; done) | exact next (by simp) (by intro g r' he; injection he with h1 h2; cases h1) (by simpa [awaited] using h)
    | stop => cases x <;> first | (simp [awaited] at h; done) | exact next (by simp) (by intro g r' he; injection he with h1 h2; cases h1) (by simpa [awaited] using h)

end Ouro.AllocId
