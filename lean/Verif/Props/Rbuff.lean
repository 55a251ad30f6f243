import Verif.Proof.Rbuff

/-!
# C02, C03, C51 — the packet ring

* C02: for non-blocking histories the ring *is* the bounded FIFO queue of `Spec.BoundedQueue`, for every `2^k`.
* C03: full statement: every write attempt of every interleaving has an effect allowed by `WriteEffect`. The code violates
  it in three ways, refuted below; `C03_write_effect_partial` covers all remaining attempts. Reads and all other calls
  need no exception.
* C51: a sleeping reader or writer always either has its wait condition true or a wake-up pending. For `shm_rbuff_fini`
  this fails (consequence of the second C03 violation).
-/

namespace Ouro.Rbuff

open Spec.BoundedQueue (WriteEffect ReadEffect)

/-- The non-blocking calls. -/
def ofCall : Spec.BoundedQueue.Call → Op
  | .write x => .write x
  | .read => .read
  | .queued => .queued

/-- C02. For every ring size `2^k` and every history of non-blocking calls, the results are those of a FIFO queue with
capacity `2^k - 1`. -/
theorem C02_ring_is_bounded_fifo (k : Nat) (cs : List Spec.BoundedQueue.Call) :
    ∃ s, run (init k) (cs.map ofCall) = .ok (s, (Spec.BoundedQueue.results (2 ^ k - 1) [] cs).map .ret) := by
  have key : ∀ (cs : List Spec.BoundedQueue.Call) (s : Sys), WF s.ring → s.ring.size = 2 ^ k → s.ring.acl = ACL_RDWR →
      ∃ s', run s (cs.map ofCall) =
        .ok (s', (Spec.BoundedQueue.results (2 ^ k - 1) (contents s.ring) cs).map .ret) := by
    intro cs
    induction cs with
    | nil => intro s _ _ _; exact ⟨s, rfl⟩
    | cons c cs ih =>
      intro s hw hs ha
      have hstep : ∃ s1, step s (ofCall c) = .ok (s1, .ret (Spec.BoundedQueue.exec (2 ^ k - 1) (contents s.ring) c).2) ∧
          WF s1.ring ∧ s1.ring.size = 2 ^ k ∧ s1.ring.acl = ACL_RDWR ∧
          contents s1.ring = (Spec.BoundedQueue.exec (2 ^ k - 1) (contents s.ring) c).1 := by
        cases c with
        | write x =>
          simp only [ofCall, step, write_eq hw, Spec.BoundedQueue.exec, contents_length, ha, ne_eq, not_true_eq_false,
            if_false, ← hs]
          by_cases hf : s.ring.used < s.ring.size - 1
          · rw [if_pos hf, hw.free_iff.mpr hf]
            exact ⟨_, rfl, pushed_wf hw x, rfl, ha, pushed_contents hw x hf⟩
          · have : s.ring.free = false := by
              cases e : s.ring.free with
              | false => rfl
              | true => exact absurd (hw.free_iff.mp e) hf
            rw [if_neg hf, this]
            exact ⟨s, rfl, hw, rfl, ha, rfl⟩
        | read =>
          obtain ⟨a, b⟩ := read_eq hw
          simp only [ofCall, step]
          cases e : s.ring.empty with
          | true =>
            have hc : contents s.ring = [] := by
              rw [← List.length_eq_zero_iff, contents_length]; exact hw.empty_iff.mp e
            refine ⟨s, ?_, hw, hs, ha, ?_⟩
            · rw [a e, hc]; simp [Spec.BoundedQueue.exec, Ring.checkAcl, ha, ACL_RDWR, EAGAIN]
            · rw [hc]; rfl
          | false =>
            obtain ⟨x, h1, h2, _⟩ := b e
            refine ⟨Sys.broadcast { s with ring := popped s.ring } false, ?_, popped_wf hw, hs, ha, ?_⟩
            · rw [h1, h2]; rfl
            · rw [h2]; rfl
        | queued =>
          refine ⟨s, ?_, hw, hs, ha, rfl⟩
          simp [ofCall, step, Spec.BoundedQueue.exec]
      obtain ⟨s1, h1, h2, h3, h4, h5⟩ := hstep
      obtain ⟨s2, h6⟩ := ih s1 h2 h3 h4
      refine ⟨s2, ?_⟩
      simp only [List.map_cons, run, h1, Outcome.bind_ok, h6, Outcome.pure_eq, Spec.BoundedQueue.results, h5]
  obtain ⟨s, h⟩ := key cs (init k) (create_wf k) rfl rfl
  exact ⟨s, by rw [h]; simp [init, create_contents]⟩

/-- Non-vacuity: the specification itself behaves as expected on a wrap-around history (capacity 3). -/
example : Spec.BoundedQueue.results (2 ^ 2 - 1) [] [.write 7, .write 8, .read, .write 9, .write 10, .write 11, .queued, .read,
    .read, .read, .read] = [0, 0, 7, 0, 0, -11, 3, 8, 9, 10, -11] := by decide

/-! ## C03 -/

/-- `op` is a write attempt of packet `idx` in `s`: a write call, or a writer asleep in `write_b` waking up. -/
def WriteAttempt (s : Sys) (idx : Nat) : Op → Prop
  | .write i => i = idx
  | .writeB i => i = idx
  | .wake i _ => ∃ b, s.waiting[i]? = some (.writer idx, b)
  | _ => False

/-- `op` is a read attempt. -/
def ReadAttempt (s : Sys) : Op → Prop
  | .read => True
  | .readB => True
  | .wake i _ => ∃ b, s.waiting[i]? = some (.reader, b)
  | _ => False

/-- The situations in which the code violates C03: an entry with only `ACL_FLOWPEER` set (or an unknown bit); a writer
waking up on a full ring marked down; a writer woken by the death of a lock holder. -/
def Excluded (s : Sys) : Op → Prop
  | .write _ | .writeB _ =>
    s.ring.acl ≠ ACL_RDWR ∧ s.ring.acl &&& ACL_FLOWDOWN = 0 ∧ s.ring.acl &&& ACL_RDONLY = 0
  | .wake _ rc => (s.ring.free = false ∧ s.ring.acl &&& ACL_FLOWDOWN ≠ 0 ∧ rc ≠ ETIMEDOUT) ∨ (rc ≠ 0 ∧ rc ≠ ETIMEDOUT)
  | _ => False

theorem writeBLoop_effect {s : Sys} (hw : WF s.ring) (idx : Nat) (ret : Int) (hr : ret = 0 ∨ ret = -ETIMEDOUT)
    (hx : ¬ (s.ring.free = false ∧ s.ring.acl &&& ACL_FLOWDOWN ≠ 0 ∧ ret ≠ -ETIMEDOUT)) (down rdonly : Prop) :
    ∃ s' o, writeBLoop s idx ret = .ok (s', o) ∧ (o = .sleep → contents s'.ring = contents s.ring) ∧
      ∀ v, o = .ret v → WriteEffect (s.ring.size - 1) down rdonly (contents s.ring) idx v (contents s'.ring) := by
  rw [writeBLoop_eq hw]
  split
  · exact ⟨_, _, rfl, fun _ => rfl, fun v h => by cases h⟩
  · next hc =>
    split
    · next ht =>
      refine ⟨_, _, rfl, fun h => (by cases h), ?_⟩
      intro v hv
      cases hv
      have hf : s.ring.free = true := by
        cases e : s.ring.free with
        | true => rfl
        | false =>
          exfalso
          by_cases hd : s.ring.acl &&& ACL_FLOWDOWN = 0
          · apply hc; simp [e, ht, hd]
          · exact hx ⟨e, hd, ht⟩
      have hu := hw.free_iff.mp hf
      have : ret = 0 := by rcases hr with h | h; exact h; exact absurd h ht
      subst this
      have := WriteEffect.done (cap := s.ring.size - 1) (down := down) (rdonly := rdonly) (q := contents s.ring)
        (x := (idx : Int)) (by simpa using hu)
      rw [← pushed_contents hw idx hu] at this
      exact this
    · next ht =>
      refine ⟨_, _, rfl, fun h => (by cases h), ?_⟩
      intro v hv
      cases hv
      have : ret = -110 := by simpa [ETIMEDOUT] using ht
      subst this
      exact .timeout

/-- C03 (partial: outside `Excluded`). After any interleaving of calls and wake-ups on a ring of `2^k` cells, a write attempt
of packet `idx` either sleeps leaving the queue as it is, or returns with an effect allowed by the specification, judged by
the access word in force. -/
theorem C03_write_effect_partial (k : Nat) (hist : List Op) (s : Sys) (os : List Out)
    (hreach : run (init k) hist = .ok (s, os)) (op : Op) (idx : Nat) (ha : WriteAttempt s idx op)
    (hx : ¬ Excluded s op) :
    ∃ s' o, step s op = .ok (s', o) ∧ (o = .sleep → contents s'.ring = contents s.ring) ∧
      ∀ v, o = .ret v → WriteEffect (2 ^ k - 1) (s.ring.acl &&& ACL_FLOWDOWN ≠ 0) (s.ring.acl &&& ACL_RDONLY ≠ 0)
        (contents s.ring) idx v (contents s'.ring) := by
  obtain ⟨hw, hs⟩ := reach_wf hreach
  rw [← hs]
  have deny : s.ring.acl ≠ ACL_RDWR → ¬ (s.ring.acl ≠ ACL_RDWR ∧ s.ring.acl &&& ACL_FLOWDOWN = 0 ∧
      s.ring.acl &&& ACL_RDONLY = 0) → ∀ v, v = s.ring.denyCode →
      WriteEffect (s.ring.size - 1) (s.ring.acl &&& ACL_FLOWDOWN ≠ 0) (s.ring.acl &&& ACL_RDONLY ≠ 0)
        (contents s.ring) idx v (contents s.ring) := by
    intro h1 h2 v hv
    subst hv
    unfold Ring.denyCode
    split
    · next h => exact .down h
    · next h =>
      have h' : s.ring.acl &&& ACL_FLOWDOWN = 0 := by simpa using h
      have hr : s.ring.acl &&& ACL_RDONLY ≠ 0 := fun e => h2 ⟨h1, h', e⟩
      rw [if_pos hr]
      exact .rdonly hr (by simpa using h')
  cases op with
  | write i =>
    simp only [WriteAttempt] at ha
    subst ha
    simp only [step]
    rw [write_eq hw]
    split
    · next h1 => exact ⟨_, _, rfl, fun h => (by cases h), fun v hv => (by cases hv; exact deny h1 hx _ rfl)⟩
    · split
      · next hf =>
        refine ⟨_, _, rfl, fun h => (by cases h), fun v hv => ?_⟩
        cases hv
        apply WriteEffect.full
        have hf' : ¬ s.ring.used < s.ring.size - 1 := by
          intro h; rw [hw.free_iff.mpr h] at hf; simp at hf
        have := hw.used_lt
        simp only [contents_length]
        omega
      · next hf =>
        refine ⟨_, _, rfl, fun h => (by cases h), fun v hv => ?_⟩
        cases hv
        have hu := hw.free_iff.mp (by simpa using hf)
        show WriteEffect _ _ _ _ _ _ (contents (pushed s.ring i))
        rw [pushed_contents hw i hu]
        exact .done (by simpa using hu)
  | writeB i =>
    simp only [WriteAttempt] at ha
    subst ha
    simp only [step, writeB]
    split
    · next h1 => exact ⟨_, _, rfl, fun h => (by cases h), fun v hv => (by cases hv; exact deny h1 hx _ rfl)⟩
    · next h1 =>
      refine writeBLoop_effect hw i 0 (Or.inl rfl) ?_ _ _
      rintro ⟨_, h, _⟩
      rw [show s.ring.acl = ACL_RDWR by simpa using h1] at h
      exact h (by decide)
  | wake i rc =>
    obtain ⟨b, hb⟩ := ha
    simp only [step, wake, hb]
    have hx1 : ¬ (s.ring.free = false ∧ s.ring.acl &&& ACL_FLOWDOWN ≠ 0 ∧ rc ≠ ETIMEDOUT) := fun h => hx (Or.inl h)
    have hx2 : rc = 0 ∨ rc = ETIMEDOUT := by
      by_cases h0 : rc = 0
      · exact Or.inl h0
      · by_cases h1 : rc = ETIMEDOUT
        · exact Or.inr h1
        · exact absurd (Or.inr ⟨h0, h1⟩) hx
    refine writeBLoop_effect (s := { s with waiting := s.waiting.eraseIdx i }) hw idx (-rc) ?_ ?_ _ _
    · rcases hx2 with h | h
      · left; rw [h]; rfl
      · right; rw [h]
    · rintro ⟨h1, h2, h3⟩
      exact hx1 ⟨h1, h2, fun e => h3 (by rw [e])⟩
  | read => exact absurd ha id
  | readB => exact absurd ha id
  | setAcl f => exact absurd ha id
  | getAcl => exact absurd ha id
  | queued => exact absurd ha id
  | fini => exact absurd ha id

/-- Non-vacuity: a writer asleep on a full ring (3 packets in 4 cells), one packet read meanwhile; its wake-up is a write
attempt outside `Excluded`, and it succeeds. -/
example : ∃ s os, run (init 2) [.write 1, .write 2, .write 3, .writeB 4, .read] = .ok (s, os) ∧
    WriteAttempt s 4 (.wake 0 0) ∧ ¬ Excluded s (.wake 0 0) ∧
    (do let (s', o) ← step s (.wake 0 0); return (contents s'.ring, o)) = .ok ([2, 3, 4], .ret 0) := by
  refine ⟨_, _, rfl, ⟨true, rfl⟩, ?_, by decide +kernel⟩
  simp [Excluded]; decide

/-- C03, reads: every read attempt of every interleaving takes the oldest element, or leaves the queue (empty) as it is with
the code the access word asks for. No exception is needed. -/
theorem C03_read_effect (k : Nat) (hist : List Op) (s : Sys) (os : List Out)
    (hreach : run (init k) hist = .ok (s, os)) (op : Op) (ha : ReadAttempt s op) :
    ∃ s' o, step s op = .ok (s', o) ∧ (o = .sleep → contents s.ring = [] ∧ contents s'.ring = []) ∧
      ∀ v, o = .ret v → ReadEffect (s.ring.acl &&& ACL_FLOWDOWN ≠ 0) (s.ring.acl &&& ACL_FLOWPEER ≠ 0)
        (contents s.ring) v (contents s'.ring) := by
  obtain ⟨hw, hs⟩ := reach_wf hreach
  have hcont : s.ring.empty = true → contents s.ring = [] := by
    intro e; rw [← List.length_eq_zero_iff, contents_length]; exact hw.empty_iff.mp e
  have hacl : ∀ s : Sys, contents s.ring = [] →
      ReadEffect (s.ring.acl &&& ACL_FLOWDOWN ≠ 0) (s.ring.acl &&& ACL_FLOWPEER ≠ 0)
        (contents s.ring) s.ring.checkAcl (contents s.ring) := by
    intro s hc
    rcases checkAcl_cases s.ring with ⟨h1, h2, h3⟩ | ⟨h1, h2⟩ | ⟨h1, h2, h3⟩ <;> rw [h1]
    · exact .empty hc (by simpa using h2) (by simpa using h3)
    · exact .down hc h2
    · exact .peer hc h2 (by simpa using h3)
  have loop : ∀ (s : Sys) (idx : Int), WF s.ring → (s.ring.empty = true → contents s.ring = []) →
      ∃ s' o, readBLoop s idx = .ok (s', o) ∧ (o = .sleep → contents s.ring = [] ∧ contents s'.ring = []) ∧
      ∀ v, o = .ret v → ReadEffect (s.ring.acl &&& ACL_FLOWDOWN ≠ 0) (s.ring.acl &&& ACL_FLOWPEER ≠ 0)
        (contents s.ring) v (contents s'.ring) := by
    intro s idx hw hcont
    obtain ⟨a, b, c, d⟩ := readBLoop_eq hw idx
    cases e : s.ring.empty with
    | false =>
      obtain ⟨x, h1, h2, _⟩ := d e
      refine ⟨_, _, h1, fun h => (by cases h), ?_⟩
      intro v hv; cases hv
      exact .done _ _ h2
    | true =>
      have hc := hcont e
      by_cases h1 : idx = -ETIMEDOUT
      · refine ⟨_, _, c e h1, fun h => (by cases h), ?_⟩
        intro v hv; cases hv; exact .timeout hc
      · by_cases h2 : s.ring.checkAcl = -EAGAIN
        · exact ⟨_, _, a e h1 h2, fun _ => ⟨hc, hc⟩, fun v hv => by cases hv⟩
        · refine ⟨_, _, b e h1 h2, fun h => (by cases h), ?_⟩
          intro v hv; cases hv; exact hacl s hc
  cases op with
  | read =>
    obtain ⟨a, b⟩ := read_eq hw
    simp only [step]
    cases e : s.ring.empty with
    | true =>
      refine ⟨_, _, a e, fun h => (by cases h), ?_⟩
      intro v hv; cases hv; exact hacl s (hcont e)
    | false =>
      obtain ⟨x, h1, h2, _⟩ := b e
      refine ⟨_, _, h1, fun h => (by cases h), ?_⟩
      intro v hv; cases hv
      exact .done _ _ h2
  | readB =>
    simp only [step, readB]
    split
    · next h =>
      refine ⟨_, _, rfl, fun h => (by cases h), ?_⟩
      intro v hv; cases hv
      simp only [Bool.and_eq_true, bne_iff_ne] at h
      exact .down (hcont h.1) h.2
    · exact loop s (-1) hw hcont
  | wake i rc =>
    obtain ⟨b, hb⟩ := ha
    simp only [step, wake, hb]
    exact loop { s with waiting := s.waiting.eraseIdx i } (-rc) hw hcont
  | write i => exact absurd ha id
  | writeB i => exact absurd ha id
  | setAcl f => exact absurd ha id
  | getAcl => exact absurd ha id
  | queued => exact absurd ha id
  | fini => exact absurd ha id

/-- C03, everything else leaves the queue alone. -/
theorem C03_other_calls_keep_queue (s : Sys) (op : Op) (hr : ¬ ReadAttempt s op) (hwr : ∀ idx, ¬ WriteAttempt s idx op) :
    ∃ s' o, step s op = .ok (s', o) ∧ contents s'.ring = contents s.ring := by
  cases op with
  | read => exact absurd trivial hr
  | readB => exact absurd trivial hr
  | write i => exact absurd rfl (hwr i)
  | writeB i => exact absurd rfl (hwr i)
  | setAcl f => exact ⟨_, _, rfl, rfl⟩
  | getAcl => exact ⟨_, _, rfl, rfl⟩
  | queued => exact ⟨_, _, rfl, rfl⟩
  | fini => simp only [step, finiLoop]; split <;> exact ⟨_, _, rfl, rfl⟩
  | wake i rc =>
    simp only [step, wake]
    split
    · exact ⟨_, _, rfl, rfl⟩
    · next w b hb =>
      cases w with
      | writer idx => exact absurd ⟨b, hb⟩ (hwr idx)
      | reader => exact absurd ⟨b, hb⟩ hr
      | finisher => simp only [finiLoop]; split <;> exact ⟨_, _, rfl, rfl⟩

/-- Executions with the packets accepted (`w`: written with result 0) and delivered (`d`: returned by a read ≥ 0), in order.
Any call may happen, except the write attempts in `Excluded`. -/
inductive Exec (k : Nat) : List Int → List Int → Sys → Prop
  | start : Exec k [] [] (init k)
  | accept {w d s s' op idx} (h : Exec k w d s) (ha : WriteAttempt s idx op) (hx : ¬ Excluded s op)
      (hs : step s op = .ok (s', .ret 0)) : Exec k (w ++ [(idx : Int)]) d s'
  | reject {w d s s' op idx o} (h : Exec k w d s) (ha : WriteAttempt s idx op) (hx : ¬ Excluded s op)
      (hs : step s op = .ok (s', o)) (ho : o ≠ .ret 0) : Exec k w d s'
  | deliver {w d s s' op v} (h : Exec k w d s) (ha : ReadAttempt s op)
      (hs : step s op = .ok (s', .ret v)) (hv : 0 ≤ v) : Exec k w (d ++ [v]) s'
  | nothing {w d s s' op o} (h : Exec k w d s) (ha : ReadAttempt s op)
      (hs : step s op = .ok (s', o)) (hv : ∀ v, o = .ret v → v < 0) : Exec k w d s'
  | other {w d s s' op o} (h : Exec k w d s) (hr : ¬ ReadAttempt s op) (hwr : ∀ idx, ¬ WriteAttempt s idx op)
      (hs : step s op = .ok (s', o)) : Exec k w d s'

theorem run_append (ops ops' : List Op) : ∀ s s1 s2 os os', run s ops = .ok (s1, os) → run s1 ops' = .ok (s2, os') →
    run s (ops ++ ops') = .ok (s2, os ++ os') := by
  induction ops with
  | nil => intro s s1 s2 os os' h h'; simp only [run, Outcome.ok.injEq, Prod.mk.injEq] at h; obtain ⟨rfl, rfl⟩ := h; exact h'
  | cons op ops ih =>
    intro s s1 s2 os os' h h'
    simp only [run] at h
    cases e : step s op with
    | ub => simp [e] at h
    | ok p =>
      obtain ⟨sa, o⟩ := p
      simp only [e, Outcome.bind_ok] at h
      cases e2 : run sa ops with
      | ub => simp [e2] at h
      | ok q =>
        obtain ⟨sb, os2⟩ := q
        simp only [e2, Outcome.bind_ok, Outcome.pure_eq, Outcome.ok.injEq, Prod.mk.injEq] at h
        obtain ⟨rfl, rfl⟩ := h
        simp only [List.cons_append, run, e, Outcome.bind_ok, ih sa sb s2 os2 os' e2 h', Outcome.pure_eq]

theorem Exec.reach {k : Nat} {w d : List Int} {s : Sys} (h : Exec k w d s) :
    ∃ hist os, run (init k) hist = .ok (s, os) := by
  have ext : ∀ {s s' : Sys} {op : Op} {o : Out}, (∃ hist os, run (init k) hist = .ok (s, os)) →
      step s op = .ok (s', o) → ∃ hist os, run (init k) hist = .ok (s', os) := by
    rintro s s' op o ⟨hist, os, h⟩ hs
    exact ⟨hist ++ [op], os ++ [o], run_append _ _ _ _ _ _ _ h (by simp [run, hs])⟩
  induction h with
  | start => exact ⟨[], [], rfl⟩
  | accept _ _ _ hs ih => exact ext ih hs
  | reject _ _ _ hs _ ih => exact ext ih hs
  | deliver _ _ hs _ ih => exact ext ih hs
  | nothing _ _ hs _ ih => exact ext ih hs
  | other _ _ _ hs ih => exact ext ih hs

theorem contents_nonneg {r : Ring} (h : WF r) : ∀ x ∈ contents r, 0 ≤ x := by
  intro x hx
  simp only [contents, List.mem_map, List.mem_range] at hx
  obtain ⟨i, _, rfl⟩ := hx
  rw [List.getD_eq_getElem?_getD]
  cases e : r.cells[(r.tail + i) % r.size]? with
  | none => simp
  | some y => simpa using h.nn y (List.mem_of_getElem? e)

theorem WriteEffect.elim {cap : Nat} {dn rd : Prop} {q q' : List Int} {x v : Int} (h : WriteEffect cap dn rd q x v q') :
    (v = 0 ∧ q' = q ++ [x] ∧ q.length < cap) ∨ (v < 0 ∧ q' = q) := by
  cases h with
  | done room => exact Or.inl ⟨rfl, rfl, room⟩
  | full _ => exact Or.inr ⟨by decide, rfl⟩
  | down _ => exact Or.inr ⟨by decide, rfl⟩
  | rdonly _ _ => exact Or.inr ⟨by decide, rfl⟩
  | timeout => exact Or.inr ⟨by decide, rfl⟩

theorem ReadEffect.elim {dn pr : Prop} {q q' : List Int} {v : Int} (h : ReadEffect dn pr q v q') :
    q = v :: q' ∨ (v < 0 ∧ q' = q) := by
  cases h with
  | done _ _ h => exact Or.inl h
  | empty _ _ _ => exact Or.inr ⟨by decide, rfl⟩
  | down _ _ => exact Or.inr ⟨by decide, rfl⟩
  | peer _ _ _ => exact Or.inr ⟨by decide, rfl⟩
  | timeout _ => exact Or.inr ⟨by decide, rfl⟩

/-- C03: nothing accepted is lost, duplicated, invented or reordered, over any number of concurrent blocking and non-blocking
writers and readers and any changes of the access word (partial: `Excluded` attempts left out): what was accepted is exactly
what was delivered followed by what is still queued. -/
theorem C03_nothing_lost_partial (k : Nat) (w d : List Int) (s : Sys) (h : Exec k w d s) : w = d ++ contents s.ring := by
  induction h with
  | start => simp [init, create_contents]
  | accept h0 ha hx hs ih =>
    obtain ⟨hist, os, hr⟩ := h0.reach
    obtain ⟨s1, o1, h1, _, h3⟩ := C03_write_effect_partial k hist _ os hr _ _ ha hx
    rw [hs] at h1; cases h1
    rcases WriteEffect.elim (h3 0 rfl) with ⟨_, h5, _⟩ | ⟨h5, _⟩
    · rw [ih, h5]; simp
    · omega
  | @reject _ _ _ _ _ _ o h0 ha hx hs ho ih =>
    obtain ⟨hist, os, hr⟩ := h0.reach
    obtain ⟨s1, o1, h1, h2, h3⟩ := C03_write_effect_partial k hist _ os hr _ _ ha hx
    rw [hs] at h1; cases h1
    cases o with
    | sleep => rw [ih, h2 rfl]
    | ret v =>
      rcases WriteEffect.elim (h3 v rfl) with ⟨h5, _⟩ | ⟨_, h5⟩
      · subst h5; exact absurd rfl ho
      · rw [h5]; exact ih
  | deliver h0 ha hs hv ih =>
    obtain ⟨hist, os, hr⟩ := h0.reach
    obtain ⟨s1, o1, h1, h2, h3⟩ := C03_read_effect k hist _ os hr _ ha
    rw [hs] at h1; cases h1
    rcases ReadEffect.elim (h3 _ rfl) with h5 | ⟨h5, _⟩
    · rw [ih, h5]; simp
    · omega
  | @nothing _ _ _ _ _ o h0 ha hs hv ih =>
    obtain ⟨hist, os, hr⟩ := h0.reach
    obtain ⟨s1, o1, h1, h2, h3⟩ := C03_read_effect k hist _ os hr _ ha
    have hw := (reach_wf hr).1
    rw [hs] at h1; cases h1
    cases o with
    | sleep => rw [ih, (h2 rfl).1, (h2 rfl).2]
    | ret v =>
      have hv' := hv v rfl
      rcases ReadEffect.elim (h3 _ rfl) with h5 | ⟨_, h5⟩
      · have := contents_nonneg hw v (by rw [h5]; simp)
        omega
      · rw [h5]; exact ih
  | other h0 hr hwr hs ih =>
    obtain ⟨s1, o1, h1, h2⟩ := C03_other_calls_keep_queue _ _ hr hwr
    rw [hs] at h1; cases h1
    rw [ih, h2]

/-- Non-vacuity: an execution in which two packets are accepted and one delivered. -/
example : ∃ s, Exec 3 [5, 6] [5] s := by
  refine ⟨_, .deliver (op := .read) (.accept (op := .write 6) (idx := 6) (.accept (op := .write 5) (idx := 5) .start rfl ?_ rfl)
    rfl ?_ rfl) trivial rfl ?_⟩
  · rintro ⟨h, _⟩; exact h rfl
  · rintro ⟨h, _⟩; exact h rfl
  · decide

/-- C03 violated (1): with `ACL_FLOWPEER` set, `shm_rbuff_write` returns 0 but the packet is not queued
(shm_rbuff_pthr.c:61-67: no branch sets `ret`). -/
theorem C03_flowpeer_write_violated : ∃ s os, run (init 10) [.setAcl ACL_FLOWPEER] = .ok (s, os) ∧
    ∃ s', step s (.write 42) = .ok (s', .ret 0) ∧ contents s'.ring = [] ∧
      ¬ WriteEffect (2 ^ 10 - 1) (s.ring.acl &&& ACL_FLOWDOWN ≠ 0) (s.ring.acl &&& ACL_RDONLY ≠ 0)
        (contents s.ring) 42 0 (contents s'.ring) := by
  have hc : contents (init 10).ring = [] := create_contents 10
  refine ⟨setAcl (init 10) ACL_FLOWPEER, [.ret 0], rfl, setAcl (init 10) ACL_FLOWPEER, rfl, hc, ?_⟩
  intro h
  rw [show contents (setAcl (init 10) ACL_FLOWPEER).ring = [] from hc] at h
  rcases WriteEffect.elim h with ⟨_, h1, _⟩ | ⟨h1, _⟩
  · simp at h1
  · omega

/-- C03 violated (2): for every ring size `2^k`, `k ≥ 1`: a writer is asleep on a full ring, the ring is marked down, the
writer wakes up: it returns 0 and *all* queued packets are gone (shm_rbuff_pthr.c:114-129: the loop ends on `ACL_FLOWDOWN`
and writes although the ring is full). -/
theorem C03_down_while_blocked_violated (k : Nat) (hist : List Op) (s : Sys) (os : List Out) (i idx : Nat) (b : Bool)
    (hreach : run (init k) hist = .ok (s, os)) (hwt : s.waiting[i]? = some (.writer idx, b))
    (hfull : (contents s.ring).length = 2 ^ k - 1) (hdown : s.ring.acl &&& ACL_FLOWDOWN ≠ 0) :
    ∃ s', step s (.wake i 0) = .ok (s', .ret 0) ∧ contents s'.ring = [] := by
  obtain ⟨hw, hs⟩ := reach_wf hreach
  simp only [step, wake, hwt]
  rw [writeBLoop_eq (s := { s with waiting := s.waiting.eraseIdx i }) hw]
  rw [if_neg (by simp [hdown])]
  refine ⟨_, rfl, ?_⟩
  show contents (pushed s.ring idx) = []
  rw [← List.length_eq_zero_iff, contents_length]
  exact (pushed_used hw idx).2 (by rw [contents_length] at hfull; rw [hs]; exact hfull)

/-- ... and such a state is reachable: three packets queued in a ring of four cells, all lost. -/
example : ∃ s os, run (init 2) [.write 1, .write 2, .write 3, .writeB 4, .setAcl ACL_FLOWDOWN] = .ok (s, os) ∧
    s.waiting[0]? = some (.writer 4, true) ∧ contents s.ring = [1, 2, 3] ∧ s.ring.acl &&& ACL_FLOWDOWN ≠ 0 ∧
    (do let (s', o) ← step s (.wake 0 0); return (contents s'.ring, o)) = .ok ([], .ret 0) :=
  ⟨_, _, rfl, rfl, by decide +kernel, by decide, by decide +kernel⟩

/-- C03 violated (3): `write_b` woken with `EOWNERDEAD` (a process died holding the lock) while there is room queues the packet
and returns an error (shm_rbuff_pthr.c:117-133: `ret` keeps `-EOWNERDEAD`). -/
theorem C03_owner_dead_violated :
    (do let (s, _) ← run (init 2) [.write 1, .write 2, .write 3, .writeB 4, .read]
        let (s', o) ← step s (.wake 0 EOWNERDEAD)
        return (contents s'.ring, o)) = .ok ([2, 3, 4], .ret (-EOWNERDEAD)) := by decide +kernel

/-! ## C51: no lost wake-ups -/

/-- The condition under which the C code keeps a thread asleep. -/
def MustWait (r : Ring) : Waiter → Prop
  | .writer _ => r.used = r.size - 1 ∧ r.acl &&& ACL_FLOWDOWN = 0
  | .reader => r.used = 0 ∧ r.acl &&& ACL_FLOWDOWN = 0 ∧ r.acl &&& ACL_FLOWPEER = 0
  | .finisher => r.used ≠ 0

/-- All unsignalled sleepers selected by `P` still have to wait. -/
def Awake (P : Waiter → Prop) (s : Sys) : Prop := ∀ w, (w, false) ∈ s.waiting → P w → MustWait s.ring w

theorem mem_broadcast {s : Sys} {a : Bool} {w : Waiter} (h : (w, false) ∈ (s.broadcast a).waiting) :
    (w, false) ∈ s.waiting ∧ w.onAdd ≠ a := by
  simp only [Sys.broadcast, List.mem_map, Prod.exists, Prod.mk.injEq, Bool.or_eq_false_iff, beq_eq_false_iff_ne] at h
  obtain ⟨w', b, h1, rfl, rfl, h2⟩ := h
  exact ⟨h1, h2⟩

/-- waiters other than finishers -/
def NotFini : Waiter → Prop
  | .finisher => False
  | _ => True

theorem full_of_not_free {r : Ring} (h : WF r) (hf : r.free = false) : r.used = r.size - 1 := by
  have h1 := h.used_lt
  have : ¬ r.used < r.size - 1 := fun h' => by rw [h.free_iff.mpr h'] at hf; cases hf
  omega

theorem awake_push {s : Sys} (hw : WF s.ring) (P : Waiter → Prop) (h : Awake P s)
    (hroom : s.ring.used < s.ring.size - 1 ∨ (s.ring.acl &&& ACL_FLOWDOWN ≠ 0 ∧ ¬ P .finisher)) (idx : Nat) :
    Awake P { signalled s with ring := pushed s.ring idx } := by
  intro w hm hp
  have hm' : (w, false) ∈ (signalled s).waiting := hm
  obtain ⟨hu1, hu2⟩ := pushed_used hw idx
  have hlt := hw.used_lt
  unfold signalled at hm'
  have hmem : (w, false) ∈ s.waiting ∧ (s.ring.used = 0 → w.onAdd ≠ true) := by
    split at hm'
    · have := mem_broadcast hm'; exact ⟨this.1, fun _ => this.2⟩
    · next he => exact ⟨hm', fun h0 => absurd (hw.empty_iff.mpr h0) he⟩
  have hold := h w hmem.1 hp
  show MustWait (pushed s.ring idx) w
  cases w with
  | writer i =>
    obtain ⟨h1, h2⟩ := hold
    rcases hroom with hr | hr
    · omega
    · exact absurd h2 hr.1
  | reader =>
    exact absurd rfl (hmem.2 hold.1)
  | finisher =>
    rcases hroom with hr | hr
    · show (pushed s.ring idx).used ≠ 0
      rw [hu1 hr]; omega
    · exact absurd hp hr.2

theorem awake_pop {s : Sys} (P : Waiter → Prop) (h : Awake P s) (hw : WF s.ring) (hne : s.ring.empty = false) :
    Awake P ({ s with ring := popped s.ring }.broadcast false) := by
  intro w hm hp
  obtain ⟨h1, h2⟩ := mem_broadcast hm
  have hold := h w h1 hp
  cases w with
  | writer i => exact absurd rfl h2
  | reader =>
    have : s.ring.empty = true := hw.empty_iff.mpr hold.1
    rw [hne] at this; cases this
  | finisher => exact absurd rfl h2

theorem awake_sleep {s : Sys} {P : Waiter → Prop} (h : Awake P s) (w : Waiter) (hm : MustWait s.ring w) :
    Awake P { s with waiting := s.waiting ++ [(w, false)] } := by
  intro w' hm' hp
  simp only [List.mem_append, List.mem_singleton, Prod.mk.injEq, and_true] at hm'
  rcases hm' with h1 | rfl
  · exact h w' h1 hp
  · exact hm

theorem awake_erase {s : Sys} {P : Waiter → Prop} (h : Awake P s) (i : Nat) :
    Awake P { s with waiting := s.waiting.eraseIdx i } :=
  fun w hm hp => h w (List.mem_of_mem_eraseIdx hm) hp

/-- One step keeps the wake-up invariant. For finishers (`P .finisher`) the step must not find the ring marked down. -/
theorem awake_step {s s' : Sys} {op : Op} {o : Out} (P : Waiter → Prop) (hw : WF s.ring) (h : Awake P s)
    (hd : s.ring.acl &&& ACL_FLOWDOWN = 0 ∨ ¬ P .finisher) (hs : step s op = .ok (s', o)) : Awake P s' := by
  have wloop : ∀ (t : Sys) (idx : Nat) (ret : Int), t.ring = s.ring → Awake P t → writeBLoop t idx ret = .ok (s', o) →
      Awake P s' := by
    intro t idx ret ht hA hst
    have hwt : WF t.ring := ht ▸ hw
    rw [writeBLoop_eq hwt] at hst
    split at hst
    · next hc =>
      cases hst
      simp only [Bool.and_eq_true, Bool.not_eq_true', beq_iff_eq] at hc
      exact awake_sleep hA _ ⟨full_of_not_free hwt hc.1.1, hc.2⟩
    · next hc =>
      split at hst
      · next hr =>
        cases hst
        apply awake_push hwt P hA
        by_cases hf : t.ring.free = true
        · exact Or.inl (hwt.free_iff.mp hf)
        · right
          have hdown : t.ring.acl &&& ACL_FLOWDOWN ≠ 0 := by
            intro e; apply hc; simp [e, hr, hf]
          refine ⟨hdown, ?_⟩
          rcases hd with hd | hd
          · exact absurd (ht ▸ hd) hdown
          · exact hd
      · cases hst; exact hA
  have rloop : ∀ (t : Sys) (idx : Int), t.ring = s.ring → Awake P t → readBLoop t idx = .ok (s', o) → Awake P s' := by
    intro t idx ht hA hst
    have hwt : WF t.ring := ht ▸ hw
    obtain ⟨a, b, c, d⟩ := readBLoop_eq hwt idx
    cases e : t.ring.empty with
    | false =>
      obtain ⟨x, h1, _, _⟩ := d e
      rw [h1] at hst; cases hst
      exact awake_pop P hA hwt e
    | true =>
      by_cases h1 : idx = -ETIMEDOUT
      · rw [c e h1] at hst; cases hst; exact hA
      · by_cases h2 : t.ring.checkAcl = -EAGAIN
        · rw [a e h1 h2] at hst; cases hst
          apply awake_sleep hA
          rcases checkAcl_cases t.ring with ⟨_, h3, h4⟩ | ⟨h3, _⟩ | ⟨h3, _⟩
          · exact ⟨hwt.empty_iff.mp e, h3, h4⟩
          · rw [h3] at h2; exact absurd h2 (by decide)
          · rw [h3] at h2; exact absurd h2 (by decide)
        · rw [b e h1 h2] at hst; cases hst; exact hA
  have floop : ∀ (t : Sys), t.ring = s.ring → Awake P t → finiLoop t = (s', o) → Awake P s' := by
    intro t ht hA hst
    have hwt : WF t.ring := ht ▸ hw
    unfold finiLoop at hst
    split at hst
    · next he =>
      cases hst
      apply awake_sleep hA
      intro h0
      rw [hwt.empty_iff.mpr h0] at he; cases he
    · cases hst; exact hA
  cases op with
  | write i =>
    simp only [step] at hs
    rw [write_eq hw] at hs
    split at hs
    · cases hs; exact h
    · split at hs
      · cases hs; exact h
      · next hf =>
        cases hs
        exact awake_push hw P h (Or.inl (hw.free_iff.mp (by simpa using hf))) i
  | read =>
    simp only [step] at hs
    obtain ⟨a, b⟩ := read_eq hw
    cases e : s.ring.empty with
    | true => rw [a e] at hs; cases hs; exact h
    | false => obtain ⟨x, h1, _, _⟩ := b e; rw [h1] at hs; cases hs; exact awake_pop P h hw e
  | writeB i =>
    simp only [step, writeB] at hs
    split at hs
    · cases hs; exact h
    · exact wloop s i 0 rfl h hs
  | readB =>
    simp only [step, readB] at hs
    split at hs
    · cases hs; exact h
    · exact rloop s _ rfl h hs
  | setAcl f =>
    cases hs
    intro w hm _
    obtain ⟨h1, h2⟩ := mem_broadcast hm
    obtain ⟨_, h3⟩ := mem_broadcast h1
    cases hb : w.onAdd <;> simp_all
  | getAcl => cases hs; exact h
  | queued => cases hs; exact h
  | fini => simp only [step, Outcome.ok.injEq] at hs; exact floop s rfl h hs
  | wake i rc =>
    simp only [step, wake] at hs
    split at hs
    · cases hs; exact h
    · next w b hb =>
      cases w with
      | writer idx => exact wloop { s with waiting := s.waiting.eraseIdx i } idx _ rfl (awake_erase h i) hs
      | reader => exact rloop { s with waiting := s.waiting.eraseIdx i } _ rfl (awake_erase h i) hs
      | finisher => simp only [Outcome.ok.injEq] at hs; exact floop { s with waiting := s.waiting.eraseIdx i } rfl (awake_erase h i) hs

theorem awake_run (P : Waiter → Prop) (hd : ¬ P .finisher) (ops : List Op) : ∀ s s' os, WF s.ring → Awake P s →
    run s ops = .ok (s', os) → Awake P s' := by
  induction ops with
  | nil => intro s s' os _ h hr; simp only [run, Outcome.ok.injEq, Prod.mk.injEq] at hr; exact hr.1 ▸ h
  | cons op ops ih =>
    intro s s' os hw h hr
    obtain ⟨s1, o, h1, h2, _⟩ := step_wf hw op
    simp only [run, h1, Outcome.bind_ok] at hr
    cases e : run s1 ops with
    | ub => simp [e] at hr
    | ok p =>
      obtain ⟨sb, os2⟩ := p
      simp only [e, Outcome.bind_ok, Outcome.pure_eq, Outcome.ok.injEq, Prod.mk.injEq] at hr
      obtain ⟨rfl, _⟩ := hr
      exact ih s1 sb os2 h2 (awake_step P hw h (Or.inr hd) h1) e

/-- C51. In every state reachable by any interleaving, a thread asleep in `read_b` for which no wake-up is pending has nothing
to read and no reason to return; a thread asleep in `write_b` with none pending really has no room and the flow is not down. -/
theorem C51_no_lost_wakeup (k : Nat) (hist : List Op) (s : Sys) (os : List Out)
    (hreach : run (init k) hist = .ok (s, os)) :
    ((.reader, false) ∈ s.waiting → contents s.ring = [] ∧ s.ring.acl &&& ACL_FLOWDOWN = 0 ∧ s.ring.acl &&& ACL_FLOWPEER = 0) ∧
    (∀ idx, (.writer idx, false) ∈ s.waiting → (contents s.ring).length = 2 ^ k - 1 ∧ s.ring.acl &&& ACL_FLOWDOWN = 0) := by
  have hA : Awake NotFini s := awake_run NotFini (by simp [NotFini]) hist _ _ _ (create_wf k)
    (by intro w hm; cases hm) hreach
  obtain ⟨hw, hs⟩ := reach_wf hreach
  constructor
  · intro hm
    obtain ⟨h1, h2, h3⟩ := hA _ hm trivial
    exact ⟨by rw [← List.length_eq_zero_iff, contents_length]; exact h1, h2, h3⟩
  · intro idx hm
    obtain ⟨h1, h2⟩ := hA _ hm trivial
    exact ⟨by rw [contents_length, h1, hs], h2⟩

/-- Non-vacuity: both kinds of sleeper without pending wake-up are reachable. -/
example : ∃ s os, run (init 1) [.readB] = .ok (s, os) ∧ (.reader, false) ∈ s.waiting := ⟨_, _, rfl, by simp [init]⟩
example : ∃ s os, run (init 1) [.write 3, .writeB 4] = .ok (s, os) ∧ (.writer 4, false) ∈ s.waiting :=
  ⟨_, _, rfl, by simp [init]⟩

/-- C51 for `shm_rbuff_fini` is violated: the finisher sleeps although the ring is empty, because the overflowing `write_b`
above emptied it without signalling. -/
theorem C51_fini_violated : ∃ s os, run (init 2) [.write 1, .write 2, .write 3, .writeB 4, .setAcl ACL_FLOWDOWN, .fini,
    .wake 0 0] = .ok (s, os) ∧ (.finisher, false) ∈ s.waiting ∧ contents s.ring = [] := by
  refine ⟨_, _, rfl, ?_, by decide +kernel⟩
  decide

/-- C51 for `shm_rbuff_fini` (partial): as long as no one ever marks the ring down, a finisher asleep without pending wake-up
finds packets in the ring. -/
theorem C51_fini_partial (k : Nat) (hist : List Op) (s : Sys) (os : List Out)
    (hreach : run (init k) hist = .ok (s, os)) (hno : ∀ f, Op.setAcl f ∈ hist → f &&& ACL_FLOWDOWN = 0)
    (hm : (.finisher, false) ∈ s.waiting) : contents s.ring ≠ [] := by
  have aclstep : ∀ (s s' : Sys) (op : Op) (o : Out), WF s.ring → step s op = .ok (s', o) → (∀ f, op ≠ .setAcl f) →
      s'.ring.acl = s.ring.acl := by
    intro s s' op o hw hs hne
    have wloop : ∀ (t : Sys) (idx : Nat) (ret : Int), t.ring = s.ring → writeBLoop t idx ret = .ok (s', o) →
        s'.ring.acl = s.ring.acl := by
      intro t idx ret ht hst
      rw [writeBLoop_eq (ht ▸ hw)] at hst
      split at hst
      · cases hst; exact ht ▸ rfl
      · split at hst <;> · cases hst; exact ht ▸ rfl
    have rloop : ∀ (t : Sys) (idx : Int), t.ring = s.ring → readBLoop t idx = .ok (s', o) → s'.ring.acl = s.ring.acl := by
      intro t idx ht hst
      obtain ⟨a, b, c, d⟩ := readBLoop_eq (s := t) (ht ▸ hw) idx
      cases e : t.ring.empty with
      | false => obtain ⟨x, h1, _, _⟩ := d e; rw [h1] at hst; cases hst; exact ht ▸ rfl
      | true =>
        by_cases h1 : idx = -ETIMEDOUT
        · rw [c e h1] at hst; cases hst; exact ht ▸ rfl
        · by_cases h2 : t.ring.checkAcl = -EAGAIN
          · rw [a e h1 h2] at hst; cases hst; exact ht ▸ rfl
          · rw [b e h1 h2] at hst; cases hst; exact ht ▸ rfl
    have floop : ∀ (t : Sys), t.ring = s.ring → finiLoop t = (s', o) → s'.ring.acl = s.ring.acl := by
      intro t ht hst
      unfold finiLoop at hst
      split at hst <;> · cases hst; exact ht ▸ rfl
    cases op with
    | setAcl f => exact absurd rfl (hne f)
    | write i =>
      simp only [step] at hs
      rw [write_eq hw] at hs
      split at hs
      · cases hs; rfl
      · split at hs <;> · cases hs; rfl
    | read =>
      simp only [step] at hs
      obtain ⟨a, b⟩ := read_eq hw
      cases e : s.ring.empty with
      | true => rw [a e] at hs; cases hs; rfl
      | false => obtain ⟨x, h1, _, _⟩ := b e; rw [h1] at hs; cases hs; rfl
    | writeB i =>
      simp only [step, writeB] at hs
      split at hs
      · cases hs; rfl
      · exact wloop s i 0 rfl hs
    | readB =>
      simp only [step, readB] at hs
      split at hs
      · cases hs; rfl
      · exact rloop s _ rfl hs
    | getAcl => cases hs; rfl
    | queued => cases hs; rfl
    | fini => simp only [step, Outcome.ok.injEq] at hs; exact floop s rfl hs
    | wake i rc =>
      simp only [step, wake] at hs
      split at hs
      · cases hs; rfl
      · next w b hb =>
        cases w with
        | writer idx => exact wloop { s with waiting := s.waiting.eraseIdx i } idx _ rfl hs
        | reader => exact rloop { s with waiting := s.waiting.eraseIdx i } _ rfl hs
        | finisher => simp only [Outcome.ok.injEq] at hs; exact floop { s with waiting := s.waiting.eraseIdx i } rfl hs
  have key : ∀ (ops : List Op) (s s' : Sys) (os : List Out), WF s.ring → Awake (fun _ => True) s →
      s.ring.acl &&& ACL_FLOWDOWN = 0 → (∀ f, Op.setAcl f ∈ ops → f &&& ACL_FLOWDOWN = 0) → run s ops = .ok (s', os) →
      Awake (fun _ => True) s' := by
    intro ops
    induction ops with
    | nil =>
      intro s s' os _ h _ _ hr
      simp only [run, Outcome.ok.injEq, Prod.mk.injEq] at hr; exact hr.1 ▸ h
    | cons op ops ih =>
      intro s s' os hw h hacl hno hr
      obtain ⟨s1, o, h1, h2, _⟩ := step_wf hw op
      simp only [run, h1, Outcome.bind_ok] at hr
      cases e : run s1 ops with
      | ub => simp [e] at hr
      | ok p =>
        obtain ⟨sb, os2⟩ := p
        simp only [e, Outcome.bind_ok, Outcome.pure_eq, Outcome.ok.injEq, Prod.mk.injEq] at hr
        obtain ⟨rfl, _⟩ := hr
        refine ih s1 sb os2 h2 (awake_step _ hw h (Or.inl hacl) h1) ?_ (fun f hf => hno f (List.mem_cons_of_mem _ hf)) e
        by_cases hset : ∃ f, op = .setAcl f
        · obtain ⟨f, rfl⟩ := hset
          cases h1
          exact hno f (by simp)
        · rw [aclstep s s1 op o hw h1 (fun f hf => hset ⟨f, hf⟩)]; exact hacl
  have hA := key hist (init k) s os (create_wf k) (by intro w hm; cases hm) (by show 0 &&& _ = 0; simp) hno hreach
  intro hc
  exact hA _ hm trivial (by rw [← contents_length, hc]; rfl)

/-- Non-vacuity. -/
example : ∃ s os, run (init 1) [.write 3, .setAcl ACL_RDONLY, .fini] = .ok (s, os) ∧ (.finisher, false) ∈ s.waiting :=
  ⟨_, _, rfl, by decide⟩

end Ouro.Rbuff
