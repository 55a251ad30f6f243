import Verif.Proof.AllocId

/-!
# C40 — one pending incoming flow at a time, and every response unblocks the next

In a history, `(op, .asks)` means that a request is handed to the daemon, `(.answer fd, .ret fd)` with `0 ≤ fd` that the daemon gave it descriptor `fd`, and
`(op, .responded fd)` that the response for it is processed. All theorems hold for every interleaving of any number of threads.
-/

namespace Ouro.AllocId

/-- C40. Between a request that got descriptor `fd` and the response for it no other request is handed to the daemon. -/
theorem C40_one_at_a_time (ops : List Op) {pre mid post : List (Op × Out)} {fd : Int} {op : Op} (hfd : 0 ≤ fd)
    (h : (run create ops).2 = pre ++ (.answer fd, .ret fd) :: mid ++ (op, .asks) :: post) : ∃ e ∈ mid, e.2 = .responded fd := by
  by_contra hno
  push Not at hno
  rw [List.append_assoc, List.cons_append] at h
  obtain ⟨o1, o2, rfl, h1, h2⟩ := run_log_split ops h
  cases o2 with
  | nil => simp [run] at h2
  | cons a o2 =>
    simp only [run, List.cons.injEq, Prod.mk.injEq] at h2
    obtain ⟨⟨rfl, h3⟩, h4⟩ := h2
    have hs : (step (run create o1).1 (.answer fd)).1.allocId = fd ∧ (step (run create o1).1 (.answer fd)).1.calling = none := by
      simp only [step] at h3 ⊢
      split at h3
      · cases h3
      · rw [if_neg (by omega)]; exact ⟨rfl, rfl⟩
    obtain ⟨o3, o4, rfl, h5, h6⟩ := run_log_split o2 h4
    obtain ⟨h7, h8, h9⟩ := stays_run hs.1 hfd hs.2 o3 (by rw [h5]; exact hno)
    cases o4 with
    | nil => simp [run] at h6
    | cons b o4 =>
      simp only [run, List.cons.injEq, Prod.mk.injEq] at h6
      exact (stays h7 hfd h8 b).1 h6.1.2

/-- C40. Also while the daemon did not answer a request yet, no other request is handed to it. -/
theorem C40_one_call {s : State} {log : List (Op × Out)} (_h : Reached s log) (w : Nat) (hw : s.calling = some w) (op : Op) (hop : ∀ r, op ≠ .answer r) :
    (step s op).2 = .blocked ∨ op = .stop := by
  cases op with
  | request v => left; simp [step, hw]
  | respond v fd => left; simp [step, hw]
  | wake v => left; simp [step, hw]
  | stop => exact .inr rfl
  | answer r => exact absurd rfl (hop r)

/-- C40. A response is processed only for the flow that waits for it, or (negative descriptors) for none. -/
theorem C40_response_for {s : State} {log : List (Op × Out)} (h : Reached s log) (op : Op) (fd : Int) (hr : (step s op).2 = .responded fd) :
    awaited log.reverse = some fd ∨ (fd = -1 ∧ awaited log.reverse = none) := by
  have hi := reached_inv h
  have key : ∀ w g, (tryRespond s w g).2 = .responded fd → s.allocId = fd := by
    intro w g hg
    unfold tryRespond at hg
    split at hg
    · cases hg
    · split at hg
      · cases hg
      · rename_i h1 h2
        cases hg
        by_contra hne
        exact h1 ⟨hne, by simpa using h2⟩
  have hreq : ∀ w, (tryRequest s w).2 ≠ .responded fd := by
    intro w
    unfold tryRequest
    split
    · simp
    · split <;> simp
  have hall : s.allocId = fd := by
    cases op with
    | request v => simp only [step] at hr; split at hr; cases hr; exact absurd hr (hreq v)
    | respond v g => simp only [step] at hr; split at hr; cases hr; exact key v g hr
    | wake v =>
      simp only [step] at hr
      split at hr
      · cases hr
      · split at hr
        · cases hr
        · exact absurd hr (hreq v)
        · exact key v _ hr
    | stop => cases hr
    | answer r => simp only [step] at hr; split at hr; cases hr; split at hr <;> cases hr
  cases ha : awaited log.reverse with
  | none => right; have := hi.alloc; rw [ha] at this; exact ⟨by rw [← hall, this]; rfl, rfl⟩
  | some g => left; have := hi.alloc; rw [ha] at this; rw [← hall, this]; rfl

/-- C40. When no response is awaited and no request is being handed over, the next request goes to the daemon, whether its thread comes now or sleeps. -/
theorem C40_next_proceeds {s : State} {log : List (Op × Out)} (h : Reached s log) (ha : awaited log.reverse = none) (ho : s.oper = true)
    (hc : s.calling = none) (w : Nat) :
    (s.sleeping w = none → (step s (.request w)).2 = .asks) ∧ (s.sleeping w = some .request → (step s (.wake w)).2 = .asks) := by
  have hi := (reached_inv h).alloc
  rw [ha] at hi
  have hi : s.allocId = -1 := hi
  constructor <;> intro hw <;> simp [step, hw, hc, tryRequest, hi, ho]

/-- C40. While the response for `fd` is awaited and no request is being handed over, a response for `fd` is processed, and then nothing is awaited any more. -/
theorem C40_response_proceeds {s : State} {log : List (Op × Out)} (h : Reached s log) {fd : Int} (ha : awaited log.reverse = some fd) (ho : s.oper = true)
    (w : Nat) :
    (s.sleeping w = none → (step s (.respond w fd)).2 = .responded fd) ∧
    (s.sleeping w = some (.response fd) → (step s (.wake w)).2 = .responded fd) := by
  have hi := reached_inv h
  have hal := hi.alloc
  rw [ha] at hal
  have hal : s.allocId = fd := hal
  have hc : s.calling = none := by
    cases hcc : s.calling with
    | none => rfl
    | some v =>
      have := hi.call (by simp [hcc])
      have := hi.nonneg fd ha
      omega
  constructor <;> intro hw <;> simp [step, hw, hc, tryRespond, hal, ho]

/-- C40. After the process stopped being operational every call returns an error as soon as it runs, so nobody waits forever. -/
theorem C40_stopped (s : State) (ho : s.oper = false) (hc : s.calling = none) (w : Nat) :
    (s.sleeping w = none → (step s (.request w)).2 = .ret (-EIPCPSTATE)) ∧
    (s.sleeping w = some .request → (step s (.wake w)).2 = .ret (-EIPCPSTATE)) ∧
    (∀ fd, s.sleeping w = none → (step s (.respond w fd)).2 = .ret (-1)) ∧
    (∀ fd, s.sleeping w = some (.response fd) → (step s (.wake w)).2 = .ret (-1)) := by
  refine ⟨?_, ?_, ?_, ?_⟩
  · intro hw; simp [step, hw, hc, tryRequest, ho]
  · intro hw; simp [step, hw, hc, tryRequest, ho]
  · intro fd hw; simp [step, hw, hc, tryRespond, ho]
  · intro fd hw; simp [step, hw, hc, tryRespond, ho]

/-- Non-vacuity: two requests, the second one sleeps until the response for the first is processed; that response came before the request was answered. -/
example : ((run create [.request 1, .request 2, .respond 3 64, .answer 64, .request 2, .respond 3 64, .wake 2, .answer 65]).2.map (·.2)) =
    [.asks, .blocked, .blocked, .ret 64, .sleeps, .responded 64, .asks, .ret 65] := by decide
example : awaited (run create [.request 1, .answer 64, .request 2]).2.reverse = some 64 := by decide

/-- C40, partial: missing is that a negative response lets the next request proceed (it does not, see below). After a positive response for the flow the next
request is handed to the daemon. -/
theorem C40_unblocks_partial {s : State} {log : List (Op × Out)} (h : Reached s log) {fd : Int} (ha : awaited log.reverse = some fd) (ho : s.oper = true)
    (w v : Nat) (hw : s.sleeping w = none) (hvw : v ≠ w) (hv : s.sleeping v = none ∨ s.sleeping v = some .request) :
    ∃ op, (op = .request v ∨ op = .wake v) ∧ (step (step s (.respond w fd)).1 op).2 = .asks := by
  have hi := reached_inv h
  have hal := hi.alloc
  rw [ha] at hal
  have hal : s.allocId = fd := hal
  have hc : s.calling = none := by
    cases hcc : s.calling with
    | none => rfl
    | some v =>
      have := hi.call (by simp [hcc])
      have := hi.nonneg fd ha
      omega
  rcases hv with hv | hv
  · exact ⟨.request v, .inl rfl, by simp [step, hw, hc, tryRespond, hal, ho, tryRequest, setS, hvw, hv]⟩
  · exact ⟨.wake v, .inr rfl, by simp [step, hw, hc, tryRespond, hal, ho, tryRequest, setS, hvw, hv]⟩

/-- C40 does not hold in full. The handler of a negative response calls `ipcp_wait_flow_resp(-1)` (`do_flow_alloc_resp`, src/ipcpd/ipcp.c:576 and 592-601), whatever the
flow. When the flow is awaited this sleeps; and in every continuation in which no positive response for the flow comes, no request is ever handed to the
daemon again. -/
theorem C40_negative_violated : ∃ ops fd w, awaited (run create ops).2.reverse = some fd ∧ (run create ops).1.oper = true ∧
    (step (run create ops).1 (.respond w (-1))).2 = .sleeps ∧
    ∀ later, (∀ v, .respond v fd ∉ later) → ∀ e ∈ (run (step (run create ops).1 (.respond w (-1))).1 later).2, e.2 ≠ .asks := by
  refine ⟨[.request 1, .answer 64], 64, 2, by decide, by decide, by decide, ?_⟩
  intro later hl
  -- nobody sleeps for a response to 64
  have key : ∀ (later : List Op) (s : State), s.allocId = 64 → s.calling = none → (∀ w, s.sleeping w ≠ some (.response 64)) → (∀ v, .respond v 64 ∉ later) →
      ∀ e ∈ (run s later).2, e.2 ≠ .asks ∧ e.2 ≠ .responded 64 := by
    intro later
    induction later with
    | nil => simp [run]
    | cons op later ih =>
      intro s h1 h2 h3 h4 e he
      have hsl : ∀ (w : Nat) (x : Option Sleep), x ≠ some (.response 64) → ∀ v, setS s.sleeping w x v ≠ some (.response 64) := by
        intro w x hx v; unfold setS; split
        · exact hx
        · exact h3 v
      have hstep : (step s op).2 ≠ .responded 64 ∧ ∀ w, (step s op).1.sleeping w ≠ some (.response 64) := by
        have hreq : ∀ w, (tryRequest s w).2 ≠ .responded 64 ∧ ∀ v, (tryRequest s w).1.sleeping v ≠ some (.response 64) := by
          intro w; unfold tryRequest
          split
          · exact ⟨by simp, hsl w _ (by simp)⟩
          · split <;> exact ⟨by simp, hsl w _ (by simp)⟩
        have hresp : ∀ w g, g ≠ 64 → (tryRespond s w g).2 ≠ .responded 64 ∧ ∀ v, (tryRespond s w g).1.sleeping v ≠ some (.response 64) := by
          intro w g hg; unfold tryRespond
          split
          · exact ⟨by simp, hsl w _ (by simpa using hg)⟩
          · split <;> exact ⟨by simp [hg], hsl w _ (by simp)⟩
        cases op with
        | request w =>
          simp only [step]
          split
          · exact ⟨by simp, h3⟩
          · exact hreq w
        | respond w g =>
          have hg : g ≠ 64 := by rintro rfl; exact h4 w (by simp)
          simp only [step]
          split
          · exact ⟨by simp, h3⟩
          · exact hresp w g hg
        | wake w =>
          simp only [step]
          split
          · exact ⟨by simp, h3⟩
          · split
            · exact ⟨by simp, h3⟩
            · exact hreq w
            · rename_i g hg
              exact hresp w g (by rintro rfl; exact h3 w hg)
        | stop => exact ⟨by simp [step], h3⟩
        | answer r => simp only [step, h2]; exact ⟨by simp, h3⟩
      obtain ⟨h5, h6⟩ := stays h1 (by omega) h2 op
      have h7 := h6.resolve_left hstep.1
      simp only [run, List.mem_cons] at he
      rcases he with rfl | he
      · exact ⟨h5, hstep.1⟩
      · exact ih _ h7.1 h7.2.1 hstep.2 (fun v hv => h4 v (List.mem_cons_of_mem _ hv)) e he
  intro e he
  refine (key later _ (by decide) (by decide) ?_ hl e he).1
  intro w
  simp only [run, step, create, tryRequest, tryRespond]
  norm_num
  intro h
  split at h <;> simp only [setS] at h <;> (repeat' split at h) <;> simp at h

/-- C40 does not hold in full: a negative response when nothing is awaited is reported as processed. -/
theorem C40_spurious_violated : (step create (.respond 1 (-1))).2 = .responded (-1) ∧ awaited (run create []).2.reverse = none := by decide

end Ouro.AllocId
