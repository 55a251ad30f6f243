import Verif.Model.Ipcp
import Verif.Spec.Ipcp
import Verif.Proof.Tac

/-! # Proofs about the life cycle of an IPCP -/

namespace Ouro.Ipcp

open Spec.LifeCycle

/-- The commands that start the life of the process. -/
def life (c : Cmd) : Bool := c = .bootstrap || c = .enroll

/-- What a command needs. -/
def needOf : Cmd → Need
  | .bootstrap | .enroll => .fresh
  | .query | .flowAlloc | .flowJoin | .flowAllocResp _ | .flowDealloc => .operational
  | .connect | .disconnect | .reg | .unreg | .unknown => .any

/-- The IPCP has the operation for the command. -/
def supported (ops : Ops) : Cmd → Bool
  | .bootstrap => ops.bootstrap
  | .enroll => ops.enroll
  | .connect => ops.connect
  | .disconnect => ops.disconnect
  | .reg => ops.reg
  | .unreg => ops.unreg
  | .query => ops.query
  | .flowAlloc => ops.flowAlloc
  | .flowJoin => ops.flowJoin
  | .flowAllocResp _ => ops.flowAllocResp
  | .flowDealloc => ops.flowDealloc
  | .unknown => false

/-- What a step means for the life cycle. -/
def evOf : Op × Out → List Ev
  | (.finish _ _ reset, .finished c r) =>
    if life c then (if r = 0 then [.success] else if reset then [.restart] else []) else []
  | (_, .becomes .null) => [.quit]
  | (_, .becomes .shutdown) => [.shut]
  | _ => []

/-- What a history means for the life cycle. -/
def evs (log : List (Op × Out)) : List Ev := log.flatMap evOf

/-- How a state of the process is seen. -/
def view : IState → St
  | .operational => .operational
  | .shutdown => .stopping
  | .null => .gone
  | _ => .fresh

theorem run_append (ops : Ops) (l1 l2 : List Op) (s : State) :
    run ops s (l1 ++ l2) = ((run ops (run ops s l1).1 l2).1, (run ops s l1).2 ++ (run ops (run ops s l1).1 l2).2) := by
  induction l1 generalizing s with
  | nil => simp [run]
  | cons o l1 ih => simp [run, ih]

theorem state_snoc (l : List Ev) (e : Ev) : Spec.LifeCycle.state (l ++ [e]) = next e := by simp [Spec.LifeCycle.state]

/-- The state is one of the four. -/
def Four (st : IState) : Prop := st = .init ∨ st = .operational ∨ st = .shutdown ∨ st = .null

theorem step_view (ops : Ops) (s : State) (op : Op) (h4 : Four s.st) (pre : List Ev) (hv : view s.st = Spec.LifeCycle.state pre) :
    Four (step ops s op).1.st ∧ view (step ops s op).1.st = Spec.LifeCycle.state (pre ++ evOf (op, (step ops s op).2)) := by
  cases op with
  | test w c =>
    simp only [step]
    split
    · exact ⟨h4, by simpa [evOf] using hv⟩
    · split <;> exact ⟨h4, by simpa [evOf] using hv⟩
  | call w np1 =>
    simp only [step]
    split
    · split <;> exact ⟨h4, by simpa [evOf] using hv⟩
    · exact ⟨h4, by simpa [evOf] using hv⟩
  | finish w r reset =>
    simp only [step]
    split
    · rename_i c hc
      simp only [evOf, life]
      by_cases hl : c = .bootstrap ∨ c = .enroll
      · have hl' : (decide (c = .bootstrap) || decide (c = .enroll)) = true := by simpa using hl
        simp only [hl, hl', and_true, if_true]
        by_cases hr : r = 0
        · simp only [hr, ne_eq, not_true, false_and, if_true, if_false]
          exact ⟨.inr (.inl rfl), by rw [state_snoc]; rfl⟩
        · simp only [hr, ne_eq, not_false_eq_true, true_and, if_false]
          cases reset
          · simpa using ⟨h4, hv⟩
          · simp only [if_true]; exact ⟨.inl rfl, by rw [state_snoc]; rfl⟩
      · have hl' : (decide (c = .bootstrap) || decide (c = .enroll)) = false := by simpa using hl
        simp only [hl, hl', and_false, if_false, Bool.false_eq_true, List.append_nil]
        exact ⟨h4, hv⟩
    · exact ⟨h4, by simpa [evOf] using hv⟩
  | signal =>
    simp only [step]
    split
    · split <;> exact ⟨h4, by simpa [evOf] using hv⟩
    · exact ⟨h4, by simpa [evOf] using hv⟩
  | sigNext =>
    simp only [step]
    split
    · exact ⟨.inr (.inr (.inr rfl)), by simp only [evOf]; rw [state_snoc]; rfl⟩
    · split <;> exact ⟨h4, by simpa [evOf] using hv⟩
    · exact ⟨.inr (.inr (.inl rfl)), by simp only [evOf]; rw [state_snoc]; rfl⟩
    · split <;> exact ⟨h4, by simpa [evOf] using hv⟩
    · exact ⟨h4, by simpa [evOf] using hv⟩

theorem run_snoc (ops : Ops) (l : List Op) (op : Op) (s : State) :
    run ops s (l ++ [op]) = ((step ops (run ops s l).1 op).1, (run ops s l).2 ++ [(op, (step ops (run ops s l).1 op).2)]) := by
  rw [run_append]; simp [run]

theorem run_view (ops : Ops) (l : List Op) :
    Four (run ops create l).1.st ∧ view (run ops create l).1.st = Spec.LifeCycle.state (evs (run ops create l).2) := by
  induction l using List.reverseRecOn with
  | nil => exact ⟨.inl rfl, rfl⟩
  | append_singleton l op ih =>
    rw [run_snoc]
    have := step_view ops (run ops create l).1 op ih.1 _ ih.2
    simpa [evs] using this

theorem view_init {st : IState} (h : Four st) : st = .init ↔ view st = .fresh := by
  rcases h with rfl | rfl | rfl | rfl <;> simp [view]

theorem view_oper {st : IState} : st = .operational ↔ view st = .operational := by
  cases st <;> simp [view]

theorem tests_eq (ops : Ops) {st : IState} (h : Four st) {c : Cmd} (hc : c ≠ .unknown) :
    tests ops st c = if !supported ops c then some (-ENOTSUP) else if !(needOf c).met (view st) then some (-EIPCPSTATE) else none := by
  have h1 := view_init h
  have h2 := view_oper (st := st)
  cases c <;> simp_all [tests, supported, needOf, Need.met]

/-! ## Where a worker is -/

/-- What worker `w` does, according to the history: the last command it started. -/
def Doing (ops : Ops) (log : List (Op × Out)) (w : Nat) : Option (Cmd × Phase) → Prop
  | none => True
  | some (c, _) => ∃ pre mid, log = pre ++ (.test w c, .goesOn) :: mid ∧ (∀ e ∈ mid, ∀ c', e.1 ≠ .test w c' ∨ e.2 = .no) ∧
      (needOf c).met (Spec.LifeCycle.state (evs pre)) = true ∧ supported ops c = true

theorem doing_mono {ops : Ops} {log : List (Op × Out)} {w : Nat} {x : Cmd × Phase} {p : Phase} (h : Doing ops log w (some x)) (e : Op × Out)
    (he : ∀ c', e.1 ≠ .test w c' ∨ e.2 = .no) : Doing ops (log ++ [e]) w (some (x.1, p)) := by
  obtain ⟨pre, mid, h1, h2, h3⟩ := h
  refine ⟨pre, mid ++ [e], by simp [h1], ?_, h3⟩
  intro e' h'
  rcases List.mem_append.mp h' with h' | h'
  · exact h2 e' h'
  · rw [List.mem_singleton.mp h']; exact he

theorem run_doing (ops : Ops) (l : List Op) (w : Nat) : Doing ops (run ops create l).2 w ((run ops create l).1.workers w) := by
  induction l using List.reverseRecOn with
  | nil => exact trivial
  | append_singleton l op ih =>
    rw [run_snoc]
    have hv := run_view ops l
    generalize (run ops create l).1 = s at ih hv ⊢
    generalize (run ops create l).2 = log at ih hv ⊢
    dsimp only
    have keep : ∀ o, (∀ c', op ≠ .test w c' ∨ o = .no) → Doing ops (log ++ [(op, o)]) w (s.workers w) := by
      intro o ho
      cases hw : s.workers w with
      | none => exact trivial
      | some x => rw [hw] at ih; exact doing_mono (p := x.2) ih (op, o) ho
    cases op with
    | test v c =>
      simp only [step]
      split
      · exact keep _ (fun _ => .inr rfl)
      · rename_i hv0
        by_cases hvw : v = w
        · subst hvw
          split
          · rw [hv0]; exact trivial
          · rename_i ha
            simp only [setW, if_true]
            refine ⟨log, [], rfl, by simp, ?_⟩
            have hc : c ≠ .unknown := by rintro rfl; simp [tests] at ha
            rw [tests_eq ops hv.1 hc, hv.2] at ha
            split at ha
            · cases ha
            · rename_i hs
              split at ha
              · cases ha
              · rename_i hn
                exact ⟨by simpa using hn, by simpa using hs⟩
        · have hne : ∀ c' o, (Op.test v c) ≠ .test w c' ∨ o = Out.no := by
            intro c' o; left; intro h; injection h with h; exact hvw h
          split
          · exact keep _ (fun c' => hne c' _)
          · have := keep .goesOn (fun c' => hne c' _)
            simpa [setW, Ne.symm hvw] using this
    | call v np1 =>
      have hne : ∀ c' o, (Op.call v np1) ≠ .test w c' ∨ o = Out.no := fun c' o => .inl (by simp)
      simp only [step]
      split
      · rename_i c hc
        by_cases hvw : v = w
        · subst hvw
          split
          · simp only [setW, if_true]; exact trivial
          · simp only [setW, if_true]; rw [hc] at ih; exact doing_mono ih _ (fun c' => hne c' _)
        · split
          · have := keep (.ret ‹_›) (fun c' => hne c' _)
            simpa [setW, Ne.symm hvw] using this
          · have := keep (.invoked ‹_›) (fun c' => hne c' _)
            simpa [setW, Ne.symm hvw] using this
      · exact keep _ (fun c' => hne c' _)
    | finish v r reset =>
      have hne : ∀ c' o, (Op.finish v r reset) ≠ .test w c' ∨ o = Out.no := fun c' o => .inl (by simp)
      simp only [step]
      split
      · rename_i c hc
        by_cases hvw : v = w
        · subst hvw
          simp only [setW, if_true]; exact trivial
        · have := keep (.finished c r) (fun c' => hne c' _)
          simpa [setW, Ne.symm hvw] using this
      · exact keep _ (fun c' => hne c' _)
    | signal =>
      have hne : ∀ c' o, Op.signal ≠ .test w c' ∨ o = Out.no := fun c' o => .inl (by simp)
      simp only [step]
      (repeat' split) <;> exact keep _ (fun c' => hne c' _)
    | sigNext =>
      have hne : ∀ c' o, Op.sigNext ≠ .test w c' ∨ o = Out.no := fun c' o => .inl (by simp)
      simp only [step]
      (repeat' split) <;> exact keep _ (fun c' => hne c' _)

/-! ## One life-cycle command at a time -/

/-- A bootstrap or an enrolment is in progress. -/
def LifeBusy (s : State) : Prop := ∃ w c p, s.workers w = some (c, p) ∧ life c = true

/-- A signal is being handled. -/
def SigBusy (s : State) : Prop := s.sig = .setNull ∨ s.sig = .testOper ∨ s.sig = .setShutdown

/-- A bootstrap or an enrolment starts only when no other one is in progress and no signal is being handled, and the daemon does not tell the process to stop in between. -/
def SerialStep (s : State) : Op → Prop
  | .test _ c => life c = true → ¬ LifeBusy s ∧ ¬ SigBusy s
  | .signal => ¬ LifeBusy s
  | _ => True

/-- All steps are like that. -/
def Serial (ops : Ops) (l : List Op) : Prop := ∀ pre op post, l = pre ++ op :: post → SerialStep (run ops create pre).1 op

/-- Invariant of serial histories. -/
structure SInv (s : State) : Prop where
  fresh : ∀ w c p, s.workers w = some (c, p) → life c = true → s.st = .init ∧ ¬ SigBusy s
  one : ∀ w c p w' c' p', s.workers w = some (c, p) → life c = true → s.workers w' = some (c', p') → life c' = true → w = w'
  null : s.sig = .setNull → s.st = .init
  oper : s.sig = .setShutdown → s.st = .operational

theorem legal_snoc {l : List Ev} {e : Ev} (h : Legal l) (he : legal (Spec.LifeCycle.state l) e) : Legal (l ++ [e]) := by
  intro pre x post hx
  rcases List.eq_nil_or_concat post with rfl | ⟨post', y, rfl⟩
  · rw [List.append_singleton_inj] at hx
    rw [← hx.1, ← hx.2]; exact he
  · have : l = pre ++ x :: post' := by
      rw [List.concat_eq_append] at hx
      have := congrArg List.dropLast hx
      rw [List.dropLast_concat, ← List.cons_append, ← List.append_assoc, List.dropLast_concat] at this
      exact this
    exact h pre x post' this

theorem step_serial (ops : Ops) {s : State} {op : Op} (hi : SInv s) (hs : SerialStep s op) :
    SInv (step ops s op).1 ∧ ∀ e ∈ evOf (op, (step ops s op).2), legal (view s.st) e := by
  cases op with
  | test w c =>
    simp only [step]
    split
    · exact ⟨hi, by simp [evOf]⟩
    · rename_i hw
      split
      · exact ⟨hi, by simp [evOf]⟩
      · rename_i ha
        refine ⟨?_, by simp [evOf]⟩
        constructor
        · intro v d p hv hl
          dsimp only [setW] at hv
          split at hv
          · cases hv
            refine ⟨?_, (hs hl).2⟩
            unfold life at hl
            simp only [Bool.or_eq_true, decide_eq_true_eq] at hl
            rcases hl with rfl | rfl <;> (simp only [tests] at ha; split at ha <;> first | cases ha | (split at ha <;> simp_all))
          · exact hi.fresh v d p hv hl
        · intro v d p v' d' p' hv hl hv' hl'
          dsimp only [setW] at hv hv'
          split at hv <;> split at hv'
          · subst_vars; rfl
          · cases hv; exact absurd ⟨v', d', p', hv', hl'⟩ (hs hl).1
          · cases hv'; exact absurd ⟨v, d, p, hv, hl⟩ (hs hl').1
          · exact hi.one v d p v' d' p' hv hl hv' hl'
        · exact hi.null
        · exact hi.oper
  | call w np1 =>
    simp only [step]
    split
    · rename_i c hc
      split
      · refine ⟨?_, by simp [evOf]⟩
        constructor
        · intro v d p hv hl
          dsimp only [setW] at hv
          split at hv
          · cases hv
          · exact hi.fresh v d p hv hl
        · intro v d p v' d' p' hv hl hv' hl'
          dsimp only [setW] at hv hv'
          split at hv <;> split at hv' <;> first | cases hv | cases hv' | exact hi.one v d p v' d' p' hv hl hv' hl'
        · exact hi.null
        · exact hi.oper
      · refine ⟨?_, by simp [evOf]⟩
        constructor
        · intro v d p hv hl
          dsimp only [setW] at hv
          split at hv
          · cases hv; exact hi.fresh w c .tested hc hl
          · exact hi.fresh v d p hv hl
        · intro v d p v' d' p' hv hl hv' hl'
          dsimp only [setW] at hv hv'
          split at hv <;> split at hv'
          · subst_vars; rfl
          · rename_i h _; subst h; cases hv; exact hi.one _ c .tested v' d' p' hc hl hv' hl'
          · rename_i h; subst h; cases hv'; exact hi.one v d p _ c .tested hv hl hc hl'
          · exact hi.one v d p v' d' p' hv hl hv' hl'
        · exact hi.null
        · exact hi.oper
    · exact ⟨hi, by simp [evOf]⟩
  | finish w r reset =>
    simp only [step]
    split
    · rename_i c hc
      by_cases hl : c = .bootstrap ∨ c = .enroll
      · have hl' : life c = true := by unfold life; simpa using hl
        have hf := hi.fresh w c .inside hc hl'
        have hbusy := hf.2
        refine ⟨?_, ?_⟩
        · constructor
          · intro v d p hv hlv
            dsimp only [setW] at hv
            split at hv
            · cases hv
            · rename_i hne
              exact absurd (hi.one v d p w c .inside hv hlv hc hl') hne
          · intro v d p v' d' p' hv hlv hv' hlv'
            dsimp only [setW] at hv hv'
            split at hv <;> split at hv' <;> first | cases hv | cases hv' | exact hi.one v d p v' d' p' hv hlv hv' hlv'
          · intro h; exact absurd (.inl h) hbusy
          · intro h; exact absurd (.inr (.inr h)) hbusy
        · simp only [evOf, hl', if_true]
          rw [hf.1]
          intro e he
          split at he
          · simp at he; subst he; rfl
          · split at he
            · simp at he; subst he; rfl
            · simp at he
      · have hl' : life c = false := by unfold life; simpa using hl
        refine ⟨?_, by simp [evOf, hl']⟩
        have hst : (if r = 0 ∧ (c = Cmd.bootstrap ∨ c = Cmd.enroll) then IState.operational
            else if r ≠ 0 ∧ reset = true ∧ (c = Cmd.bootstrap ∨ c = Cmd.enroll) then IState.init else s.st) = s.st := by simp [hl]
        rw [hst]
        constructor
        · intro v d p hv hlv
          dsimp only [setW] at hv
          split at hv
          · cases hv
          · exact hi.fresh v d p hv hlv
        · intro v d p v' d' p' hv hlv hv' hlv'
          dsimp only [setW] at hv hv'
          split at hv <;> split at hv' <;> first | cases hv | cases hv' | exact hi.one v d p v' d' p' hv hlv hv' hlv'
        · exact hi.null
        · exact hi.oper
    · exact ⟨hi, by simp [evOf]⟩
  | signal =>
    simp only [step]
    split
    · split
      · rename_i hst
        refine ⟨⟨?_, hi.one, fun _ => hst, fun h => (by cases h)⟩, by simp [evOf]⟩
        intro v d p hv hl; exact absurd ⟨v, d, p, hv, hl⟩ hs
      · refine ⟨⟨?_, hi.one, fun h => (by cases h), fun h => (by cases h)⟩, by simp [evOf]⟩
        intro v d p hv hl; exact absurd ⟨v, d, p, hv, hl⟩ hs
    · exact ⟨hi, by simp [evOf]⟩
  | sigNext =>
    simp only [step]
    split
    · rename_i hsig
      have nb : ¬ LifeBusy s := by
        rintro ⟨v, d, p, hv, hl⟩
        exact (hi.fresh v d p hv hl).2 (.inl hsig)
      refine ⟨⟨?_, hi.one, fun h => (by cases h), fun h => (by cases h)⟩, ?_⟩
      · intro v d p hv hl; exact absurd ⟨v, d, p, hv, hl⟩ nb
      · intro e he; simp [evOf] at he; subst he; rw [hi.null hsig]; rfl
    · rename_i hsig
      have nb : ¬ LifeBusy s := by
        rintro ⟨v, d, p, hv, hl⟩
        exact (hi.fresh v d p hv hl).2 (.inr (.inl hsig))
      split
      · rename_i hst
        refine ⟨⟨?_, hi.one, fun h => (by cases h), fun _ => hst⟩, by simp [evOf]⟩
        intro v d p hv hl; exact absurd ⟨v, d, p, hv, hl⟩ nb
      · refine ⟨⟨?_, hi.one, fun h => (by cases h), fun h => (by cases h)⟩, by simp [evOf]⟩
        intro v d p hv hl; exact absurd ⟨v, d, p, hv, hl⟩ nb
    · rename_i hsig
      have nb : ¬ LifeBusy s := by
        rintro ⟨v, d, p, hv, hl⟩
        exact (hi.fresh v d p hv hl).2 (.inr (.inr hsig))
      refine ⟨⟨?_, hi.one, fun h => (by cases h), fun h => (by cases h)⟩, ?_⟩
      · intro v d p hv hl; exact absurd ⟨v, d, p, hv, hl⟩ nb
      · intro e he; simp [evOf] at he; subst he; rw [hi.oper hsig]; rfl
    · split
      · refine ⟨⟨?_, hi.one, fun h => (by cases h), fun h => (by cases h)⟩, by simp [evOf]⟩
        intro v d p hv hl; exact ⟨(hi.fresh v d p hv hl).1, by simp [SigBusy]⟩
      · refine ⟨⟨?_, hi.one, fun h => (by cases h), fun h => (by cases h)⟩, by simp [evOf]⟩
        intro v d p hv hl; exact ⟨(hi.fresh v d p hv hl).1, by simp [SigBusy]⟩
    · exact ⟨hi, by simp [evOf]⟩

theorem evOf_length (x : Op × Out) : (evOf x).length ≤ 1 := by
  unfold evOf
  split
  · split
    · split
      · simp
      · split <;> simp
    · simp
  · simp
  · simp
  · simp

theorem run_serial (ops : Ops) (l : List Op) (h : Serial ops l) :
    SInv (run ops create l).1 ∧ Legal (evs (run ops create l).2) := by
  induction l using List.reverseRecOn with
  | nil =>
    refine ⟨⟨fun w c p h => by simp [run, create] at h, fun w c p w' c' p' h => by simp [run, create] at h, fun h => by simp [run, create] at h,
      fun h => by simp [run, create] at h⟩, ?_⟩
    intro pre e post h
    simp [run, evs] at h
  | append_singleton l op ih =>
    have hl : Serial ops l := fun pre o post hp => h pre o (post ++ [op]) (by simp [hp])
    obtain ⟨h1, h2⟩ := ih hl
    obtain ⟨_, hv⟩ := run_view ops l
    rw [run_snoc]
    obtain ⟨h5, h6⟩ := step_serial ops h1 (h l op [] rfl)
    refine ⟨h5, ?_⟩
    have : evs ((run ops create l).2 ++ [(op, (step ops (run ops create l).1 op).2)]) =
        evs (run ops create l).2 ++ evOf (op, (step ops (run ops create l).1 op).2) := by simp [evs]
    dsimp only
    rw [this]
    have hlen := evOf_length (op, (step ops (run ops create l).1 op).2)
    generalize evOf (op, (step ops (run ops create l).1 op).2) = es at h6 hlen ⊢
    match es, hlen, h6 with
    | [], _, _ => simpa using h2
    | [e], _, h6 => exact legal_snoc h2 (by rw [← hv]; exact h6 e (by simp))

theorem legal_one {l : List Ev} (h : Legal l) : l.count .success ≤ 1 := by
  by_contra hc
  -- two successes: after the first one the state is never fresh again
  have key : ∀ (l : List Ev), Legal l → .success ∈ l → Spec.LifeCycle.state l ≠ .fresh := by
    intro l
    induction l using List.reverseRecOn with
    | nil => simp
    | append_singleton l e ih =>
      intro hl hm
      have hl' : Legal l := fun pre x post hp => hl pre x (post ++ [e]) (by simp [hp])
      have he : legal (Spec.LifeCycle.state l) e := hl l e [] rfl
      rw [state_snoc]
      rcases List.mem_append.mp hm with hm | hm
      · have := ih hl' hm
        cases e <;> simp_all [legal, next]
      · rw [← List.mem_singleton.mp hm]; simp [next]
  have : ∀ (l : List Ev), Legal l → l.count .success ≤ 1 := by
    intro l
    induction l using List.reverseRecOn with
    | nil => simp
    | append_singleton l e ih =>
      intro hl
      have hl' : Legal l := fun pre x post hp => hl pre x (post ++ [e]) (by simp [hp])
      have he : legal (Spec.LifeCycle.state l) e := hl l e [] rfl
      rw [List.count_append]
      have h1 := ih hl'
      cases e with
      | success =>
        have : Ev.success ∉ l := by
          intro hm; exact key l hl' hm he
        rw [List.count_eq_zero.mpr this]; simp
      | _ => simpa using h1
  exact hc (this l h)

end Ouro.Ipcp
