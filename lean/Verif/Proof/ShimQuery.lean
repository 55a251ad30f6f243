import Verif.Proof.ShimData

/-! # What the log of a history says about queries -/

namespace Ouro.ShimData

open Spec.ShimData

set_option linter.unusedSectionVars false

variable {H : Type} [DecidableEq H]

theorem count_qevs (log : List (Op H × Out)) (x : Op H × Out) (e : QEv) :
    (qevs (log ++ [x])).count e = (qevOf x).count e + (qevs log).count e := by
  simp [qevs]

theorem mem_qevs_snoc (log : List (Op H × Out)) (x : Op H × Out) (e : QEv) : e ∈ qevs (log ++ [x]) ↔ e ∈ qevOf x ∨ e ∈ qevs log := by
  simp [qevs]

/-- Queries that were answered, destroyed or waited for are not new any more. -/
structure LogOk (s : State H) (log : List (Op H × Out)) : Prop where
  old : ∀ q, QEv.answered q ∈ qevs log → q < s.next
  answered : ∀ q, (qevs log).count (.answered q) ≤ 1
  state : ∀ q e, s.qs q = some e → (QEv.answered q ∈ qevs log ↔ e.state = .response ∨ (e.state = .done ∧ QEv.answered q ∈ qevs log))
  destroyed : ∀ q e, s.qs q = some e → (e.state = .destroy → QEv.destroyed q ∈ qevs log)
  waitedOld : ∀ q r, QEv.waited q r ∈ qevs log → q < s.next ∧ ∀ e, s.qs q = some e → e.state = .done
  waited : ∀ q r, QEv.waited q r ∈ qevs log → (r = 0 ∧ QEv.answered q ∈ qevs log) ∨ (r = -1 ∧ QEv.destroyed q ∈ qevs log) ∨ r = -ETIMEDOUT

/-- The queries of `t` are those of `s`, except `q`. -/
theorem LogOk.quiet {s t : State H} {log : List (Op H × Out)} {x : Op H × Out} (h : LogOk s log) (hx : qevOf x = []) (hn : s.next ≤ t.next)
    (hq : ∀ q e, t.qs q = some e → (∃ e', s.qs q = some e' ∧ e'.state = e.state) ∨ (s.next ≤ q ∧ e.state ≠ .response ∧ e.state ≠ .destroy) ∨
      (∃ e', s.qs q = some e' ∧ e'.state = .init ∧ e.state = .pending)) : LogOk t (log ++ [x]) := by
  have hm : ∀ e, e ∈ qevs (log ++ [x]) ↔ e ∈ qevs log := fun e => by rw [mem_qevs_snoc, hx]; simp
  refine ⟨?_, ?_, ?_, ?_, ?_, ?_⟩
  · intro q hq'; rw [hm] at hq'; exact lt_of_lt_of_le (h.old q hq') hn
  · intro q; rw [count_qevs, hx]; simpa using h.answered q
  · intro q e he
    rw [hm]
    rcases hq q e he with ⟨e', h1, h2⟩ | ⟨h1, h2, h3⟩ | ⟨e', h1, h2, h3⟩
    · rw [← h2]; exact h.state q e' h1
    · constructor
      · intro ha; exact absurd (h.old q ha) (not_lt.mpr h1)
      · rintro (h4 | h4)
        · exact absurd h4 h2
        · exact h4.2
    · constructor
      · intro ha
        have := (h.state q e' h1).mp ha
        rw [h2] at this; simp at this
      · rintro (h4 | h4)
        · rw [h3] at h4; cases h4
        · exact h4.2
  · intro q e he hd
    rw [hm]
    rcases hq q e he with ⟨e', h1, h2⟩ | ⟨h1, h2, h3⟩ | ⟨e', h1, h2, h3⟩
    · exact h.destroyed q e' h1 (by rw [h2]; exact hd)
    · exact absurd hd h3
    · rw [h3] at hd; cases hd
  · intro q r hw
    rw [hm] at hw
    obtain ⟨h1, h2⟩ := h.waitedOld q r hw
    refine ⟨lt_of_lt_of_le h1 hn, fun e he => ?_⟩
    rcases hq q e he with ⟨e', h3, h4⟩ | ⟨h3, _⟩ | ⟨e', h3, h4, h5⟩
    · rw [← h4]; exact h2 e' h3
    · exact absurd h1 (not_lt.mpr h3)
    · have := h2 e' h3; rw [h4] at this; cases this
  · intro q r hw
    rw [hm] at hw
    rw [hm, hm]
    exact h.waited q r hw


theorem logOk_step {s t : State H} {log : List (Op H × Out)} {op : Op H} {o : Out} (hi : QInv s) (hl : LogOk s log)
    (h : step s op = .ok (t, o)) : LogOk t (log ++ [(op, o)]) := by
  have triv : qevOf (op, o) = [] → t.qs = s.qs → t.next = s.next → LogOk t (log ++ [(op, o)]) := fun h1 h2 h3 =>
    hl.quiet h1 (by rw [h3]) (fun q e he => .inl ⟨e, by rw [← h2]; exact he, rfl⟩)
  cases op with
  | regAdd x m =>
    refine triv rfl ?_ ?_ <;> (simp only [step, regAdd] at h; cases h; (repeat' split) <;> rfl)
  | regDel x =>
    refine triv rfl ?_ ?_ <;> (simp only [step, regDel] at h; cases h; (repeat' split) <;> rfl)
  | dirAdd x a m =>
    refine triv rfl ?_ ?_ <;> (simp only [step, dirAdd] at h; cases h; (repeat' split) <;> rfl)
  | dirDel x a =>
    refine triv rfl ?_ ?_ <;> (simp only [step, dirDel] at h; cases h; (repeat' split) <;> rfl)
  | regHas x => cases h; exact triv rfl rfl rfl
  | dirHas x => cases h; exact triv rfl rfl rfl
  | dirGet x => cases h; exact triv rfl rfl rfl
  | queryCreate x m =>
    simp only [step, queryCreate] at h
    split at h
    · cases h; exact triv rfl rfl rfl
    split at h
    · cases h; exact triv rfl rfl rfl
    · cases h
      refine hl.quiet rfl (Nat.le_succ _) (fun q e he => ?_)
      dsimp only at he
      by_cases hq : q = s.next
      · subst hq; rw [upd_same] at he; cases he
        exact .inr (.inl ⟨le_refl _, by simp, by simp⟩)
      · rw [upd_ne _ _ hq] at he; exact .inl ⟨e, he, rfl⟩
  | waitStart q =>
    simp only [step, waitStart] at h
    split at h
    · cases h
    rename_i e he
    split at h
    · cases h; exact triv rfl rfl rfl
    split at h
    · cases h; exact triv rfl rfl rfl
    · rename_i hst
      have hst : e.state = .init := by simpa using hst
      cases h
      refine hl.quiet rfl (le_refl _) (fun p x hx => ?_)
      dsimp only at hx
      by_cases hp : p = q
      · subst hp; rw [upd_same] at hx; cases hx
        exact .inr (.inr ⟨e, he, hst, rfl⟩)
      · rw [upd_ne _ _ hp] at hx; exact .inl ⟨x, hx, rfl⟩
  | waitCancel q =>
    simp only [step, waitCancel] at h
    split at h
    · cases h
    rename_i e he
    split at h
    · cases h; exact triv rfl rfl rfl
    · cases h
      refine hl.quiet rfl (le_refl _) (fun p x hx => ?_)
      dsimp only at hx
      by_cases hp : p = q
      · subst hp; rw [upd_same] at hx; cases hx
        exact .inl ⟨e, he, rfl⟩
      · rw [upd_ne _ _ hp] at hx; exact .inl ⟨x, hx, rfl⟩
  | respondWake =>
    simp only [step, respondWake] at h
    repeat' split at h
    all_goals first | (cases h; done) | (cases h; exact triv rfl rfl rfl)
  | destroyWake =>
    simp only [step, destroyWake] at h
    split at h
    · rename_i q w hho
      split at h
      · cases h
      rename_i e he
      split at h
      · cases h; exact triv rfl rfl rfl
      split at h
      · cases h; exact triv rfl rfl rfl
      · cases h
        refine hl.quiet rfl (le_refl _) (fun p x hx => ?_)
        dsimp only at hx
        by_cases hp : p = q
        · subst hp; rw [upd_same] at hx; cases hx
        · rw [upd_ne _ _ hp] at hx; exact .inl ⟨x, hx, rfl⟩
    · cases h; exact triv rfl rfl rfl
  | waitWake q b =>
    simp only [step, waitWake] at h
    split at h
    · cases h
    rename_i e he
    split at h
    · cases h; exact triv rfl rfl rfl
    rename_i hw
    push Not at hw
    split at h
    · cases h
      refine hl.quiet rfl (le_refl _) (fun p x hx => ?_)
      dsimp only at hx
      by_cases hp : p = q
      · subst hp; rw [upd_same] at hx; cases hx
        exact .inl ⟨e, he, rfl⟩
      · rw [upd_ne _ _ hp] at hx; exact .inl ⟨x, hx, rfl⟩
    · rename_i hp
      cases h
      have hoe := hi.ok q e he
      have hst : e.state = .response ∨ e.state = .destroy ∨ (e.state = .pending ∧ b = true) := by
        cases hs : e.state with
        | init => exact absurd (hoe.init hs).1 hw.1
        | done => exact absurd (hoe.done hs).1 hw.1
        | response => exact .inl rfl
        | destroy => exact .inr (.inl rfl)
        | pending => cases b with
          | true => exact .inr (.inr ⟨rfl, rfl⟩)
          | false => exact absurd ⟨hs, rfl⟩ hp
      refine ⟨?_, ?_, ?_, ?_, ?_, ?_⟩
      · intro p hp; rw [mem_qevs_snoc] at hp
        rcases hp with hp | hp
        · simp [qevOf] at hp
        · exact hl.old p hp
      · intro p
        rw [count_qevs]
        simpa [qevOf] using hl.answered p
      · intro p x hx
        dsimp only at hx
        have hm : QEv.answered p ∈ qevs (log ++ [(Op.waitWake q b, Out.ret (if e.state = .destroy then -1 else if b then -ETIMEDOUT else 0))]) ↔
            QEv.answered p ∈ qevs log := by rw [mem_qevs_snoc]; simp [qevOf]
        rw [hm]
        by_cases hp : p = q
        · subst hp; rw [upd_same] at hx; cases hx; simp
        · rw [upd_ne _ _ hp] at hx; exact hl.state p x hx
      · intro p x hx hd
        dsimp only at hx
        rw [mem_qevs_snoc]
        by_cases hp : p = q
        · subst hp; rw [upd_same] at hx; cases hx; cases hd
        · rw [upd_ne _ _ hp] at hx; exact .inr (hl.destroyed p x hx hd)
      · intro p r hr
        rw [mem_qevs_snoc] at hr
        dsimp only
        by_cases hp : p = q
        · subst hp
          refine ⟨hoe.old, fun x hx => ?_⟩
          rw [upd_same] at hx; cases hx; rfl
        · rcases hr with hr | hr
          · simp [qevOf] at hr; exact absurd hr.1 hp
          · obtain ⟨h1, h2⟩ := hl.waitedOld p r hr
            exact ⟨h1, fun x hx => by rw [upd_ne _ _ hp] at hx; exact h2 x hx⟩
      · intro p r hr
        rw [mem_qevs_snoc] at hr
        rw [mem_qevs_snoc, mem_qevs_snoc]
        rcases hr with hr | hr
        · simp only [qevOf, List.mem_singleton, QEv.waited.injEq] at hr
          obtain ⟨rfl, rfl⟩ := hr
          rcases hst with h1 | h1 | ⟨h1, h2⟩
          · cases b with
            | true => simp [h1]
            | false =>
              left
              refine ⟨by simp [h1], .inr ((hl.state p e he).mpr (.inl h1))⟩
          · right; left
            exact ⟨by simp [h1], .inr (hl.destroyed p e he h1)⟩
          · simp [h1, h2]
        · rcases hl.waited p r hr with ⟨h1, h2⟩ | ⟨h1, h2⟩ | h1
          · exact .inl ⟨h1, .inr h2⟩
          · exact .inr (.inl ⟨h1, .inr h2⟩)
          · exact .inr (.inr h1)
  | respond x =>
    simp only [step, respond] at h
    split at h
    · cases h; exact triv rfl rfl rfl
    split at h
    · cases h; exact triv rfl rfl rfl
    rename_i q e hf
    obtain ⟨hql, he, _⟩ := findQuery_some hf
    split at h
    · cases h; exact triv rfl rfl rfl
    split at h
    · cases h; exact triv rfl rfl rfl
    · rename_i hst
      have hst : e.state = .pending := by simpa using hst
      cases h
      have hnot : QEv.answered q ∉ qevs log := by
        intro ha
        have := (hl.state q e he).mp ha
        rw [hst] at this; simp at this
      have hm : ∀ p, QEv.answered p ∈ qevs (log ++ [(Op.respond x, Out.answers q)]) ↔ p = q ∨ QEv.answered p ∈ qevs log := by
        intro p; rw [mem_qevs_snoc]; simp [qevOf]
      refine ⟨?_, ?_, ?_, ?_, ?_, ?_⟩
      · intro p hp; rw [hm] at hp
        rcases hp with rfl | hp
        · exact (hi.ok _ _ he).old
        · exact hl.old p hp
      · intro p
        rw [count_qevs]
        by_cases hp : p = q
        · subst hp
          rw [List.count_eq_zero.mpr hnot]; simp [qevOf]
        · have : (qevOf (Op.respond x, Out.answers q)).count (QEv.answered p) = 0 := by
            rw [List.count_eq_zero]; simp [qevOf, hp]
          rw [this]; simpa using hl.answered p
      · intro p y hy
        dsimp only at hy
        rw [hm]
        by_cases hp : p = q
        · subst hp; rw [upd_same] at hy; cases hy; simp
        · rw [upd_ne _ _ hp] at hy; simp only [hp, false_or]; exact hl.state p y hy
      · intro p y hy hd
        dsimp only at hy
        rw [mem_qevs_snoc]
        by_cases hp : p = q
        · subst hp; rw [upd_same] at hy; cases hy; cases hd
        · rw [upd_ne _ _ hp] at hy; exact .inr (hl.destroyed p y hy hd)
      · intro p r hr
        rw [mem_qevs_snoc] at hr
        simp only [qevOf, List.mem_singleton, reduceCtorEq, false_or] at hr
        obtain ⟨h1, h2⟩ := hl.waitedOld p r hr
        refine ⟨h1, fun y hy => ?_⟩
        dsimp only at hy
        by_cases hp : p = q
        · subst hp; have := h2 e he; rw [hst] at this; cases this
        · rw [upd_ne _ _ hp] at hy; exact h2 y hy
      · intro p r hr
        rw [mem_qevs_snoc] at hr
        simp only [qevOf, List.mem_singleton, reduceCtorEq, false_or] at hr
        rw [mem_qevs_snoc, mem_qevs_snoc]
        rcases hl.waited p r hr with ⟨h1, h2⟩ | ⟨h1, h2⟩ | h1
        · exact .inl ⟨h1, .inr h2⟩
        · exact .inr (.inl ⟨h1, .inr h2⟩)
        · exact .inr (.inr h1)
  | queryDestroy q =>
    have hev : qevOf (Op.queryDestroy (H := H) q, o) = [] ∨ qevOf (Op.queryDestroy (H := H) q, o) = [QEv.destroyed q] := by
      cases o <;> simp [qevOf]
    have key : ∀ (hq : ∀ p y, t.qs p = some y → ∃ y', s.qs p = some y' ∧
        (y'.state = y.state ∨ (p = q ∧ o = .sleeps ∧ y'.state = .pending ∧ y.state = .destroy))) (_ : t.next = s.next),
        LogOk t (log ++ [(Op.queryDestroy q, o)]) := by
      intro hq hnx
      have ha : ∀ p, QEv.answered p ∈ qevs (log ++ [(Op.queryDestroy q, o)]) ↔ QEv.answered p ∈ qevs log := by
        intro p; rw [mem_qevs_snoc]; rcases hev with h | h <;> rw [h] <;> simp
      have hwt : ∀ p r, QEv.waited p r ∈ qevs (log ++ [(Op.queryDestroy q, o)]) ↔ QEv.waited p r ∈ qevs log := by
        intro p r; rw [mem_qevs_snoc]; rcases hev with h | h <;> rw [h] <;> simp
      refine ⟨?_, ?_, ?_, ?_, ?_, ?_⟩
      · intro p hp; rw [ha] at hp; rw [hnx]; exact hl.old p hp
      · intro p
        rw [count_qevs]
        have : (qevOf (Op.queryDestroy (H := H) q, o)).count (QEv.answered p) = 0 := by
          rw [List.count_eq_zero]; rcases hev with h | h <;> rw [h] <;> simp
        rw [this]; simpa using hl.answered p
      · intro p y hy
        rw [ha]
        obtain ⟨y', h1, h2⟩ := hq p y hy
        rcases h2 with h2 | ⟨_, _, h2, h3⟩
        · rw [← h2]; exact hl.state p y' h1
        · rw [h3]
          constructor
          · intro h4
            have := (hl.state p y' h1).mp h4
            rw [h2] at this; simp at this
          · simp
      · intro p y hy hd
        rw [mem_qevs_snoc]
        obtain ⟨y', h1, h2⟩ := hq p y hy
        rcases h2 with h2 | ⟨rfl, rfl, _, _⟩
        · exact .inr (hl.destroyed p y' h1 (by rw [h2]; exact hd))
        · left; simp [qevOf]
      · intro p r hr
        rw [hwt] at hr
        obtain ⟨h1, h2⟩ := hl.waitedOld p r hr
        refine ⟨by rw [hnx]; exact h1, fun y hy => ?_⟩
        obtain ⟨y', h3, h4⟩ := hq p y hy
        have h5 := h2 y' h3
        rcases h4 with h4 | ⟨_, _, h4, _⟩
        · rw [← h4]; exact h5
        · rw [h4] at h5; cases h5
      · intro p r hr
        rw [hwt] at hr
        rw [ha, mem_qevs_snoc]
        rcases hl.waited p r hr with ⟨h1, h2⟩ | ⟨h1, h2⟩ | h1
        · exact .inl ⟨h1, h2⟩
        · exact .inr (.inl ⟨h1, .inr h2⟩)
        · exact .inr (.inr h1)
    simp only [step, queryDestroy] at h
    split at h
    · cases h
    rename_i e he
    split at h
    · cases h; exact triv rfl rfl rfl
    have gone : ∀ p y, upd s.qs q none p = some y → ∃ y', s.qs p = some y' ∧
        (y'.state = y.state ∨ (p = q ∧ o = .sleeps ∧ y'.state = .pending ∧ y.state = .destroy)) := by
      intro p y hy
      by_cases hp : p = q
      · subst hp; rw [upd_same] at hy; cases hy
      · rw [upd_ne _ _ hp] at hy; exact ⟨y, hy, .inl rfl⟩
    split at h
    · cases h; exact key (fun p y hy => ⟨y, hy, .inl rfl⟩) rfl
    split at h
    · cases h; exact key gone rfl
    · rename_i hst
      cases h
      refine key (fun p y hy => ?_) rfl
      dsimp only at hy
      by_cases hp : p = q
      · subst hp; rw [upd_same] at hy; cases hy
        exact ⟨e, he, .inr ⟨rfl, rfl, hst, rfl⟩⟩
      · rw [upd_ne _ _ hp] at hy; exact ⟨y, hy, .inl rfl⟩
    · cases h; exact key (fun p y hy => ⟨y, hy, .inl rfl⟩) rfl
    · cases h; exact key gone rfl
    · cases h; exact key (fun p y hy => ⟨y, hy, .inl rfl⟩) rfl

theorem reached_log {s : State H} {log : List (Op H × Out)} (h : Reached s log) : LogOk s log := by
  refine reached_induction (P := fun s log => LogOk s log) ?_ ?_ s log h
  · refine ⟨?_, ?_, ?_, ?_, ?_, ?_⟩ <;> simp [create, qevs]
  · intro s log op t o hr hp hs
    exact logOk_step (reached_qinv hr) hp hs

/-- Nobody was cancelled: no lock is lost. -/
theorem reached_alive {s : State H} {log : List (Op H × Out)} (h : Reached s log) (hc : ∀ q o, (Op.waitCancel q, o) ∉ log) :
    (∀ q e, s.qs q = some e → e.dead = false) ∧ ∀ q, s.holder ≠ some (.stuck q) := by
  refine reached_induction (P := fun s log => (∀ q o, (Op.waitCancel q, o) ∉ log) →
    (∀ q e, s.qs q = some e → e.dead = false) ∧ ∀ q, s.holder ≠ some (.stuck q)) ?_ ?_ s log h hc
  · intro _; simp [create]
  · intro s log op t o hr hp hs hc
    obtain ⟨ih1, ih2⟩ := hp (fun q o hm => hc q o (by simp [hm]))
    have hne : ∀ q, op ≠ .waitCancel q := fun q hq => hc q o (by simp [hq])
    have same : t.qs = s.qs → t.holder = s.holder → (∀ q e, t.qs q = some e → e.dead = false) ∧ ∀ q, t.holder ≠ some (.stuck q) :=
      fun h1 h2 => by rw [h1, h2]; exact ⟨ih1, ih2⟩
    have updok : ∀ (q : Nat) (v : Option (Query H)), (∀ e, v = some e → e.dead = false) → ∀ p e, upd s.qs q v p = some e → e.dead = false := by
      intro q v hv p e he
      by_cases hpq : p = q
      · subst hpq; rw [upd_same] at he; exact hv e he
      · rw [upd_ne _ _ hpq] at he; exact ih1 p e he
    cases op with
    | regAdd x m => refine same ?_ ?_ <;> (simp only [step, regAdd] at hs; cases hs; (repeat' split) <;> rfl)
    | regDel x => refine same ?_ ?_ <;> (simp only [step, regDel] at hs; cases hs; (repeat' split) <;> rfl)
    | dirAdd x a m => refine same ?_ ?_ <;> (simp only [step, dirAdd] at hs; cases hs; (repeat' split) <;> rfl)
    | dirDel x a => refine same ?_ ?_ <;> (simp only [step, dirDel] at hs; cases hs; (repeat' split) <;> rfl)
    | regHas x => cases hs; exact same rfl rfl
    | dirHas x => cases hs; exact same rfl rfl
    | dirGet x => cases hs; exact same rfl rfl
    | queryCreate x m =>
      simp only [step, queryCreate] at hs
      split at hs
      · cases hs; exact same rfl rfl
      split at hs
      · cases hs; exact same rfl rfl
      · cases hs; exact ⟨updok _ _ (fun e he => by cases he; rfl), ih2⟩
    | waitCancel q => exact absurd rfl (hne q)
    | waitStart q =>
      simp only [step, waitStart] at hs
      split at hs
      · cases hs
      rename_i e he
      split at hs
      · cases hs; exact same rfl rfl
      split at hs
      · cases hs; exact same rfl rfl
      · cases hs; exact ⟨updok _ _ (fun x hx => by cases hx; exact ih1 q e he), ih2⟩
    | waitWake q b =>
      simp only [step, waitWake] at hs
      split at hs
      · cases hs
      rename_i e he
      split at hs
      · cases hs; exact same rfl rfl
      split at hs
      · cases hs; exact ⟨updok _ _ (fun x hx => by cases hx; exact ih1 q e he), ih2⟩
      · cases hs
        refine ⟨updok _ _ (fun x hx => by cases hx; exact ih1 q e he), fun p hp => ?_⟩
        dsimp only at hp
        cases hh : s.holder with
        | none => rw [hh] at hp; cases hp
        | some hd =>
          rw [hh] at hp
          cases hd with
          | responder a c => simp only [wakeHolder] at hp; split at hp <;> cases hp
          | destroyer a c => simp only [wakeHolder] at hp; split at hp <;> cases hp
          | stuck a => exact ih2 a hh
    | respond x =>
      simp only [step, respond] at hs
      split at hs
      · cases hs; exact same rfl rfl
      split at hs
      · cases hs; exact same rfl rfl
      rename_i q e hf
      obtain ⟨_, he, _⟩ := findQuery_some hf
      split at hs
      · rename_i hd; rw [ih1 q e he] at hd; cases hd
      split at hs
      · cases hs; exact same rfl rfl
      · cases hs
        exact ⟨updok _ _ (fun x hx => by cases hx; exact ih1 q e he), fun p hp => by cases hp⟩
    | respondWake =>
      simp only [step, respondWake] at hs
      repeat' split at hs
      all_goals first | (cases hs; done) | (cases hs; exact same rfl rfl) | (cases hs; exact ⟨ih1, fun p hp => by cases hp⟩)
    | queryDestroy q =>
      simp only [step, queryDestroy] at hs
      split at hs
      · cases hs
      rename_i e he
      split at hs
      · cases hs; exact same rfl rfl
      split at hs
      · rename_i hd; rw [ih1 q e he] at hd; cases hd
      split at hs
      · cases hs; exact ⟨updok _ _ (fun x hx => by cases hx), ih2⟩
      · cases hs; exact ⟨updok _ _ (fun x hx => by cases hx; exact ih1 q e he), fun p hp => by cases hp⟩
      · cases hs; exact ⟨ih1, fun p hp => by cases hp⟩
      · cases hs; exact ⟨updok _ _ (fun x hx => by cases hx), ih2⟩
      · cases hs; exact same rfl rfl
    | destroyWake =>
      simp only [step, destroyWake] at hs
      split at hs
      · split at hs
        · cases hs
        split at hs
        · cases hs; exact same rfl rfl
        split at hs
        · cases hs; exact ⟨ih1, fun p hp => by cases hp⟩
        · cases hs; exact ⟨updok _ _ (fun x hx => by cases hx), fun p hp => by cases hp⟩
      · cases hs; exact same rfl rfl

/-- Whoever sleeps as a destroyer started to destroy that query. -/
theorem reached_destroyer {s : State H} {log : List (Op H × Out)} (h : Reached s log) :
    ∀ q w, s.holder = some (.destroyer q w) → QEv.destroyed q ∈ qevs log := by
  refine reached_induction (P := fun s log => ∀ q w, s.holder = some (.destroyer q w) → QEv.destroyed q ∈ qevs log) ?_ ?_ s log h
  · intro q w; simp [create]
  · intro s log op t o hr hp hs q w hw
    rw [mem_qevs_snoc]
    have keep : (∃ w', s.holder = some (.destroyer q w')) → QEv.destroyed q ∈ qevOf (op, o) ∨ QEv.destroyed q ∈ qevs log := by
      rintro ⟨w', h⟩; exact .inr (hp q w' h)
    cases op with
    | regAdd x m => refine keep ⟨w, ?_⟩; simp only [step, regAdd] at hs; cases hs; repeat' split at hw
                    all_goals exact hw
    | regDel x => refine keep ⟨w, ?_⟩; simp only [step, regDel] at hs; cases hs; repeat' split at hw
                  all_goals exact hw
    | dirAdd x a m => refine keep ⟨w, ?_⟩; simp only [step, dirAdd] at hs; cases hs; repeat' split at hw
                      all_goals exact hw
    | dirDel x a => refine keep ⟨w, ?_⟩; simp only [step, dirDel] at hs; cases hs; repeat' split at hw
                    all_goals exact hw
    | regHas x => cases hs; exact keep ⟨w, hw⟩
    | dirHas x => cases hs; exact keep ⟨w, hw⟩
    | dirGet x => cases hs; exact keep ⟨w, hw⟩
    | queryCreate x m =>
      simp only [step, queryCreate] at hs
      repeat' split at hs
      all_goals (cases hs; exact keep ⟨w, hw⟩)
    | waitCancel p =>
      simp only [step, waitCancel] at hs
      repeat' split at hs
      all_goals first | (cases hs; done) | (cases hs; exact keep ⟨w, hw⟩)
    | waitStart p =>
      simp only [step, waitStart] at hs
      repeat' split at hs
      all_goals first | (cases hs; done) | (cases hs; exact keep ⟨w, hw⟩)
    | waitWake p b =>
      simp only [step, waitWake] at hs
      repeat' split at hs
      all_goals first
        | (cases hs; done)
        | (cases hs; exact keep ⟨w, hw⟩)
        | (cases hs; obtain ⟨w', h1, _⟩ := wakeHolder_destroyer.mp hw; exact keep ⟨w', h1⟩)
    | respond x =>
      simp only [step, respond] at hs
      repeat' split at hs
      all_goals first | (cases hs; done) | (cases hs; exact keep ⟨w, hw⟩) | (cases hs; cases hw)
    | respondWake =>
      simp only [step, respondWake] at hs
      repeat' split at hs
      all_goals first | (cases hs; done) | (cases hs; exact keep ⟨w, hw⟩) | (cases hs; cases hw)
    | queryDestroy p =>
      simp only [step, queryDestroy] at hs
      repeat' split at hs
      all_goals first
        | (cases hs; done)
        | (cases hs; exact keep ⟨w, hw⟩)
        | (cases hs; cases hw; left; simp [qevOf])
        | (cases hs; cases hw)
    | destroyWake =>
      simp only [step, destroyWake] at hs
      split at hs
      · rename_i p w' hho
        repeat' split at hs
        all_goals first | (cases hs; done) | (cases hs; exact keep ⟨w, hw⟩) | (cases hs; cases hw; exact keep ⟨_, hho⟩) | (cases hs; cases hw)
      · cases hs; exact keep ⟨w, hw⟩

/-- A query that was created and that nobody started to destroy is there. -/
theorem reached_live {s : State H} {log : List (Op H × Out)} (h : Reached s log) :
    ∀ q, q < s.next → QEv.destroyed q ∉ qevs log → (s.qs q).isSome := by
  refine reached_induction (P := fun s log => ∀ q, q < s.next → QEv.destroyed q ∉ qevs log → (s.qs q).isSome) ?_ ?_ s log h
  · intro q hq; simp [create] at hq
  · intro s log op t o hr hp hs q hq hd
    rw [mem_qevs_snoc] at hd
    push Not at hd
    obtain ⟨hd1, hd2⟩ := hd
    have same : t.qs = s.qs → t.next = s.next → (t.qs q).isSome := fun h1 h2 => by
      rw [h1]; exact hp q (by rw [← h2]; exact hq) hd2
    have updok : ∀ (p : Nat) (v : Option (Query H)), (p = q → v.isSome) → t.next = s.next → t.qs = upd s.qs p v → (t.qs q).isSome := by
      intro p v hv h2 h3
      rw [h3]
      by_cases hpq : q = p
      · subst hpq; rw [upd_same]; exact hv rfl
      · rw [upd_ne _ _ hpq]; exact hp q (by rw [← h2]; exact hq) hd2
    cases op with
    | regAdd x m => refine same ?_ ?_ <;> (simp only [step, regAdd] at hs; cases hs; (repeat' split) <;> rfl)
    | regDel x => refine same ?_ ?_ <;> (simp only [step, regDel] at hs; cases hs; (repeat' split) <;> rfl)
    | dirAdd x a m => refine same ?_ ?_ <;> (simp only [step, dirAdd] at hs; cases hs; (repeat' split) <;> rfl)
    | dirDel x a => refine same ?_ ?_ <;> (simp only [step, dirDel] at hs; cases hs; (repeat' split) <;> rfl)
    | regHas x => cases hs; exact same rfl rfl
    | dirHas x => cases hs; exact same rfl rfl
    | dirGet x => cases hs; exact same rfl rfl
    | queryCreate x m =>
      simp only [step, queryCreate] at hs
      split at hs
      · cases hs; exact same rfl rfl
      split at hs
      · cases hs; exact same rfl rfl
      · cases hs
        dsimp only at hq ⊢
        by_cases hqn : q = s.next
        · subst hqn; rw [upd_same]; rfl
        · rw [upd_ne _ _ hqn]; exact hp q (by omega) hd2
    | waitCancel p =>
      simp only [step, waitCancel] at hs
      repeat' split at hs
      all_goals first | (cases hs; done) | (cases hs; exact same rfl rfl) | (cases hs; exact updok _ _ (fun _ => rfl) rfl rfl)
    | waitStart p =>
      simp only [step, waitStart] at hs
      repeat' split at hs
      all_goals first | (cases hs; done) | (cases hs; exact same rfl rfl) | (cases hs; exact updok _ _ (fun _ => rfl) rfl rfl)
    | waitWake p b =>
      simp only [step, waitWake] at hs
      repeat' split at hs
      all_goals first | (cases hs; done) | (cases hs; exact same rfl rfl) | (cases hs; exact updok _ _ (fun _ => rfl) rfl rfl)
    | respond x =>
      simp only [step, respond] at hs
      repeat' split at hs
      all_goals first | (cases hs; done) | (cases hs; exact same rfl rfl) | (cases hs; exact updok _ _ (fun _ => rfl) rfl rfl)
    | respondWake =>
      simp only [step, respondWake] at hs
      repeat' split at hs
      all_goals first | (cases hs; done) | (cases hs; exact same rfl rfl)
    | queryDestroy p =>
      have hne : (o = .done ∨ o = .sleeps) → p ≠ q := by
        rintro (h | h) rfl <;> subst h <;> simp [qevOf] at hd1
      simp only [step, queryDestroy] at hs
      repeat' split at hs
      all_goals first
        | (cases hs; done)
        | (cases hs; exact same rfl rfl)
        | (cases hs; exact updok _ _ (fun h => absurd h (hne (.inl rfl))) rfl rfl)
        | (cases hs; exact updok _ _ (fun h => absurd h (hne (.inr rfl))) rfl rfl)
    | destroyWake =>
      simp only [step, destroyWake] at hs
      split at hs
      · rename_i p w hho
        split at hs
        · cases hs
        rename_i e he
        split at hs
        · cases hs; exact same rfl rfl
        split at hs
        · cases hs; exact same rfl rfl
        · cases hs
          by_cases hqp : q = p
          · subst hqp
            exact absurd (reached_destroyer hr q w hho) hd2
          · dsimp only; rw [upd_ne _ _ hqp]; exact hp q hq hd2
      · cases hs; exact same rfl rfl

/-- The number of the next query never goes down. -/
theorem next_mono {s t : State H} {op : Op H} {o : Out} (h : step s op = .ok (t, o)) : s.next ≤ t.next := by
  cases op <;> simp only [step, regAdd, regDel, dirAdd, dirDel, queryCreate, waitStart, waitWake, waitCancel, respond, respondWake, queryDestroy,
    destroyWake] at h <;> (repeat' split at h) <;> first | (cases h; done) | (cases h; exact le_refl _) | (cases h; exact Nat.le_succ _) |
    (cases h; (repeat' split) <;> exact le_refl _)

theorem reached_created {s : State H} {log : List (Op H × Out)} (h : Reached s log) :
    ∀ q x m, (Op.queryCreate x m, Out.query (some q)) ∈ log → q < s.next := by
  refine reached_induction (P := fun s log => ∀ q x m, (Op.queryCreate x m, Out.query (some q)) ∈ log → q < s.next) ?_ ?_ s log h
  · simp
  · intro s log op t o _ hp hs q x m hm
    rw [List.mem_append, List.mem_singleton] at hm
    rcases hm with hm | hm
    · exact lt_of_lt_of_le (hp q x m hm) (next_mono hs)
    · cases hm
      simp only [step, queryCreate] at hs
      repeat' split at hs
      all_goals first | (cases hs; done) | (cases hs; exact Nat.lt_succ_self _)

/-- The steps of a party that got stuck: it stays stuck. -/
theorem stuck_step {s t : State H} {op : Op H} {o : Out} {q : Nat} (hh : s.holder = some (.stuck q)) (h : step s op = .ok (t, o)) :
    t.holder = some (.stuck q) ∧ (op = .respondWake ∨ op = .destroyWake → o = .blocked) ∧ (∀ x, op = .respond x → o = .blocked) ∧
      (∀ x, op = .queryCreate x true → o = .blocked) ∧ (∀ p, op = .queryDestroy p → o = .blocked) := by
  cases op with
  | regAdd x m => simp only [step, regAdd] at h; cases h; refine ⟨?_, by simp, by simp, by simp, by simp⟩; (repeat' split) <;> exact hh
  | regDel x => simp only [step, regDel] at h; cases h; refine ⟨?_, by simp, by simp, by simp, by simp⟩; (repeat' split) <;> exact hh
  | dirAdd x a m => simp only [step, dirAdd] at h; cases h; refine ⟨?_, by simp, by simp, by simp, by simp⟩; (repeat' split) <;> exact hh
  | dirDel x a => simp only [step, dirDel] at h; cases h; refine ⟨?_, by simp, by simp, by simp, by simp⟩; (repeat' split) <;> exact hh
  | regHas x => cases h; exact ⟨hh, by simp, by simp, by simp, by simp⟩
  | dirHas x => cases h; exact ⟨hh, by simp, by simp, by simp, by simp⟩
  | dirGet x => cases h; exact ⟨hh, by simp, by simp, by simp, by simp⟩
  | queryCreate x m =>
    simp only [step, queryCreate, hh] at h
    cases m <;> (simp at h; obtain ⟨rfl, rfl⟩ := h; exact ⟨hh, by simp, by simp, by simp, by simp⟩)
  | waitStart p =>
    simp only [step, waitStart] at h
    repeat' split at h
    all_goals first | (cases h; done) | (cases h; exact ⟨hh, by simp, by simp, by simp, by simp⟩)
  | waitCancel p =>
    simp only [step, waitCancel] at h
    repeat' split at h
    all_goals first | (cases h; done) | (cases h; exact ⟨hh, by simp, by simp, by simp, by simp⟩)
  | waitWake p b =>
    simp only [step, waitWake] at h
    repeat' split at h
    all_goals first | (cases h; done) | (cases h; exact ⟨hh, by simp, by simp, by simp, by simp⟩) |
      (cases h; exact ⟨by simp [hh, wakeHolder], by simp, by simp, by simp, by simp⟩)
  | respond x =>
    simp only [step, respond, hh] at h
    simp at h; obtain ⟨rfl, rfl⟩ := h; exact ⟨hh, by simp, by simp, by simp, by simp⟩
  | respondWake => simp only [step, respondWake, hh] at h; cases h; exact ⟨hh, by simp, by simp, by simp, by simp⟩
  | destroyWake => simp only [step, destroyWake, hh] at h; cases h; exact ⟨hh, by simp, by simp, by simp, by simp⟩
  | queryDestroy p =>
    simp only [step, queryDestroy, hh] at h
    split at h
    · cases h
    · simp at h; obtain ⟨rfl, rfl⟩ := h; exact ⟨hh, by simp, by simp, by simp, by simp⟩

end Ouro.ShimData
