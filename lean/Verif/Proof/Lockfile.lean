import Verif.Spec.Lockfile
import Verif.Proof.Tac

/-!
# The lock file of the IRM daemon: proofs
-/

namespace Ouro.Lockfile

theorem upd_same {α} (f : Nat → α) (i : Nat) (a : α) : upd f i a i = a := by simp [upd]
theorem upd_ne {α} (f : Nat → α) {i j : Nat} (a : α) (h : j ≠ i) : upd f i a j = f j := by simp [upd, h]

/-- No process is a daemon that has the lock. -/
def Free (s : St) : Prop := ∀ p o, s.pc p ≠ .running o

/-- What holds when start-ups do not overlap. -/
structure Inv (s : St) : Prop where
  one : ∀ p q, Starting s p → Starting s q → p = q
  run : ∀ p o, s.pc p = .running o → s.name = some o ∧ s.objs o = some p ∧ p ≠ 0
  created : ∀ p o, s.pc p = .created o → s.name = some o ∧ Free s
  sized : ∀ p o, s.pc p = .sized o → s.name = some o ∧ Free s
  mapped : ∀ p o, s.pc p = .mapped o → s.name = some o ∨ s.name = none
  stale : ∀ p o, s.pc p = .stale o → Free s
  purged : ∀ p o, s.pc p = .purged o → Free s
  nz : s.pc 0 = .gone

theorem start_inv : Inv start := by
  constructor <;> first | rfl | (intro p; intros; simp_all [start, Starting])

/-- At most one process has the lock. -/
theorem Inv.unique {s : St} (h : Inv s) {p q : Nat} (hp : Running s p) (hq : Running s q) : p = q := by
  obtain ⟨o, ho⟩ := hp
  obtain ⟨o', ho'⟩ := hq
  obtain ⟨h1, h2, _⟩ := h.run p o ho
  obtain ⟨h3, h4, _⟩ := h.run q o' ho'
  rw [h1] at h3
  cases h3
  rw [h2] at h4
  exact Option.some.inj h4

/-- The facts of the invariant about one process. -/
def Good (s : St) (p : Nat) : Pc → Prop
  | .running o => s.name = some o ∧ s.objs o = some p ∧ p ≠ 0
  | .created o | .sized o => s.name = some o ∧ Free s
  | .mapped o => s.name = some o ∨ s.name = none
  | .stale _ | .purged _ => Free s
  | _ => True

theorem Inv.good {s : St} (h : Inv s) (p : Nat) : Good s p (s.pc p) := by
  cases hc : s.pc p with
  | running o => exact h.run p o hc
  | created o => exact h.created p o hc
  | sized o => exact h.sized p o hc
  | mapped o => exact h.mapped p o hc
  | stale o => exact h.stale p o hc
  | purged o => exact h.purged p o hc
  | _ => trivial

theorem inv_of_good {s : St} (one : ∀ p q, Starting s p → Starting s q → p = q) (nz : s.pc 0 = .gone)
    (h : ∀ p, Good s p (s.pc p)) : Inv s := by
  refine ⟨one, ?_, ?_, ?_, ?_, ?_, ?_, nz⟩ <;>
  · intro p o hc
    have := h p
    rw [hc] at this
    exact this

/-- Another process than the one that starts up has the lock or takes no part. -/
theorem Inv.others {s : St} (h : Inv s) {p q : Nat} (hp : Starting s p) (hq : q ≠ p) :
    s.pc q = .gone ∨ s.pc q = .other ∨ ∃ o, s.pc q = .running o := by
  by_contra hc
  push Not at hc
  exact hq (h.one q p ⟨hc.1, hc.2.1, fun ⟨o, ho⟩ => hc.2.2 o ho⟩ hp)

/-- A step of the process that starts up. -/
theorem Inv.startup {s s' : St} {p : Nat} {c : Pc} (h : Inv s) (hp : Starting s p)
    (hpc : s'.pc = upd s.pc p c)
    (hrun : ∀ q o, s.pc q = .running o → s'.name = some o ∧ s'.objs o = some q)
    (hc : Good s' p c) : Inv s' := by
  have hp0 : p ≠ 0 := by rintro rfl; exact hp.1 h.nz
  refine inv_of_good ?_ (by rw [hpc, upd_ne _ _ hp0.symm]; exact h.nz) ?_
  · intro q r hq hr
    have key : ∀ q, Starting s' q → q = p := by
      intro q hq
      by_contra hne
      unfold Starting Running at hq
      rw [hpc, upd_ne _ _ hne] at hq
      exact hne (h.one q p hq hp)
    rw [key q hq, key r hr]
  · intro q
    by_cases hq : q = p
    · subst hq
      rw [hpc, upd_same]; exact hc
    · rw [hpc, upd_ne _ _ hq]
      rcases h.others hp hq with e | e | ⟨o, e⟩
      · rw [e]; trivial
      · rw [e]; trivial
      · rw [e]
        obtain ⟨h1, h2⟩ := hrun q o e
        exact ⟨h1, h2, (h.run q o e).2.2⟩

theorem free_upd {s s' : St} {p : Nat} {c : Pc} (hf : Free s) (hpc : s'.pc = upd s.pc p c)
    (hc : ∀ o, c ≠ .running o) : Free s' := by
  intro q o
  rw [hpc]
  by_cases hq : q = p
  · subst hq; rw [upd_same]; exact hc o
  · rw [upd_ne _ _ hq]; exact hf q o

theorem Inv.free_of_name {s : St} (h : Inv s) (hn : s.name = none) : Free s := by
  intro p o hc
  have := (h.run p o hc).1
  rw [hn] at this
  exact absurd this (by simp)

theorem create_inv {s : St} (h : Inv s) {p : Nat} (hp : Starting s p) {full : Pc}
    (hfull : full = .opening ∨ full = .gone) : Inv (create s p full) := by
  unfold create
  split
  · rename_i o ho
    exact h.startup hp rfl (fun q o' hq => ⟨(h.run q o' hq).1, (h.run q o' hq).2.1⟩)
      (by rcases hfull with rfl | rfl <;> trivial)
  · rename_i hn
    have hf := h.free_of_name hn
    exact h.startup hp rfl (fun q o hq => absurd hq (hf q o))
      ⟨rfl, free_upd hf rfl (by simp)⟩

/-- A process that has no part in a start-up goes away or the lock file is removed with its owner. -/
theorem Inv.leave {s s' : St} {p : Nat} (h : Inv s) (hpc : s'.pc = upd s.pc p .gone)
    (hobj : s'.objs = s.objs)
    (hname : s'.name = s.name ∨ (s'.name = none ∧ ∃ o, s.pc p = .running o)) : Inv s' := by
  have hst : ∀ q, Starting s' q → q ≠ p ∧ Starting s q := by
    intro q hq
    have hne : q ≠ p := by
      rintro rfl
      exact hq.1 (by rw [hpc, upd_same])
    unfold Starting Running at hq
    rw [hpc, upd_ne _ _ hne] at hq
    exact ⟨hne, hq⟩
  refine inv_of_good (fun q r hq hr => h.one q r (hst q hq).2 (hst r hr).2) ?_ ?_
  · rw [hpc]
    by_cases h0 : 0 = p
    · rw [← h0, upd_same]
    · rw [upd_ne _ _ h0]; exact h.nz
  · intro q
    by_cases hq : q = p
    · subst hq
      rw [hpc, upd_same]; trivial
    · rw [hpc, upd_ne _ _ hq]
      have hg := h.good q
      rcases hname with hn | ⟨hn, o, ho⟩
      · cases hc : s.pc q <;> rw [hc] at hg <;> simp only [Good, hn, hobj] at hg ⊢ <;>
          first | exact hg | exact ⟨hg.1, free_upd hg.2 hpc (by simp)⟩ | exact free_upd hg hpc (by simp)
      · cases hc : s.pc q with
        | running o' => exact absurd (h.unique ⟨o', hc⟩ ⟨o, ho⟩) hq
        | created o' => exact absurd ho ((h.created q o' hc).2 p o)
        | sized o' => exact absurd ho ((h.sized q o' hc).2 p o)
        | mapped o' => exact Or.inr hn
        | stale o' => exact absurd ho (h.stale q o' hc p o)
        | purged o' => exact absurd ho (h.purged q o' hc p o)
        | _ => trivial

/-- A process without part in the lock appears. -/
theorem Inv.arrive {s s' : St} {p : Nat} {c : Pc} (h : Inv s) (hp0 : p ≠ 0) (hgone : s.pc p = .gone)
    (hpc : s'.pc = upd s.pc p c) (hc : c = .other ∨ (c = .begin1 ∧ ∀ q, ¬ Starting s q))
    (hobj : s'.objs = s.objs) (hname : s'.name = s.name) : Inv s' := by
  have hfree : Free s → Free s' := fun hf => free_upd hf hpc (by rcases hc with rfl | ⟨rfl, _⟩ <;> simp)
  refine inv_of_good ?_ (by rw [hpc, upd_ne _ _ hp0.symm]; exact h.nz) ?_
  · have hst : ∀ q, q ≠ p → Starting s' q → Starting s q := by
      intro q hne hq
      unfold Starting Running at hq
      rw [hpc, upd_ne _ _ hne] at hq
      exact hq
    rcases hc with rfl | ⟨rfl, hno⟩
    · intro q r hq hr
      have key : ∀ q, Starting s' q → q ≠ p := by
        rintro q hq rfl
        exact hq.2.1 (by rw [hpc, upd_same])
      exact h.one q r (hst q (key q hq) hq) (hst r (key r hr) hr)
    · intro q r hq hr
      have key : ∀ q, Starting s' q → q = p := by
        intro q hq
        by_contra hne
        exact hno q (hst q hne hq)
      rw [key q hq, key r hr]
  · intro q
    by_cases hq : q = p
    · subst hq
      rw [hpc, upd_same]
      rcases hc with rfl | ⟨rfl, _⟩ <;> trivial
    · rw [hpc, upd_ne _ _ hq]
      have hg := h.good q
      cases hc : s.pc q <;> rw [hc] at hg <;> simp only [Good, hname, hobj] at hg ⊢ <;>
        first | exact hg | exact ⟨hg.1, hfree hg.2⟩ | exact hfree hg

theorem Inv.keep {s : St} (h : Inv s) : ∀ q o, s.pc q = .running o → s.name = some o ∧ s.objs o = some q :=
  fun q o hq => ⟨(h.run q o hq).1, (h.run q o hq).2.1⟩

theorem next_inv {s : St} (h : Inv s) (p : Nat) : Inv (next s p) := by
  have hst : s.pc p ≠ .gone → s.pc p ≠ .other → (∀ o, s.pc p ≠ .running o) → Starting s p :=
    fun h1 h2 h3 => ⟨h1, h2, fun ⟨o, ho⟩ => h3 o ho⟩
  unfold next
  cases hc : s.pc p with
  | gone => exact h
  | other => exact h
  | begin1 => exact create_inv h (hst (by simp [hc]) (by simp [hc]) (by simp [hc])) (Or.inl rfl)
  | begin2 => exact create_inv h (hst (by simp [hc]) (by simp [hc]) (by simp [hc])) (Or.inr rfl)
  | opening =>
    have hs := hst (by simp [hc]) (by simp [hc]) (by simp [hc])
    dsimp only
    split
    · exact h.startup hs rfl h.keep trivial
    · rename_i o ho
      exact h.startup hs rfl h.keep (Or.inl ho)
  | mapped o =>
    have hs := hst (by simp [hc]) (by simp [hc]) (by simp [hc])
    dsimp only
    split
    · exact h.startup hs rfl h.keep trivial
    · rename_i q hq
      split
      · exact h.startup hs rfl h.keep trivial
      · rename_i ha
        refine h.startup hs rfl h.keep (free_upd (s := s) ?_ rfl (by simp))
        intro r o' hr
        obtain ⟨h1, h2, h3⟩ := h.run r o' hr
        rcases h.mapped p o hc with hn | hn
        · rw [h1] at hn
          cases hn
          rw [hq] at h2
          cases h2
          exact ha (by simp [alive, hr])
        · rw [h1] at hn; exact absurd hn (by simp)
  | stale o =>
    have hs := hst (by simp [hc]) (by simp [hc]) (by simp [hc])
    exact h.startup hs rfl h.keep (free_upd (h.stale p o hc) rfl (by simp))
  | purged o =>
    have hs := hst (by simp [hc]) (by simp [hc]) (by simp [hc])
    have hf := h.purged p o hc
    dsimp only
    split
    · exact h.startup hs rfl h.keep trivial
    · exact h.startup hs rfl (fun q o' hq => absurd hq (hf q o')) trivial
  | created o =>
    have hs := hst (by simp [hc]) (by simp [hc]) (by simp [hc])
    obtain ⟨hn, hf⟩ := h.created p o hc
    exact h.startup hs rfl (fun q o' hq => absurd hq (hf q o')) ⟨hn, free_upd hf rfl (by simp)⟩
  | sized o =>
    have hs := hst (by simp [hc]) (by simp [hc]) (by simp [hc])
    obtain ⟨hn, hf⟩ := h.sized p o hc
    refine h.startup hs rfl (fun q o' hq => absurd hq (hf q o')) ⟨hn, upd_same _ _ _, ?_⟩
    rintro rfl
    rw [h.nz] at hc
    exact absurd hc (by simp)
  | running o =>
    dsimp only
    split
    · exact h.leave rfl rfl (Or.inl rfl)
    · exact h.leave rfl rfl (Or.inr ⟨rfl, o, hc⟩)

theorem good_ite (s : St) (p : Nat) (b : Bool) : Good s p (if b = true then .gone else .opening) := by
  cases b <;> trivial

theorem fail_inv {s : St} (h : Inv s) (p : Nat) (hno : s.pc p ≠ .opening) : Inv (fail s p) := by
  have hst : s.pc p ≠ .gone → s.pc p ≠ .other → (∀ o, s.pc p ≠ .running o) → Starting s p :=
    fun h1 h2 h3 => ⟨h1, h2, fun ⟨o, ho⟩ => h3 o ho⟩
  unfold fail
  cases hc : s.pc p with
  | opening => exact absurd hc hno
  | created o =>
    have hs := hst (by simp [hc]) (by simp [hc]) (by simp [hc])
    exact h.startup hs rfl h.keep (good_ite _ _ _)
  | sized o =>
    have hs := hst (by simp [hc]) (by simp [hc]) (by simp [hc])
    obtain ⟨hn, hf⟩ := h.sized p o hc
    exact h.startup hs rfl (fun q o' hq => absurd hq (hf q o')) (good_ite _ _ _)
  | _ => exact h

theorem step_inv {s : St} (h : Inv s) (a : Act) (h1 : ∀ p, a = .start p → ∀ q, ¬ Starting s q)
    (h2 : ∀ p, a = .fail p → s.pc p ≠ .opening) : Inv (step s a) := by
  cases a with
  | start p =>
    simp only [step]
    split
    · rename_i hp
      exact h.arrive hp.1 hp.2 rfl (Or.inr ⟨rfl, h1 p rfl⟩) rfl rfl
    · exact h
  | spawn p =>
    simp only [step]
    split
    · rename_i hp
      exact h.arrive hp.1 hp.2 rfl (Or.inl rfl) rfl rfl
    · exact h
  | next p => exact next_inv h p
  | fail p => exact fail_inv h p (h2 p rfl)
  | die p => exact h.leave rfl rfl (Or.inl rfl)

theorem run_inv {s : St} (h : Inv s) : ∀ acts, Apart s acts → Inv (run s acts) := by
  intro acts
  induction acts generalizing s with
  | nil => intro _; exact h
  | cons a acts ih =>
    intro ha
    exact ih (step_inv h a ha.1 ha.2.1) ha.2.2

/-- The lock file was created and never written by a process that died. -/
structure Orphan (s : St) (o : Nat) : Prop where
  name : s.name = some o
  bad : s.objs o = none ∨ s.objs o = some 0
  pcs : ∀ p, s.pc p = .gone ∨ s.pc p = .other ∨ s.pc p = .begin1 ∨ s.pc p = .opening ∨ s.pc p = .mapped o

theorem Orphan.upd {s s' : St} {o p : Nat} {c : Pc} (h : Orphan s o) (hn : s'.name = s.name)
    (ho : s'.objs = s.objs) (hpc : s'.pc = upd s.pc p c)
    (hc : c = .gone ∨ c = .other ∨ c = .begin1 ∨ c = .opening ∨ c = .mapped o) : Orphan s' o := by
  refine ⟨by rw [hn]; exact h.name, by rw [ho]; exact h.bad, fun q => ?_⟩
  rw [hpc]
  by_cases hq : q = p
  · subst hq; rw [upd_same]; exact hc
  · rw [upd_ne _ _ hq]; exact h.pcs q

theorem Orphan.step {s : St} {o : Nat} (h : Orphan s o) (a : Act) (ha : ∀ p, a ≠ .fail p) :
    Orphan (step s a) o := by
  cases a with
  | start p =>
    simp only [Lockfile.step]
    split
    · exact h.upd rfl rfl rfl (by simp)
    · exact h
  | spawn p =>
    simp only [Lockfile.step]
    split
    · exact h.upd rfl rfl rfl (by simp)
    · exact h
  | fail p => exact absurd rfl (ha p)
  | die p => exact h.upd rfl rfl rfl (by simp)
  | next p =>
    simp only [Lockfile.step]
    unfold next
    rcases h.pcs p with hc | hc | hc | hc | hc <;> rw [hc] <;> dsimp only
    · exact h
    · exact h
    · unfold create
      rw [h.name]
      exact h.upd h.name.symm rfl rfl (by simp)
    · rw [h.name]
      exact h.upd h.name.symm rfl rfl (by simp)
    · rcases h.bad with hb | hb
      · rw [hb]
        exact h.upd rfl rfl rfl (by simp)
      · rw [hb]
        exact h.upd (c := .gone) rfl rfl rfl (by simp)

theorem Orphan.run {s : St} {o : Nat} (h : Orphan s o) : ∀ acts, (∀ p, Act.fail p ∉ acts) →
    Orphan (run s acts) o := by
  intro acts
  induction acts generalizing s with
  | nil => intro _; exact h
  | cons a acts ih =>
    intro ha
    exact ih (h.step a (fun p e => ha p (by simp [e]))) (fun p hp => ha p (by simp [hp]))

theorem Orphan.not_running {s : St} {o : Nat} (h : Orphan s o) (p : Nat) : ¬ Running s p := by
  rintro ⟨o', ho⟩
  rcases h.pcs p with e | e | e | e | e <;> rw [e] at ho <;> exact absurd ho (by simp)

theorem run_append (s : St) (a b : List Act) : run s (a ++ b) = run (run s a) b := by
  simp [run, List.foldl_append]

end Ouro.Lockfile
