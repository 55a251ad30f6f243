import Verif.Proof.IrmdAns

/-!
# A request comes in once; executions on concrete inputs
-/

namespace Ouro.IrmdFlow

open Ouro.Registry Spec.FiniteMap Spec.IrmdFlow

theorem act_same {e : Env} {s s' : Sys} {a : Act} (hi : Inv e s) (hs : ∀ t c d, Ev.started t c ∈ s.log → Ev.started t d ∈ s.log → c = d)
    (hp : polite s a = true) (h : act e s a = .ok s') : ∀ t c d, Ev.started t c ∈ s'.log → Ev.started t d ∈ s'.log → c = d := by
  obtain ⟨_, heff⟩ := act_eff hi.own hp h
  generalize actor a = who at heff
  cases heff with
  | table _ hl _ => rw [hl]; exact hs
  | thread v evs p' _ hl hk _ =>
    intro t c d hc hd
    rw [hl] at hc hd
    rcases hk.kind with ⟨cmd, evs', h0, rfl, hn, _⟩ | ⟨_, hn, _⟩
    · have aux : ∀ x, Ev.started t x ∈ s.log ++ .started v cmd :: evs' → Ev.started t x ∈ s.log ∨ (t = v ∧ x = cmd) := by
        intro x hx
        rcases List.mem_append.mp hx with hx | hx
        · exact .inl hx
        · rcases List.mem_cons.mp hx with hx | hx
          · cases hx; exact .inr ⟨rfl, rfl⟩
          · exact absurd hx (hn t x)
      rcases aux c hc with h1 | ⟨h1, h2⟩ <;> rcases aux d hd with h3 | ⟨h3, h4⟩
      · exact hs t c d h1 h3
      · exact absurd h1 (hi.idle _ (h3 ▸ h0) c)
      · exact absurd h3 (hi.idle _ (h1 ▸ h0) d)
      · rw [h2, h4]
    · have aux : ∀ x, Ev.started t x ∈ s.log ++ evs → Ev.started t x ∈ s.log := by
        intro x hx
        rcases List.mem_append.mp hx with hx | hx
        · exact hx
        · exact absurd hx (hn t x)
      exact hs t c d (aux c hc) (aux d hd)

theorem runFrom_same {e : Env} {al : Sys → Act → Bool} (hal : ∀ s a, al s a = true → polite s a = true) {l : List Act} :
    ∀ {s s' : Sys}, Inv e s → (∀ t c d, Ev.started t c ∈ s.log → Ev.started t d ∈ s.log → c = d) → runFrom e al s l = .ok s' →
      ∀ t c d, Ev.started t c ∈ s'.log → Ev.started t d ∈ s'.log → c = d := by
  induction l with
  | nil => intro s s' _ hs h; cases Outcome.ok.inj h; exact hs
  | cons a l ih =>
    intro s s' hi hs h
    unfold runFrom at h
    split at h
    · rename_i hp
      obtain ⟨s1, h1, h⟩ := bind_eq_ok.mp h
      exact ih (act_inv hi (hal s a hp) h1) (act_same hi hs (hal s a hp) h1) h
    · cases h

theorem run_same {e : Env} {al : Sys → Act → Bool} (hal : ∀ s a, al s a = true → polite s a = true) {l : List Act} {s : Sys}
    (h : run e al l = .ok s) : ∀ t c d, Ev.started t c ∈ s.log → Ev.started t d ∈ s.log → c = d := by
  unfold run at h
  obtain ⟨s0, h0, h⟩ := bind_eq_ok.mp h
  refine runFrom_same hal (init_inv h0) ?_ h
  unfold init at h0
  obtain ⟨r, hr, h0⟩ := bind_eq_ok.mp h0
  cases Outcome.ok.inj h0
  intro t c d hm
  cases hm

/-! ## Executions on concrete inputs -/

/-- All requests that came in are done. -/
def settled (s : Sys) : Bool := s.log.all (fun v => match v with | .started t _ => s.pc t == .done | _ => true)

theorem settled_quiescent {e : Env} {s : Sys} (hi : Inv e s) (h : settled s = true) : Quiescent s := by
  intro t
  by_cases hp : s.pc t = .idle
  · exact .inl hp
  · obtain ⟨c, hc⟩ := hi.busy t hp
    have := List.all_eq_true.mp h _ hc
    simp at this
    exact .inr this

/-- An execution without a failure whose result passes a test. -/
def check (e : Env) (al : Sys → Act → Bool) (l : List Act) (f : Sys → Bool) : Bool :=
  match run e al l with
  | .ok s => f s
  | .ub => false

theorem check_ex {e : Env} {al : Sys → Act → Bool} {l : List Act} {f : Sys → Bool} (h : check e al l f = true) :
    ∃ s, run e al l = .ok s ∧ f s = true := by
  unfold check at h
  cases hr : run e al l with
  | ok s => rw [hr] at h; exact ⟨s, rfl, h⟩
  | ub => rw [hr] at h; cases h

theorem check_prop {e : Env} {al : Sys → Act → Bool} {l : List Act} {P : Sys → Prop} [DecidablePred P] (h : check e al l (fun s => decide (P s)) = true) :
    ∃ s, run e al l = .ok s ∧ P s := by
  obtain ⟨s, h1, h2⟩ := check_ex h
  exact ⟨s, h1, of_decide_eq_true h2⟩

/-- An execution that fails. -/
def fails (e : Env) (al : Sys → Act → Bool) (l : List Act) : Bool :=
  match run e al l with
  | .ok _ => false
  | .ub => true

theorem fails_ub {e : Env} {al : Sys → Act → Bool} {l : List Act} (h : fails e al l = true) : run e al l = .ub := by
  unfold fails at h
  cases hr : run e al l with
  | ok s => rw [hr] at h; cases h
  | ub => rfl

end Ouro.IrmdFlow
