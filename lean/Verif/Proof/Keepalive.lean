import Verif.Spec.Keepalive
import Verif.Proof.Tac

/-!
# Keepalives: proofs
-/

namespace Ouro.Keepalive

theorem at_set_same (s : St) (x : Bool) (e : End) : (s.set x e).at x = e := by cases x <;> rfl
theorem at_set_other (s : St) (x : Bool) (e : End) : (s.set x e).at (!x) = s.at (!x) := by cases x <;> rfl
theorem at_set_other' (s : St) (x : Bool) (e : End) : (s.set (!x) e).at x = s.at x := by cases x <;> rfl

theorem at_set (s : St) (x y : Bool) (e : End) : (s.set x e).at y = if y = x then e else s.at y := by
  cases x <;> cases y <;> rfl

theorem put_sends (s : St) (x y : Bool) (now : Int) (r : Room) :
    ((put s x now r).at y).sends = if y = x ∧ r = .ok then now :: (s.at y).sends else (s.at y).sends := by
  cases x <;> cases y <;> cases r <;> rfl

theorem put_closed (s : St) (x y : Bool) (now : Int) (r : Room) : ((put s x now r).at y).closed = (s.at y).closed := by
  cases x <;> cases y <;> cases r <;> rfl

theorem put_rcvAct (s : St) (x y : Bool) (now : Int) (r : Room) : ((put s x now r).at y).rcvAct = (s.at y).rcvAct := by
  cases x <;> cases y <;> cases r <;> rfl

theorem put_sndAct (s : St) (x y : Bool) (now : Int) (r : Room) :
    ((put s x now r).at y).sndAct = if y = x ∧ r ≠ .nobuf then now else (s.at y).sndAct := by
  cases x <;> cases y <;> cases r <;> rfl

/-- The activity time of the receiving side is zero or the newest read. -/
theorem rcvAct_eq (timeo : Nat) (x : Bool) (h : List (Int × Ev)) :
    ((run timeo h).at x).rcvAct = (readTimes timeo x h).headD 0 := by
  induction h with
  | nil => cases x <;> rfl
  | cons p h ih =>
    obtain ⟨now, e⟩ := p
    cases e with
    | tick y r =>
      simp only [run, step, readTimes]
      split
      · exact ih
      · rw [at_set]; split
        · rename_i e; subst e; exact ih
        · exact ih
      · rw [put_rcvAct]; exact ih
    | write y r => simp only [run, step, readTimes, put_rcvAct]; exact ih
    | read y =>
      simp only [run, step, readTimes]
      by_cases e : y = x
      · subst e
        rcases hw : ((run timeo h).at y).wire with _ | ⟨a, w⟩
        · simp only [ne_eq, not_true_eq_false, and_false, if_false]; exact ih
        · simp [at_set_same]
      · simp only [e, false_and, if_false]
        split
        · exact ih
        · rw [at_set, if_neg (fun h => e h.symm)]; exact ih
    | lose y =>
      simp only [run, step, readTimes]
      rw [at_set]; split
      · rename_i e; subst e; exact ih
      · exact ih

theorem readTimes_mem {timeo : Nat} {x : Bool} {h : List (Int × Ev)} {r : Int} (hr : r ∈ readTimes timeo x h) :
    (r, Ev.read x) ∈ h := by
  induction h with
  | nil => cases hr
  | cons p h ih =>
    obtain ⟨now, e⟩ := p
    cases e with
    | read y =>
      simp only [readTimes] at hr
      split at hr
      · rename_i hy
        rcases List.mem_cons.mp hr with rfl | hr
        · rw [hy.1]; exact List.mem_cons_self
        · exact List.mem_cons_of_mem _ (ih hr)
      · exact List.mem_cons_of_mem _ (ih hr)
    | tick y q => exact List.mem_cons_of_mem _ (ih hr)
    | write y q => exact List.mem_cons_of_mem _ (ih hr)
    | lose y => exact List.mem_cons_of_mem _ (ih hr)

/-- The newest read is the latest. -/
theorem readTimes_le {timeo : Nat} {x : Bool} {h : List (Int × Ev)} (ho : Ordered h) {r : Int}
    (hr : r ∈ readTimes timeo x h) : r ≤ ((run timeo h).at x).rcvAct := by
  rw [rcvAct_eq]
  induction h with
  | nil => cases hr
  | cons p h ih =>
    obtain ⟨now, e⟩ := p
    have hle : ∀ r ∈ readTimes timeo x h, r ≤ now := fun r hr => ho.2.1 _ (readTimes_mem hr)
    cases e with
    | read y =>
      simp only [readTimes] at hr ⊢
      split at hr
      · rename_i hy
        rw [if_pos hy]
        simp only [List.headD_cons]
        rcases List.mem_cons.mp hr with rfl | hr
        · exact le_refl _
        · exact hle _ hr
      · rename_i hy
        rw [if_neg hy]
        exact ih ho.2.2 hr
    | tick y q => exact ih ho.2.2 hr
    | write y q => exact ih ho.2.2 hr
    | lose y => exact ih ho.2.2 hr

theorem sends_mono_step (timeo : Nat) (s : St) (now : Int) (e : Ev) (x : Bool) {t : Int} (ht : t ∈ (s.at x).sends) :
    t ∈ ((step timeo s now e).at x).sends := by
  have hp : ∀ y r, t ∈ ((put s y now r).at x).sends := by
    intro y r; rw [put_sends]; split
    · exact List.mem_cons_of_mem _ ht
    · exact ht
  cases e with
  | tick y r =>
    simp only [step]; split
    · exact ht
    · rw [at_set]; split
      · rename_i e; subst e; exact ht
      · exact ht
    · exact hp y r
  | write y r => exact hp y r
  | read y =>
    simp only [step]; split
    · exact ht
    · rw [at_set]; split
      · rename_i e; subst e; exact ht
      · exact ht
  | lose y =>
    simp only [step]; rw [at_set]; split
    · rename_i e; subst e; exact ht
    · exact ht

theorem sndAct_step_closed (timeo : Nat) (s : St) (now : Int) (e : Ev) (x : Bool) :
    (∀ y r, e ≠ .tick y r) → ((step timeo s now e).at x).closed = (s.at x).closed := by
  intro hn
  cases e with
  | tick y r => exact absurd rfl (hn y r)
  | write y r => exact put_closed s y x now r
  | read y =>
    simp only [step]; split
    · rfl
    · rw [at_set]; split
      · rename_i e; subst e; rfl
      · rfl
  | lose y =>
    simp only [step]; rw [at_set]; split
    · rename_i e; subst e; rfl
    · rfl

/-- With room in the rings, the sending activity time is zero or the time of a packet. -/
theorem sndAct_mem (timeo : Nat) (x : Bool) {h : List (Int × Ev)} (hr : Roomy h) :
    ((run timeo h).at x).sndAct = 0 ∨ ((run timeo h).at x).sndAct ∈ ((run timeo h).at x).sends := by
  induction h with
  | nil => cases x <;> exact Or.inl rfl
  | cons p h ih =>
    obtain ⟨now, e⟩ := p
    have ih := ih (fun q hq => hr q (List.mem_cons_of_mem _ hq))
    have hput : ∀ y r, r = Room.ok → ((put (run timeo h) y now r).at x).sndAct = 0 ∨
        ((put (run timeo h) y now r).at x).sndAct ∈ ((put (run timeo h) y now r).at x).sends := by
      rintro y r rfl
      rw [put_sndAct, put_sends]
      by_cases e : x = y
      · simp [e]
      · simp only [e, false_and, if_false]; exact ih
    cases e with
    | tick y r =>
      have := hr (now, .tick y r) (by simp) y r (Or.inl rfl)
      simp only [run, step]; split
      · exact ih
      · rw [at_set]; split
        · rename_i e; subst e; exact ih
        · exact ih
      · exact hput y r this
    | write y r => exact hput y r (hr (now, .write y r) (by simp) y r (Or.inr rfl))
    | read y =>
      simp only [run, step]; split
      · exact ih
      · rw [at_set]; split
        · rename_i e; subst e; exact ih
        · exact ih
    | lose y =>
      simp only [run, step]; rw [at_set]; split
      · rename_i e; subst e; exact ih
      · exact ih

/-- Closed ends stay closed. -/
theorem closed_mono_step (timeo : Nat) (s : St) (now : Int) (e : Ev) (x : Bool) (hc : (s.at x).closed = true) :
    ((step timeo s now e).at x).closed = true := by
  by_cases he : ∀ y r, e ≠ .tick y r
  · rw [sndAct_step_closed timeo s now e x he]; exact hc
  · push Not at he
    obtain ⟨y, r, rfl⟩ := he
    simp only [step]; split
    · exact hc
    · rw [at_set]; split <;> first | rfl | exact hc
    · rw [put_closed]; exact hc

theorem sends_le {timeo : Nat} {x : Bool} {h : List (Int × Ev)} {n : Int} (hn : ∀ p ∈ h, p.1 ≤ n) {e : Int}
    (he : e ∈ ((run timeo h).at x).sends) : e ≤ n := by
  induction h with
  | nil => cases x <;> cases he
  | cons p h ih =>
    obtain ⟨now, ev⟩ := p
    have ih := ih (fun q hq => hn q (List.mem_cons_of_mem _ hq))
    have hnow : now ≤ n := hn (now, ev) (by simp)
    have hput : ∀ y r, e ∈ ((put (run timeo h) y now r).at x).sends → e ≤ n := by
      intro y r h'
      rw [put_sends] at h'; split at h'
      · rcases List.mem_cons.mp h' with rfl | h'
        · exact hnow
        · exact ih h'
      · exact ih h'
    cases ev with
    | tick y r =>
      simp only [run, step] at he; split at he
      · exact ih he
      · rw [at_set] at he; split at he
        · rename_i e; subst e; exact ih he
        · exact ih he
      · exact hput y r he
    | write y r => exact hput y r he
    | read y =>
      simp only [run, step] at he; split at he
      · exact ih he
      · rw [at_set] at he; split at he
        · rename_i e; subst e; exact ih he
        · exact ih he
    | lose y =>
      simp only [run, step] at he; rw [at_set] at he; split at he
      · rename_i e; subst e; exact ih he
      · exact ih he

/-- A pass of the monitor of an end that stays open leaves a packet sent within the last quarter of the
timeout, unless less than a quarter has passed at all. -/
theorem tick_sent {timeo : Nat} (ht : timeo ≠ 0) {x : Bool} {h : List (Int × Ev)} (ho : Ordered h) (hr : Roomy h)
    (hopen : ((run timeo h).at x).closed = false) {m : Int} {r : Room} (hm : (m, Ev.tick x r) ∈ h) :
    m ≤ (timeo : Int) * 250000 ∨ ∃ e ∈ ((run timeo h).at x).sends, m - (timeo : Int) * 250000 ≤ e ∧ e ≤ m := by
  induction h with
  | nil => cases hm
  | cons p h ih =>
    obtain ⟨now, ev⟩ := p
    have hr' : Roomy h := fun q hq => hr q (List.mem_cons_of_mem _ hq)
    have hopen' : ((run timeo h).at x).closed = false := by
      by_contra hc
      simp only [Bool.not_eq_false] at hc
      have := closed_mono_step timeo (run timeo h) now ev x hc
      simp only [run] at hopen
      rw [this] at hopen; cases hopen
    rcases List.mem_cons.mp hm with e | hm
    · simp only [Prod.mk.injEq] at e
      obtain ⟨rfl, rfl⟩ := e
      have hrok : r = .ok := hr (m, .tick x r) (by simp) x r (Or.inl rfl)
      subst hrok
      simp only [run, step] at hopen ⊢
      rcases hk : keepalive timeo ((run timeo h).at x).closed ((run timeo h).at x).sndAct ((run timeo h).at x).rcvAct m
        with _ | _ | _
      · simp only []
        have : ¬ (m - ((run timeo h).at x).sndAct > (timeo : Int) * 250000) := by
          intro hgt
          unfold keepalive at hk
          rw [if_neg (by simp [ht, hopen'])] at hk
          split at hk
          · cases hk
          · cases hk
        rcases sndAct_mem timeo x hr' with h0 | hmem
        · left; rw [h0] at this; omega
        · right; exact ⟨_, hmem, by omega, sends_le ho.2.1 hmem⟩
      · rw [hk] at hopen
        simp only [at_set_same] at hopen; cases hopen
      · right
        have hpos : (0 : Int) ≤ (timeo : Int) * 250000 := by positivity
        refine ⟨m, ?_, by omega, le_refl _⟩
        simp only [put_sends, and_self, if_true]
        exact List.mem_cons_self
    · rcases ih ho.2.2 hr' hopen' hm with h1 | ⟨e, he, hle⟩
      · exact Or.inl h1
      · exact Or.inr ⟨e, sends_mono_step timeo _ now ev x he, hle⟩

/-- The pass of a healthy flow does not find the peer dead. -/
theorem tick_not_dead {timeo : Nat} (ht : timeo ≠ 0) {τ d : Int} (hτ : 0 ≤ τ) (hd : 0 ≤ d)
    (hsum : (timeo : Int) * 250000 + τ + d ≤ (timeo : Int) * 1000000) {x : Bool} {h : List (Int × Ev)}
    (ho : Ordered h) (hroom : Roomy h) {n : Int} (hreg : Regular h (!x) τ n)
    (hprompt : Prompt timeo h x d n) (hopen : ((run timeo h).at (!x)).closed = false) :
    n - ((run timeo h).at x).rcvAct ≤ (timeo : Int) * 1000000 := by
  by_cases hsmall : n ≤ (timeo : Int) * 1000000
  · have h0 : 0 ≤ ((run timeo h).at x).rcvAct := by
      rw [rcvAct_eq]
      rcases hl : readTimes timeo x h with _ | ⟨r, l⟩
      · exact le_refl _
      · have hm : (r, Ev.read x) ∈ h := readTimes_mem (by rw [hl]; exact List.mem_cons_self)
        have : ∀ (h : List (Int × Ev)), Ordered h → ∀ p ∈ h, 0 ≤ p.1 := by
          intro h
          induction h with
          | nil => intro _ _ hp; cases hp
          | cons q h ih =>
            intro ho p hp
            rcases List.mem_cons.mp hp with rfl | hp
            · exact ho.1
            · exact ih ho.2.2 p hp
        exact this h ho _ hm
    omega
  · obtain ⟨m, r, hm, hm1, hm2⟩ := hreg (n - d - τ) (by omega) (by omega)
    rcases tick_sent ht ho hroom hopen hm with h1 | ⟨e, he, hle, hle2⟩
    · omega
    · obtain ⟨r', hr', hle'⟩ := hprompt e he (by omega)
      have := readTimes_le ho hr'
      omega

theorem healthy_open {timeo : Nat} {τ d : Int} (hτ : 0 ≤ τ) (hd : 0 ≤ d)
    (hsum : (timeo : Int) * 250000 + τ + d ≤ (timeo : Int) * 1000000) {h : List (Int × Ev)}
    (ho : Ordered h) (hroom : Roomy h) (hh : Healthy timeo τ d h) :
    ∀ x, ((run timeo h).at x).closed = false ∧ ((run timeo h).at x).events = 0 := by
  induction h with
  | nil => intro x; cases x <;> exact ⟨rfl, rfl⟩
  | cons p h ih =>
    obtain ⟨now, ev⟩ := p
    have hroom' : Roomy h := fun q hq => hroom q (List.mem_cons_of_mem _ hq)
    have hput : ∀ y r x, ((put (run timeo h) y now r).at x).events = ((run timeo h).at x).events := by
      intro y r x; cases x <;> cases y <;> cases r <;> rfl
    cases ev with
    | tick y r =>
      have ih := ih ho.2.2 hroom' hh.2.2
      intro x
      simp only [run, step]
      rcases hk : keepalive timeo ((run timeo h).at y).closed ((run timeo h).at y).sndAct ((run timeo h).at y).rcvAct now
        with _ | _ | _
      · exact ih x
      · exfalso
        unfold keepalive at hk
        split at hk
        · cases hk
        · rename_i hne
          simp only [not_or] at hne
          have := tick_not_dead hne.1 hτ hd hsum ho.2.2 hroom' hh.1 hh.2.1 (ih (!y)).1
          rw [if_neg (by omega)] at hk
          split at hk <;> cases hk
      · simp only [put_closed, hput]; exact ih x
    | write y r =>
      intro x
      simp only [run, step, put_closed, hput]; exact ih ho.2.2 hroom' hh x
    | read y =>
      have ih := ih ho.2.2 hroom' hh
      intro x
      simp only [run, step]; split
      · exact ih x
      · rw [at_set]; split
        · rename_i e; subst e; exact ih x
        · exact ih x
    | lose y =>
      have ih := ih ho.2.2 hroom' hh
      intro x
      simp only [run, step]; rw [at_set]; split
      · rename_i e; subst e; exact ih x
      · exact ih x

theorem sends_le_sndAct {timeo : Nat} {x : Bool} {h : List (Int × Ev)} (ho : Ordered h) {e : Int}
    (he : e ∈ ((run timeo h).at x).sends) : e ≤ ((run timeo h).at x).sndAct := by
  induction h with
  | nil => cases x <;> cases he
  | cons p h ih =>
    obtain ⟨now, ev⟩ := p
    have ih := ih ho.2.2
    have hput : ∀ y r, e ∈ ((put (run timeo h) y now r).at x).sends → e ≤ ((put (run timeo h) y now r).at x).sndAct := by
      intro y r h'
      rw [put_sends] at h'
      rw [put_sndAct]
      split at h'
      · rename_i hc
        rw [if_pos ⟨hc.1, by rw [hc.2]; decide⟩]
        rcases List.mem_cons.mp h' with rfl | h'
        · exact le_refl _
        · exact sends_le ho.2.1 h'
      · split
        · exact sends_le ho.2.1 h'
        · exact ih h'
    cases ev with
    | tick y r =>
      simp only [run, step] at he ⊢
      rcases hk : keepalive timeo ((run timeo h).at y).closed ((run timeo h).at y).sndAct ((run timeo h).at y).rcvAct now
        with _ | _ | _
      · rw [hk] at he; exact ih he
      · rw [hk] at he
        simp only [at_set] at he ⊢
        split at he
        · rename_i e'; subst e'; simp only [if_true]; exact ih he
        · rename_i e'; simp only [e', if_false]; exact ih he
      · rw [hk] at he; exact hput y r he
    | write y r => exact hput y r he
    | read y =>
      simp only [run, step] at he ⊢
      rcases hw : ((run timeo h).at y).wire with _ | ⟨a, w⟩
      · rw [hw] at he; exact ih he
      · rw [hw] at he
        simp only [at_set] at he ⊢
        split at he
        · rename_i e'; subst e'; simp only [if_true]; exact ih he
        · rename_i e'; simp only [e', if_false]; exact ih he
    | lose y =>
      simp only [run, step] at he ⊢
      simp only [at_set] at he ⊢
      split at he
      · rename_i e'; subst e'; simp only [if_true]; exact ih he
      · rename_i e'; simp only [e', if_false]; exact ih he

theorem rcvAct_le {timeo : Nat} {x : Bool} {h : List (Int × Ev)} {q : Int} (hq : 0 ≤ q)
    (hr : ∀ r ∈ readTimes timeo x h, r ≤ q) : ((run timeo h).at x).rcvAct ≤ q := by
  rw [rcvAct_eq]
  rcases hl : readTimes timeo x h with _ | ⟨r, l⟩
  · exact hq
  · exact hr r (by rw [hl]; exact List.mem_cons_self)

/-! ### Checks for concrete histories -/

/-- The times of the monitor's passes, oldest first. -/
def tickTimes (x : Bool) (h : List (Int × Ev)) : List Int :=
  h.reverse.filterMap (fun p => match p.2 with
    | .tick y _ => if y = x then some p.1 else none
    | _ => none)

/-- From `cur` on, every window of length `τ` up to `n` has a time of the list in it. -/
def cover (τ n cur : Int) : List Int → Bool
  | [] => decide (n < cur + τ)
  | m :: ms => decide (n < cur + τ) || (decide (m ≤ cur + τ) && cover τ n (max cur (m + 1)) ms)

theorem cover_sound {τ n cur : Int} {ms : List Int} (h : cover τ n cur ms = true) :
    ∀ t, cur ≤ t → t + τ ≤ n → ∃ m ∈ ms, t ≤ m ∧ m ≤ t + τ := by
  induction ms generalizing cur with
  | nil =>
    intro t h1 h2
    simp only [cover, decide_eq_true_eq] at h
    omega
  | cons m ms ih =>
    intro t h1 h2
    simp only [cover, Bool.or_eq_true, Bool.and_eq_true, decide_eq_true_eq] at h
    rcases h with h | ⟨h3, h4⟩
    · omega
    · by_cases ht : t ≤ m
      · exact ⟨m, by simp, ht, by omega⟩
      · obtain ⟨m', hm', hh⟩ := ih h4 t (by omega) h2
        exact ⟨m', List.mem_cons_of_mem _ hm', hh⟩

theorem tickTimes_mem {x : Bool} {h : List (Int × Ev)} {m : Int} (hm : m ∈ tickTimes x h) :
    ∃ r, (m, Ev.tick x r) ∈ h := by
  unfold tickTimes at hm
  simp only [List.mem_filterMap, List.mem_reverse] at hm
  obtain ⟨⟨n, ev⟩, h1, h2⟩ := hm
  cases ev with
  | tick y r =>
    simp only [Option.ite_none_right_eq_some, Option.some.injEq] at h2
    obtain ⟨rfl, rfl⟩ := h2
    exact ⟨r, h1⟩
  | write y r => cases h2
  | read y => cases h2
  | lose y => cases h2

/-- `Healthy`, checked. -/
def healthyB (timeo : Nat) (τ d : Int) : List (Int × Ev) → Bool
  | [] => true
  | (n, .tick x _) :: h => cover τ n 0 (tickTimes (!x) h) &&
      ((run timeo h).at (!x)).sends.all (fun e => decide (n < e + d) || (readTimes timeo x h).any (fun r => decide (e ≤ r))) &&
      healthyB timeo τ d h
  | _ :: h => healthyB timeo τ d h

theorem healthyB_sound {timeo : Nat} {τ d : Int} {h : List (Int × Ev)} (hb : healthyB timeo τ d h = true) :
    Healthy timeo τ d h := by
  induction h with
  | nil => trivial
  | cons p h ih =>
    obtain ⟨n, ev⟩ := p
    cases ev with
    | tick x r =>
      simp only [healthyB, Bool.and_eq_true] at hb
      refine ⟨?_, ?_, ih hb.2⟩
      · intro t h0 h1
        obtain ⟨m, hm, hh⟩ := cover_sound hb.1.1 t h0 h1
        obtain ⟨r', hr'⟩ := tickTimes_mem hm
        exact ⟨m, r', hr', hh⟩
      · intro e he hed
        have := List.all_eq_true.mp hb.1.2 e he
        simp only [Bool.or_eq_true, decide_eq_true_eq, List.any_eq_true] at this
        rcases this with h1 | ⟨r', h1, h2⟩
        · omega
        · exact ⟨r', h1, h2⟩
    | write x r => exact ih hb
    | read x => exact ih hb
    | lose x => exact ih hb

instance decOrdered : (h : List (Int × Ev)) → Decidable (Ordered h)
  | [] => .isTrue trivial
  | (now, _) :: h => by
    haveI := decOrdered h
    exact inferInstanceAs (Decidable (0 ≤ now ∧ (∀ p ∈ h, p.1 ≤ now) ∧ Ordered h))

/-- `Roomy`, checked. -/
def roomyB (h : List (Int × Ev)) : Bool := h.all (fun p => match p.2 with
  | .tick _ r => decide (r = .ok)
  | .write _ r => decide (r = .ok)
  | _ => true)

theorem roomyB_sound {h : List (Int × Ev)} (hb : roomyB h = true) : Roomy h := by
  intro p hp x r he
  have := List.all_eq_true.mp hb p hp
  rcases he with he | he <;> rw [he] at this <;> simpa using this

end Ouro.Keepalive
