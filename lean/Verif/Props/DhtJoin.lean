import Verif.Proof.DhtJoin

/-!
# C66: joining a directory
-/

namespace Ouro.DhtJoin

/-- **C66, success.** A member runs only if another member accepted it; an attempt succeeds only if its response accepted. In every interleaving. -/
theorem C66_success {s : Sys} (h : Reach Any s) :
    (s.running = true → ∃ a ∈ s.atts, a.accepted = true) ∧ ∀ a ∈ s.atts, a.w = .returned true → a.accepted = true :=
  ⟨(sound_reach h).2, fun a ha => ((sound_reach h).1 a ha).1⟩

/-- **C66, timely responses.** If responses arrive while the member waits for them, no thread touches memory that was freed, ... -/
theorem C66_safe_partial {s : Sys} (h : Reach Timely s) (x : Act) (hx : Timely s x) : ∃ s', act s x = .ok s' := by
  have F := fine_reach h
  cases x with
  | «at» i op =>
    simp only [act]
    split
    · rename_i a ha
      obtain ⟨a', h1, -⟩ := good_step (F.good a (List.mem_of_getElem? ha)) (att_timely hx ha)
      exact ⟨_, by rw [h1]⟩
    · exact ⟨_, rfl⟩
  | retry => simp only [act]; split <;> [split; skip] <;> exact ⟨_, rfl⟩
  | run => simp only [act]; split <;> [split; skip] <;> exact ⟨_, rfl⟩

/-- ... an attempt that was accepted does not fail, so that there is at most one, one worker is started, and it is the last attempt, ... -/
theorem C66_once_partial {s : Sys} (h : Reach Timely s) :
    (∀ a ∈ s.atts, a.w = .returned false → a.accepted = false) ∧ workers s ≤ 1 ∧ (s.running = true → workers s = 1) ∧
      ∀ a ∈ s.atts.dropLast, a.accepted = false := by
  have F := fine_reach h
  have old : ∀ a ∈ s.atts.dropLast, a.accepted = false := fun a ha => (F.good a ((List.dropLast_sublist _).subset ha)).2.1 (F.old a ha)
  have le : workers s ≤ 1 := by
    obtain ⟨l, a, hl⟩ : ∃ l a, s.atts = l ++ [a] := ⟨_, _, (List.dropLast_concat_getLast F.ne).symm⟩
    rw [hl, List.dropLast_concat] at old
    simp only [workers]
    rw [hl, List.countP_append, List.countP_eq_zero.mpr (by simpa using old)]
    exact (Nat.zero_add _).le.trans List.countP_le_length
  refine ⟨fun a ha => (F.good a ha).2.1, le, fun hr => ?_, old⟩
  obtain ⟨a, ha, hacc⟩ := (sound_reach h).2 hr
  have : 0 < workers s := List.countP_pos_iff.mpr ⟨a, ha, hacc⟩
  omega

/-- ... and no thread waits for ever to release a request: it can, or it can after the joining thread has looked at the state. -/
theorem C66_released_partial {s : Sys} (h : Reach Timely s) {a : Att} (ha : a ∈ s.atts) (hd : a.h = .destroying) :
    (∃ a', step a .reap = .ok a' ∧ a'.h = .freed) ∨ (∃ a' a'', step a .wake = .ok a' ∧ step a' .reap = .ok a'' ∧ a''.h = .freed) :=
  reap_all a ((fine_reach h).good a ha) hd

/-- **C66, join.** A response that accepts and arrives while the member waits makes the attempt succeed: from the moment it is taken the joining thread
waits or has succeeded, whatever the order of the threads, ... -/
theorem C66_accept_partial {s : Sys} (h : Reach Timely s) {a : Att} (ha : a ∈ s.atts) (ht : a.h = .taken true) (l : List Op) (hl : TimelySteps a l) :
    ∃ a', steps a l = .ok a' ∧ (a'.w = .waiting ∨ a'.w = .returned true) := by
  have key : ∀ (l : List Op) (a : Att), Good a → (a.h = .taken true ∨ a.accepted = true) → TimelySteps a l →
      ∃ a', steps a l = .ok a' ∧ (a'.w = .waiting ∨ a'.w = .returned true) := by
    intro l
    induction l with
    | nil =>
      intro a G J _
      refine ⟨a, rfl, ?_⟩
      obtain ⟨-, g1, g2, g3, -, g5, -⟩ := G
      have hb : a.w = .waiting ∨ a.w.back = true := g3 (fun e => by rcases J with h | h <;> simp_all)
      rcases hb with h | h
      · exact .inl h
      · right
        cases hw : a.w with
        | returned b => cases b with
          | true => rfl
          | false =>
            have := g1 hw
            rcases J with h | h
            · have g := g5 (.inr h); rw [this] at g; rw [hw] at g; cases g.1
            · rw [this] at h; cases h
        | _ => rw [hw] at h; cases h
    | cons op l ih =>
      intro a G J hl
      obtain ⟨a', h1, G'⟩ := good_step G hl.1
      obtain ⟨b, hb, hc⟩ := ih a' G' (taken_step J h1) (hl.2 a' h1)
      exact ⟨b, by simp only [steps, h1, hb], hc⟩
  exact key l a ((fine_reach h).good a ha) (.inl ht) hl

/-- ... and once it was accepted its next look is a success. -/
theorem C66_join_partial {s : Sys} (h : Reach Timely s) {a : Att} (ha : a ∈ s.atts) (hacc : a.accepted = true) :
    a.w = .returned true ∨ (a.w = .waiting ∧ ∃ a', step a .wake = .ok a' ∧ a'.w = .returned true) := by
  have G := (fine_reach h).good a ha
  obtain ⟨st, w, hh, acc⟩ := a
  dsimp only at hacc
  subst hacc
  obtain ⟨⟨-, -, gw, -, -⟩, g1, g2, g3, g4, g5, g6, g7, g8⟩ := G
  dsimp only at *
  have hw : w = .waiting ∨ w.back = true := g3 (by rintro rfl; simp at g2)
  rcases hw with rfl | hw
  · refine .inr ⟨rfl, ?_⟩
    have hf : hh ≠ .freed := fun e => by simpa [WPc.back] using g7 e
    rcases gw rfl with rfl | rfl | ⟨rfl, -⟩
    · exfalso
      cases hh with
      | idle => simp at g2
      | freed => exact hf rfl
      | destroying => have := g6 rfl; simp [WPc.back] at this
      | taken b => cases b <;> simp at g5
    · refine ⟨_, by simp only [step, if_neg hf]; rfl, rfl⟩
    · simp at g8
  · left
    cases w with
    | returned b => cases b with
      | true => rfl
      | false => simp at g1
    | _ => simp [WPc.back] at hw

/-! ## Witnesses -/

/-- Runs actions, checking the condition before each. -/
def play (ok : Sys → Act → Bool) (s : Sys) : List Act → Option Sys
  | [] => some s
  | x :: xs => if ok s x then (match act s x with | .ok s' => play ok s' xs | .ub => none) else none

theorem play_reach {ok : Sys → Act → Prop} {okb : Sys → Act → Bool} (hok : ∀ s x, okb s x = true → ok s x) :
    ∀ {xs : List Act} {s s' : Sys}, Reach ok s → play okb s xs = some s' → Reach ok s'
  | [], s, s', h, hp => by simp only [play, Option.some.injEq] at hp; exact hp ▸ h
  | x :: xs, s, s', h, hp => by
    simp only [play] at hp
    split at hp
    · rename_i ho
      split at hp
      · rename_i s1 h1
        exact play_reach hok (.step h (hok s x ho) h1) hp
      · cases hp
    · cases hp

/-- `Timely`, as a test. -/
def timelyB (s : Sys) : Act → Bool
  | .at i (.take _) => match s.atts[i]? with
    | some a => a.w == .waiting
    | none => true
  | .at i .timeout => match s.atts[i]? with
    | some a => a.h == .idle
    | none => true
  | _ => true

theorem timelyB_ok (s : Sys) (x : Act) (h : timelyB s x = true) : Timely s x := by
  cases x with
  | «at» i op =>
    cases op <;> first
      | trivial
      | (intro a ha; simp only [timelyB, ha, beq_iff_eq] at h; exact h)
  | _ => trivial

/-- The run is possible and its end satisfies `p`. -/
def check (ok : Sys → Act → Bool) (xs : List Act) (p : Sys → Bool) : Bool := match play ok start xs with
  | some s => p s
  | none => false

theorem check_reach {ok : Sys → Act → Prop} {okb : Sys → Act → Bool} (hok : ∀ s x, okb s x = true → ok s x) {xs : List Act} {p : Sys → Bool}
    (h : check okb xs p = true) : ∃ s, Reach ok s ∧ p s = true := by
  simp only [check] at h
  split at h
  · rename_i s hs; exact ⟨s, play_reach hok .start hs, h⟩
  · cases h

/-- A refused attempt, then an accepted one. -/
def good : List Act :=
  [.at 0 .list, .at 0 .find, .at 0 .enter, .at 0 (.take false), .at 0 .destroy, .at 0 .wake, .at 0 .reap, .retry,
    .at 1 .list, .at 1 .find, .at 1 .enter, .at 1 (.take true), .at 1 .respond, .at 1 .destroy]

example : ∃ s, Reach Timely s ∧ (s.atts == [⟨.null, .returned false, .freed, false⟩, ⟨.response, .waiting, .destroying, true⟩]) = true :=
  check_reach timelyB_ok (xs := good) (by decide +kernel)

example : ∃ s, Reach Timely s ∧ (s.atts == [⟨.null, .returned false, .freed, false⟩, ⟨.pending, .waiting, .taken true, false⟩]) = true :=
  check_reach timelyB_ok (xs := good.take 12) (by decide +kernel)

example : TimelySteps ⟨.pending, .waiting, .taken true, false⟩ [.wake, .respond, .destroy, .wake, .reap] :=
  ⟨trivial, fun _ _ => ⟨trivial, fun _ _ => ⟨trivial, fun _ _ => ⟨trivial, fun _ _ => ⟨trivial, fun _ _ => trivial⟩⟩⟩⟩⟩

example : ∃ s, Reach Timely s ∧ (s.running && s.atts == [⟨.null, .returned false, .freed, false⟩, ⟨.done, .returned true, .freed, true⟩]) = true :=
  check_reach timelyB_ok (xs := good ++ [.at 1 .wake, .at 1 .reap, .run]) (by decide +kernel)

/-- Any action, as a test. -/
def anyB (_ : Sys) (_ : Act) : Bool := true

theorem anyB_ok (s : Sys) (x : Act) (_ : anyB s x = true) : Any s x := trivial

/-! ## What goes wrong -/

/-- The state of a request whose response was handled when nobody waited for it. -/
theorem stuck {a : Att} (h : a.st = .response ∧ a.w.back = true ∧ a.h = .destroying) : ∀ (l : List Op) (a' : Att), steps a l = .ok a' → a'.h = .destroying := by
  intro l
  induction l generalizing a with
  | nil => intro a' h'; simp only [steps, Outcome.ok.injEq] at h'; exact h' ▸ h.2.2
  | cons op l ih =>
    intro a' h'
    simp only [steps] at h'
    split at h'
    · rename_i b hb
      refine ih (a := b) ?_ a' h'
      have := all_att (P := fun a op => !decide (a.st = .response ∧ a.w.back = true ∧ a.h = .destroying) ||
        okAnd (step a op) (fun a' => decide (a'.st = .response ∧ a'.w.back = true ∧ a'.h = .destroying))) (by decide +kernel) a op
      rw [hb, decide_eq_true h] at this
      exact of_decide_eq_true this
    · cases h'

/-- **C66 fails for quick responses.** The response is handled before the joining thread looks for its request: the attempt fails although it was
accepted, a worker runs, and the thread that handled the response never gets away, whatever happens afterwards. -/
theorem C66_quick_violated : ∃ s, Reach Any s ∧ ∃ a ∈ s.atts, a.w = .returned false ∧ a.accepted = true ∧
    ∀ (l : List Op) (a' : Att), steps a l = .ok a' → a'.h = .destroying := by
  obtain ⟨s, h1, h2⟩ := check_reach anyB_ok (p := fun s => s.atts == [⟨.response, .returned false, .destroying, true⟩])
    (xs := [.at 0 .list, .at 0 (.take true), .at 0 .respond, .at 0 .destroy, .at 0 .find]) (by decide +kernel)
  simp only [beq_iff_eq] at h2
  exact ⟨s, h1, _, by rw [h2]; exact List.mem_singleton.mpr rfl, rfl, rfl, stuck ⟨rfl, rfl, rfl⟩⟩

/-- **C66 fails for responses between looking and waiting.** The mark of the response is overwritten: the member waits 8 seconds and fails although it was
accepted. -/
theorem C66_overwritten_violated : ∃ s, Reach Any s ∧ ∃ a ∈ s.atts, a.accepted = true ∧ a.w = .waiting ∧ a.st = .pending ∧
    (∀ op, op ≠ .timeout → ∃ a', step a op = .ok a' ∧ a'.w = .waiting ∧ (a'.st = .pending ∨ (a'.st = .destroy ∧ op = .destroy))) ∧
    ∃ a', step a .timeout = .ok a' ∧ a'.w = .returned false := by
  obtain ⟨s, h1, h2⟩ := check_reach anyB_ok (p := fun s => s.atts == [⟨.pending, .waiting, .taken true, true⟩])
    (xs := [.at 0 .list, .at 0 .find, .at 0 (.take true), .at 0 .respond, .at 0 .enter]) (by decide +kernel)
  simp only [beq_iff_eq] at h2
  refine ⟨s, h1, _, by rw [h2]; exact List.mem_singleton.mpr rfl, rfl, rfl, rfl, fun op hop => ?_, _, rfl, rfl⟩
  cases op <;> first
    | exact absurd rfl hop
    | exact ⟨_, rfl, rfl, .inl rfl⟩
    | exact ⟨_, rfl, rfl, .inr ⟨rfl, rfl⟩⟩

/-- **C66 fails for responses that come when the time is just up.** The attempt fails although it was accepted, and the handling thread never gets away. -/
theorem C66_late_violated : ∃ s, Reach Any s ∧ ∃ a ∈ s.atts, a.w = .returned false ∧ a.accepted = true ∧
    ∀ (l : List Op) (a' : Att), steps a l = .ok a' → a'.h = .destroying := by
  obtain ⟨s, h1, h2⟩ := check_reach anyB_ok (p := fun s => s.atts == [⟨.response, .returned false, .destroying, true⟩])
    (xs := [.at 0 .list, .at 0 .find, .at 0 .enter, .at 0 (.take true), .at 0 .timeout, .at 0 .respond, .at 0 .destroy]) (by decide +kernel)
  simp only [beq_iff_eq] at h2
  exact ⟨s, h1, _, by rw [h2]; exact List.mem_singleton.mpr rfl, rfl, rfl, stuck ⟨rfl, rfl, rfl⟩⟩

/-- The consequence: a member that runs has as many workers as attempts were accepted, here nine. -/
theorem C66_workers_violated : ∃ s, Reach Any s ∧ s.running = true ∧ workers s = 9 := by
  obtain ⟨s, h1, h2⟩ := check_reach anyB_ok (p := fun s => s.running && workers s == 9)
    (xs := ((List.range 8).flatMap fun i => [.at i .list, .at i (.take true), .at i .respond, .at i .find, .retry]) ++
      [.at 8 .list, .at 8 .find, .at 8 .enter, .at 8 (.take true), .at 8 .respond, .at 8 .wake, .run]) (by decide +kernel)
  simp only [Bool.and_eq_true, beq_iff_eq] at h2
  exact ⟨s, h1, h2.1, h2.2⟩

/-- **C66 fails for refusals between looking and waiting.** The request is freed and then waited on. -/
theorem C66_freed_violated : ∃ s, Reach Any s ∧ act s (.at 0 .enter) = .ub := by
  obtain ⟨s, h1, h2⟩ := check_reach anyB_ok (p := fun s => s.atts == [⟨.null, .found, .freed, false⟩])
    (xs := [.at 0 .list, .at 0 .find, .at 0 (.take false), .at 0 .destroy, .at 0 .reap]) (by decide +kernel)
  simp only [beq_iff_eq] at h2
  refine ⟨s, h1, ?_⟩
  simp only [act, h2]
  rfl

end Ouro.DhtJoin
