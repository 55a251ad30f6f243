import Verif.Spec.DhtJoin
import Verif.Proof.Tac

namespace Ouro.DhtJoin

/-! An attempt has finitely many states. -/

/-- All values. -/
def sts : List RSt := [.null, .init, .pending, .response, .done, .destroy]
/-- All values. -/
def ws : List WPc := [.sent, .listed, .found, .waiting, .returned true, .returned false]
/-- All values. -/
def hs : List HPc := [.idle, .taken true, .taken false, .destroying, .freed]
/-- All values. -/
def ops : List Op := [.list, .find, .enter, .wake, .timeout, .take true, .take false, .respond, .destroy, .reap]

theorem all_att {P : Att → Op → Bool}
    (h : (sts.all fun st => ws.all fun w => hs.all fun x => [true, false].all fun b => ops.all fun op => P ⟨st, w, x, b⟩ op) = true) (a : Att) (op : Op) :
    P a op = true := by
  obtain ⟨st, w, x, b⟩ := a
  have h1 : st ∈ sts := by cases st <;> decide
  have h2 : w ∈ ws := by cases w <;> first | decide | (rename_i b; cases b <;> decide)
  have h3 : x ∈ hs := by cases x <;> first | decide | (rename_i b; cases b <;> decide)
  have h4 : b ∈ [true, false] := by cases b <;> decide
  have h5 : op ∈ ops := by cases op <;> first | decide | (rename_i b; cases b <;> decide)
  exact List.all_eq_true.mp (List.all_eq_true.mp (List.all_eq_true.mp (List.all_eq_true.mp (List.all_eq_true.mp h st h1) w h2) x h3) b h4) op h5

/-- The thread is back. -/
def WPc.back : WPc → Bool
  | .returned _ => true
  | _ => false

/-- What holds of an attempt always: success only after acceptance. -/
abbrev Sound (a : Att) : Prop :=
  (a.w = .returned true → a.accepted = true) ∧ (a.st = .response → a.accepted = true) ∧
    (a.w = .waiting → a.st = .pending ∨ a.st = .response ∨ (a.st = .destroy ∧ a.h = .destroying)) ∧ (a.st = .destroy → a.w = .waiting) ∧
    (a.st = .pending → a.w = .waiting)

/-- The outcome, if there is one, satisfies `p`. -/
def okAnd (o : Outcome Att) (p : Att → Bool) : Bool := match o with
  | .ok a => p a
  | .ub => true

theorem sound_step {a a' : Att} {op : Op} (I : Sound a) (h : step a op = .ok a') : Sound a' := by
  have := all_att (P := fun a op => !decide (Sound a) || okAnd (step a op) (fun a' => decide (Sound a'))) (by decide +kernel) a op
  rw [h, decide_eq_true I] at this
  exact of_decide_eq_true this

/-- What holds of a timely attempt. -/
abbrev Good (a : Att) : Prop :=
  Sound a ∧ (a.w = .returned false → a.accepted = false) ∧
  (a.h = .idle → a.accepted = false ∧ (a.w = .waiting → a.st = .pending)) ∧
  (a.h ≠ .idle → a.w = .waiting ∨ a.w.back = true) ∧
  (a.h = .taken false → a.accepted = false) ∧
  (a.h = .taken false ∨ a.h = .taken true → if a.accepted then (a.w = .waiting ∧ a.st = .response) ∨ (a.w = .returned true ∧ a.st = .done) else a.w = .waiting ∧ a.st = .pending) ∧
  (a.h = .destroying → (a.w = .waiting ∧ (a.st = .response ∨ a.st = .destroy)) ∨ (a.w.back = true ∧ (a.st = .null ∨ a.st = .done))) ∧
  (a.h = .freed → a.w.back = true) ∧
  (a.st = .destroy → a.accepted = false)

instance (a : Att) (op : Op) : Decidable (AttTimely a op) := by cases op <;> unfold AttTimely <;> infer_instance

theorem good_step {a : Att} {op : Op} (I : Good a) (ho : AttTimely a op) : ∃ a', step a op = .ok a' ∧ Good a' := by
  have := all_att (P := fun a op => !decide (Good a) || (!decide (AttTimely a op) || (match step a op with | .ok a' => decide (Good a') | .ub => false)))
    (by decide +kernel) a op
  rw [decide_eq_true I, decide_eq_true ho] at this
  simp only [Bool.not_true, Bool.false_or] at this
  split at this
  · rename_i a' h; exact ⟨a', h, of_decide_eq_true this⟩
  · cases this

theorem good_new : Good .new := by decide

/-- After a failure, nothing makes an attempt accepted. -/
theorem failed_step {a a' : Att} {op : Op} (hw : a.w = .returned false) (h : step a op = .ok a') : a'.w = .returned false := by
  have := all_att (P := fun a op => !decide (a.w = .returned false) || okAnd (step a op) (fun a' => decide (a'.w = .returned false))) (by decide +kernel) a op
  rw [h, decide_eq_true hw] at this
  exact of_decide_eq_true this

/-- A thread destroying a request is waited for by nobody, or gets it after the joining thread has looked. -/
theorem reap_all : ∀ a : Att, Good a → a.h = .destroying →
    (∃ a', step a .reap = .ok a' ∧ a'.h = .freed) ∨ (∃ a' a'', step a .wake = .ok a' ∧ step a' .reap = .ok a'' ∧ a''.h = .freed) := by
  intro a I h
  obtain ⟨st, w, hh, acc⟩ := a
  dsimp only at h
  subst h
  obtain ⟨-, -, -, -, -, -, h1, -⟩ := I
  rcases h1 rfl with ⟨h1, h2⟩ | ⟨h1, h2⟩
  · dsimp only at h1 h2; subst h1
    rcases h2 with rfl | rfl
    · exact .inr ⟨_, _, rfl, rfl, rfl⟩
    · exact .inr ⟨_, _, rfl, rfl, rfl⟩
  · dsimp only at h1 h2
    rcases h2 with rfl | rfl
    · exact .inl ⟨_, rfl, rfl⟩
    · exact .inl ⟨_, rfl, rfl⟩

/-- An accepting response was taken: it is kept until it is acted on. -/
theorem taken_step {a a' : Att} {op : Op} (h : a.h = .taken true ∨ a.accepted = true) (hs : step a op = .ok a') : a'.h = .taken true ∨ a'.accepted = true := by
  have := all_att (P := fun a op => !decide (a.h = .taken true ∨ a.accepted = true) || okAnd (step a op) (fun a' => decide (a'.h = .taken true ∨ a'.accepted = true)))
    (by decide +kernel) a op
  rw [hs, decide_eq_true h] at this
  exact of_decide_eq_true this

/-! ## All attempts -/

theorem atts_set {l : List Att} {i : Nat} {a b : Att} (h : l[i]? = some a) : ∀ c ∈ l.set i b, c = b ∨ c ∈ l := by
  intro c hc
  rcases List.mem_or_eq_of_mem_set hc with h | h
  · exact .inr h
  · exact .inl h

theorem sound_reach {ok : Sys → Act → Prop} {s : Sys} (h : Reach ok s) : (∀ a ∈ s.atts, Sound a) ∧ (s.running = true → ∃ a ∈ s.atts, a.accepted = true) := by
  induction h with
  | start => exact ⟨fun a ha => by rw [start, List.mem_singleton] at ha; subst ha; decide, fun h => by cases h⟩
  | @step s s' x _ _ hx ih =>
    obtain ⟨i1, i2⟩ := ih
    cases x with
    | «at» i op =>
      simp only [act] at hx
      split at hx
      · rename_i a ha
        split at hx
        · rename_i a' h'
          cases hx
          have hm := List.mem_of_getElem? ha
          refine ⟨fun c hc => ?_, fun hr => ?_⟩
          · rcases atts_set ha c hc with rfl | hc
            · exact sound_step (i1 a hm) h'
            · exact i1 c hc
          · have acc : a.accepted = true → a'.accepted = true := by
              intro hacc
              have := all_att (P := fun a op => !a.accepted || okAnd (step a op) (·.accepted)) (by decide +kernel) a op
              rw [h', hacc] at this; exact this
            obtain ⟨c, hc, hca⟩ := i2 hr
            obtain ⟨j, hj⟩ := List.mem_iff_getElem?.mp hc
            by_cases e : j = i
            · subst e
              rw [ha] at hj; cases hj
              have hlt : j < s.atts.length := (List.getElem?_eq_some_iff.mp ha).1
              exact ⟨a', List.mem_iff_getElem?.mpr ⟨j, by rw [List.getElem?_set_self hlt]⟩, acc hca⟩
            · exact ⟨c, List.mem_iff_getElem?.mpr ⟨j, by rw [List.getElem?_set_ne (Ne.symm e), hj]⟩, hca⟩
        · cases hx
      · cases hx; exact ⟨i1, i2⟩
    | retry =>
      simp only [act] at hx
      split at hx
      · split at hx
        · cases hx
          refine ⟨fun c hc => ?_, fun hr => ?_⟩
          · rcases List.mem_append.mp hc with hc | hc
            · exact i1 c hc
            · rw [List.mem_singleton] at hc; subst hc; decide
          · obtain ⟨c, hc, hca⟩ := i2 hr
            exact ⟨c, List.mem_append_left _ hc, hca⟩
        · cases hx; exact ⟨i1, i2⟩
      · cases hx; exact ⟨i1, i2⟩
    | run =>
      simp only [act] at hx
      split at hx
      · rename_i a ha
        split at hx
        · rename_i hw
          cases hx
          have hm := List.mem_of_getLast? ha
          exact ⟨i1, fun _ => ⟨a, hm, (i1 a hm).1 hw⟩⟩
        · cases hx; exact ⟨i1, i2⟩
      · cases hx; exact ⟨i1, i2⟩

/-- What holds of a timely run: every attempt but the last has failed. -/
structure Fine (s : Sys) : Prop where
  good : ∀ a ∈ s.atts, Good a
  ne : s.atts ≠ []
  old : ∀ a ∈ s.atts.dropLast, a.w = .returned false

theorem att_timely {s : Sys} {i : Nat} {op : Op} {a : Att} (ho : Timely s (.at i op)) (h : s.atts[i]? = some a) : AttTimely a op := by
  cases op <;> first | trivial | exact ho a h

theorem fine_reach {s : Sys} (h : Reach Timely s) : Fine s := by
  induction h with
  | start => exact ⟨fun a ha => by rw [start, List.mem_singleton] at ha; subst ha; exact good_new, by simp [start], by simp [start]⟩
  | @step s s' x _ ho hx ih =>
    cases x with
    | «at» i op =>
      simp only [act] at hx
      split at hx
      · rename_i a ha
        have hm := List.mem_of_getElem? ha
        have hat := att_timely ho ha
        split at hx
        · rename_i a' h'
          cases hx
          obtain ⟨b, hb, hg⟩ := good_step (ih.good a hm) hat
          rw [h'] at hb; cases hb
          refine ⟨fun c hc => ?_, by simpa using ih.ne, fun c hc => ?_⟩
          · rcases atts_set ha c hc with rfl | hc
            · exact hg
            · exact ih.good c hc
          · obtain ⟨j, hj⟩ := List.mem_iff_getElem?.mp hc
            rw [List.dropLast_eq_take, List.length_set] at hj
            rw [List.getElem?_take] at hj
            split at hj
            · rename_i hlt
              have old : ∀ d, s.atts[j]? = some d → d.w = .returned false := by
                intro d hd
                refine ih.old d (List.mem_iff_getElem?.mpr ⟨j, ?_⟩)
                rw [List.dropLast_eq_take, List.getElem?_take, if_pos hlt, hd]
              by_cases e : j = i
              · subst e
                rw [List.getElem?_set_self (List.getElem?_eq_some_iff.mp ha).1] at hj
                cases hj
                exact failed_step (old a ha) h'
              · rw [List.getElem?_set_ne (Ne.symm e)] at hj
                exact old c hj
            · cases hj
        · cases hx
      · cases hx; exact ih
    | retry =>
      simp only [act] at hx
      split at hx
      · rename_i a ha
        split at hx
        · rename_i hw
          cases hx
          refine ⟨fun c hc => ?_, by simp, fun c hc => ?_⟩
          · rcases List.mem_append.mp hc with hc | hc
            · exact ih.good c hc
            · rw [List.mem_singleton] at hc; subst hc; exact good_new
          · rw [List.dropLast_concat] at hc
            have : s.atts = s.atts.dropLast ++ [a] := by
              obtain ⟨ys, hy⟩ := List.getLast?_eq_some_iff.mp ha
              rw [hy, List.dropLast_concat]
            rw [this] at hc
            rcases List.mem_append.mp hc with hc | hc
            · exact ih.old c hc
            · rw [List.mem_singleton] at hc; subst hc; exact hw.1
        · cases hx; exact ih
      · cases hx; exact ih
    | run =>
      simp only [act] at hx
      split at hx
      · split at hx
        · cases hx; exact ⟨ih.good, ih.ne, ih.old⟩
        · cases hx; exact ih
      · cases hx; exact ih

end Ouro.DhtJoin
