import Verif.Model.CmdQueue
import Verif.Proof.FlowIo

/-! # Proofs about the command queues -/

namespace Ouro.CmdQueue

variable {α : Type}

/-- The commands posted, in order of arrival. -/
def posted (log : List (Op α × Out α)) : List α := log.filterMap (fun e => match e with
  | (.post x _, .posted) => some x
  | _ => none)

/-- The commands taken, with the workers that took them, in order. -/
def taken (log : List (Op α × Out α)) : List (Nat × α) := log.filterMap (fun e => match e with
  | (.fetch w, .took x) => some (w, x)
  | (.wakeUp w, .took x) => some (w, x)
  | _ => none)

theorem getLast?_split {l : List α} {x : α} (h : l.getLast? = some x) : l = l.dropLast ++ [x] := by
  obtain ⟨ys, rfl⟩ := List.getLast?_eq_some_iff.mp h
  simp

/-- Arrival order: what was posted is what was taken, followed by what is still there. -/
theorem run_fifo (ops : List (Op α)) (s : State α) :
    s.cmds.reverse ++ posted (run s ops).2 = (taken (run s ops).2).map (·.2) ++ (run s ops).1.cmds.reverse := by
  induction ops generalizing s with
  | nil => simp [run, posted, taken]
  | cons op ops ih =>
    have ih := ih (step s op).1
    have hp : posted (run s (op :: ops)).2 = posted [(op, (step s op).2)] ++ posted (run (step s op).1 ops).2 := by
      simp only [run, posted]
      rw [← List.filterMap_append]; rfl
    have ht : taken (run s (op :: ops)).2 = taken [(op, (step s op).2)] ++ taken (run (step s op).1 ops).2 := by
      simp only [run, taken]
      rw [← List.filterMap_append]; rfl
    rw [hp, ht]
    have hr : (run s (op :: ops)).1 = (run (step s op).1 ops).1 := rfl
    rw [hr]
    have key : s.cmds.reverse ++ posted [(op, (step s op).2)] = (taken [(op, (step s op).2)]).map (·.2) ++ (step s op).1.cmds.reverse := by
      have htake : ∀ w, (op = .fetch w ∨ op = .wakeUp w) → step s op = take s w →
          s.cmds.reverse ++ posted [(op, (step s op).2)] = (taken [(op, (step s op).2)]).map (·.2) ++ (step s op).1.cmds.reverse := by
        intro w hop hst
        rw [hst]
        unfold take
        split
        · rcases hop with rfl | rfl <;> simp [posted, taken]
        · rename_i x hx
          have := getLast?_split hx
          rcases hop with rfl | rfl <;> (simp only [posted, taken, List.filterMap_cons, List.filterMap_nil, List.append_nil, List.map_cons, List.map_nil]
                                         conv_lhs => rw [this]
                                         simp)
      cases op with
      | post x i => simp only [step]; split <;> simp [posted, taken]
      | fetch w =>
        by_cases h : s.workers[w]? = some .busy
        · exact htake w (.inl rfl) (by simp only [step, if_pos h])
        · simp only [step, if_neg h]; simp [posted, taken]
      | wakeUp w =>
        by_cases h : s.workers[w]? = some (.asleep true) ∨ s.workers[w]? = some (.asleep false)
        · exact htake w (.inr rfl) (by simp only [step, if_pos h])
        · simp only [step, if_neg h]; simp [posted, taken]
      | spawn => simp [step, posted, taken]
      | cancel w i => simp only [step]; (repeat' split) <;> simp [posted, taken]
    rw [← List.append_assoc, key, List.append_assoc, ih, List.map_append, List.append_assoc]

/-- How many workers were woken and did not run yet. -/
def woken (ws : List Worker) : Nat := ws.countP (· == .asleep true)

/-- Commands do not wait while everybody sleeps. -/
def Inv (s : State α) : Prop := .asleep false ∈ s.workers → s.cmds.length ≤ woken s.workers

theorem woken_set {ws : List Worker} {w : Nat} {x : Worker} (h : ws[w]? = some x) (y : Worker) :
    woken (ws.set w y) + (x == .asleep true).toNat = woken ws + (y == .asleep true).toNat :=
  FlowIo.countP_set' _ h y

theorem woken_wake {ws : List Worker} {i : Nat} (h : mayWake ws i = true) (hm : .asleep false ∈ ws) :
    woken (wake ws i) = woken ws + 1 := by
  have hi : ws[i]? = some (.asleep false) := by
    unfold mayWake at h
    rw [Bool.or_eq_true] at h
    rcases h with h | h
    · simpa using h
    · have : ws.any (· == .asleep false) = true := by rw [List.any_eq_true]; exact ⟨_, hm, by simp⟩
      rw [this] at h; simp at h
  unfold wake
  rw [if_pos hi]
  have := woken_set hi (.asleep true)
  have h2 : (Worker.asleep false == Worker.asleep true).toNat = 0 := rfl
  have h3 : (Worker.asleep true == Worker.asleep true).toNat = 1 := rfl
  omega

theorem mem_wake {ws : List Worker} {i : Nat} (h : .asleep false ∈ wake ws i) : Worker.asleep false ∈ ws := by
  unfold wake at h
  split at h
  · rcases List.mem_or_eq_of_mem_set h with h | h
    · exact h
    · cases h
  · exact h

theorem take_inv {s : State α} {w : Nat} {x : Worker} (hi : Inv s) (hx : s.workers[w]? = some x) : Inv (take s w).1 := by
  unfold take
  split
  · rename_i h
    intro _
    rw [List.getLast?_eq_none_iff] at h
    simp [h]
  · rename_i y h
    intro hm
    dsimp only at hm ⊢
    have hm' : Worker.asleep false ∈ s.workers := by
      rcases List.mem_or_eq_of_mem_set hm with h | h
      · exact h
      · cases h
    have h1 := hi hm'
    have h2 := woken_set hx .busy
    have h3 : s.cmds ≠ [] := by rintro h0; simp [h0] at h
    have h4 : 0 < s.cmds.length := List.length_pos_iff.mpr h3
    have h5 : (x == Worker.asleep true).toNat ≤ 1 := Bool.toNat_le _
    have h6 : (Worker.busy == Worker.asleep true).toNat = 0 := rfl
    rw [List.length_dropLast]
    omega

theorem step_inv {s : State α} (hi : Inv s) (op : Op α) : Inv (step s op).1 := by
  cases op with
  | post x i =>
    simp only [step]
    split
    · rename_i h
      intro hm
      have hm' := mem_wake hm
      have := hi hm'
      have := woken_wake h hm'
      dsimp only
      simp only [List.length_cons]
      omega
    · exact hi
  | fetch w =>
    simp only [step]
    split
    · rename_i h; exact take_inv hi h
    · exact hi
  | wakeUp w =>
    simp only [step]
    split
    · rename_i h; rcases h with h | h <;> exact take_inv hi h
    · exact hi
  | spawn =>
    intro hm
    simp only [step, List.mem_append, List.mem_singleton, reduceCtorEq, or_false] at hm
    have := hi hm
    simp only [step, woken, List.countP_append] at this ⊢
    omega
  | cancel w i =>
    simp only [step]
    have hset : ∀ {l : List Worker}, Worker.asleep false ∈ l.set w .gone → Worker.asleep false ∈ l := by
      intro l h
      rcases List.mem_or_eq_of_mem_set h with h | h
      · exact h
      · cases h
    split
    · rename_i h
      intro hm
      dsimp only at hm ⊢
      have := hi (hset hm)
      have h2 := woken_set h .gone
      have h3 : (Worker.asleep false == Worker.asleep true).toNat = 0 := rfl
      omega
    · split
      · rename_i h
        intro hm
        dsimp only at hm ⊢
        have hm' := mem_wake hm
        have := hi (hset hm')
        have h2 := woken_set h.1 .gone
        have h3 := woken_wake h.2 hm'
        have h4 : (Worker.asleep true == Worker.asleep true).toNat = 1 := rfl
        omega
      · exact hi

theorem run_inv {s : State α} (hi : Inv s) (ops : List (Op α)) : Inv (run s ops).1 := by
  induction ops generalizing s with
  | nil => exact hi
  | cons op ops ih => exact ih (step_inv hi op)

end Ouro.CmdQueue
