import Verif.Proof.Psched

/-!
# C50 — the packet scheduler

`arrivals fd`, `called fd`, `holding`, `heldBy`, `Classes`, `Prompt` and `Quiet` are in `Verif/Spec/Psched.lean`.
-/

namespace Ouro.Psched

/-- C50, every history and any number of readers: each packet is given to the callback with the descriptor it arrived on, and as often as it arrived, except
for those that a reader holds or that are still in the ring. -/
theorem C50_once (mul : Nat) (ops : List Op) (fd p : Nat) :
    (called fd (run mul create ops).2).count p + holding (run mul create ops).1 (cubes * mul) fd p + ((run mul create ops).1.ring fd).count p =
      (arrivals fd ops).count p := by
  have := run_count (create_only mul) ops fd p
  have h : holding create (cubes * mul) fd p = 0 := by simp [holding, create]
  rw [h] at this
  simpa [create] using this

/-- C50, partial: missing is more than one reader per class, which is the default. With one reader per class, and flows that keep their class, the packets of a
flow are given to the callback in the order in which they arrived, without gaps. -/
theorem C50_order_partial (c : Nat → Nat) (ops : List Op) (hc : Classes c ops) (fd : Nat) :
    called fd (run 1 create ops).2 ++ heldBy (run 1 create ops).1 (c fd) fd ++ (run 1 create ops).1.ring fd = arrivals fd ops := by
  have := run_order (create_inClass c) (create_only 1) ops hc fd
  simpa [heldBy, create] using this

/-- C50, any number of readers: the callback gets the class with which the flow was added. -/
theorem C50_class (mul : Nat) (c : Nat → Nat) (ops : List Op) (hc : Classes c ops) (op : Op) (fd qc p : Nat) (h : (op, Out.called fd qc p) ∈ (run mul create ops).2) :
    qc = c fd :=
  run_called_class (create_inClass c) ops hc _ h fd qc p rfl

/-- C50, partial: missing are packets that arrive before the flow is added. When there is nothing left to do for the readers, every packet that arrived was given
to the callback. -/
theorem C50_all_partial (mul : Nat) (ops : List Op) (hp : Prompt mul create ops) (hq : Quiet mul (run mul create ops).1) (fd p : Nat) :
    (called fd (run mul create ops).2).count p = (arrivals fd ops).count p := by
  have h1 := run_prompt (mul := mul) (s := create) (by simp [create]) (by simp [create]) ops hp fd
  rw [quiet_pending hq] at h1
  have h2 := C50_once mul ops fd p
  have h3 : (run mul create ops).1.ring fd = [] := List.length_eq_zero_iff.mp (by omega)
  have h4 : holding (run mul create ops).1 (cubes * mul) fd p = 0 := by
    unfold holding
    rw [List.countP_eq_zero]
    intro i hi
    simp [(hq.2 i (List.mem_range.mp hi)).2]
  rw [h3, h4] at h2
  simpa using h2

/-- The outputs of a history, and what is left in the ring of `fd`. -/
def view (mul : Nat) (fd : Nat) (ops : List Op) : List Out × List Nat :=
  let r := run mul create ops
  (r.2.map (·.2), r.1.ring fd)

/-- Non-vacuity: two flows of class 1 with one reader, and an event. -/
example : view 1 7 [.add 7 1, .add 8 1, .arrive 7 10, .arrive 8 20, .arrive 7 11, .event 8 .down, .fevent 1, .next 1, .callback 1, .next 1, .callback 1, .next 1, .callback 1, .next 1] =
    ([.done, .done, .done, .done, .done, .done, .done, .done, .called 7 1 10, .done, .called 8 1 20, .done, .called 7 1 11, .notified .down 8], []) := by decide +kernel
example : Classes (fun _ => 1) [.add 7 1, .add 8 1, .arrive 7 10] := by
  intro fd qc h
  simp at h
  rcases h with h | h <;> exact h.2
example : Prompt 1 create [.add 7 1, .arrive 7 10, .fevent 1, .next 1, .callback 1] := by
  simp [Prompt, step, create, upd, cubes]

/-- C50 does not hold in full: with two readers per class (the default) packet 11 of a flow is given to the callback before packet 10. -/
theorem C50_order_violated : view 2 7 [.add 7 1, .arrive 7 10, .fevent 1, .next 1, .arrive 7 11, .fevent 4, .next 4, .callback 4, .callback 1] =
    ([.done, .done, .done, .done, .done, .done, .done, .called 7 1 11, .called 7 1 10], []) := by decide +kernel

/-- C50 does not hold in full: of two packets that arrived before the flow was added one is left in the ring, and the readers have nothing to do. -/
theorem C50_stranded_violated : view 1 7 [.arrive 7 10, .arrive 7 11, .add 7 1, .fevent 1, .next 1, .callback 1, .next 1, .fevent 1] =
    ([.done, .done, .done, .done, .done, .called 7 1 10, .no, .no], [11]) := by decide +kernel

end Ouro.Psched
