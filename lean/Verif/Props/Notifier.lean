import Mathlib.Data.List.Induction
import Verif.Model.Notifier

/-!
# C14 — every registered handler is called exactly once, in registration order
-/

namespace Ouro.Notifier

/-- Specification. The registrations in force after a history, oldest first: calls to `notifier_reg` that returned 0 and are not
followed by a `notifier_unreg` of the same callback. -/
def inForce : List (Op × Out) → List (Nat × Nat)
  | [] => []
  | (.reg cb obj _, .ret 0) :: rest =>
    if .unreg cb ∈ rest.map Prod.fst then inForce rest else (cb, obj) :: inForce rest
  | _ :: rest => inForce rest

theorem inForce_skip (op : Op) (out : Out) (hx : ¬ ∃ c b m, op = .reg c b m ∧ out = .ret 0) (l : List (Op × Out)) :
    inForce ((op, out) :: l) = inForce l := by
  rw [inForce]
  intro c b m h1
  rw [Prod.mk.injEq] at h1
  exact hx ⟨c, b, m, h1.1, h1.2⟩

theorem inForce_unreg (h : List (Op × Out)) (cb : Nat) (o : Out) :
    inForce (h ++ [(.unreg cb, o)]) = (inForce h).filter (fun p => p.1 != cb) := by
  induction h with
  | nil => simp [inForce]
  | cons x h ih =>
    obtain ⟨op, out⟩ := x
    by_cases hx : ∃ c b m, op = .reg c b m ∧ out = .ret 0
    · obtain ⟨c, b, m, rfl, rfl⟩ := hx
      simp only [List.cons_append, inForce, ih, List.map_append, List.map_cons, List.map_nil, List.mem_append, List.mem_singleton]
      by_cases h1 : Op.unreg c ∈ List.map Prod.fst h
      · simp [h1]
      · by_cases h2 : c = cb
        · subst h2; simp [h1]
        · have : (Op.unreg c = Op.unreg cb) = False := by simp [h2]
          simp [h1, h2]
    · rw [List.cons_append, inForce_skip _ _ hx, inForce_skip _ _ hx, ih]

theorem inForce_reg (h : List (Op × Out)) (cb obj : Nat) (m : Bool) :
    inForce (h ++ [(.reg cb obj m, .ret 0)]) = inForce h ++ [(cb, obj)] := by
  induction h with
  | nil => simp [inForce]
  | cons x h ih =>
    obtain ⟨op, out⟩ := x
    by_cases hx : ∃ c b m, op = .reg c b m ∧ out = .ret 0
    · obtain ⟨c, b, m, rfl, rfl⟩ := hx
      simp only [List.cons_append, inForce, ih, List.map_append, List.map_cons, List.map_nil, List.mem_append, List.mem_singleton]
      by_cases h1 : Op.unreg c ∈ List.map Prod.fst h
      · simp [h1]
      · simp [h1]
    · rw [List.cons_append, inForce_skip _ _ hx, inForce_skip _ _ hx, ih]

theorem inForce_other (h : List (Op × Out)) (op : Op) (o : Out) (h1 : ∀ cb obj m, op = .reg cb obj m → o ≠ .ret 0)
    (h2 : ∀ cb, op ≠ .unreg cb) : inForce (h ++ [(op, o)]) = inForce h := by
  induction h with
  | nil =>
    rw [List.nil_append, inForce_skip _ _ (by rintro ⟨c, b, m, e1, e2⟩; exact h1 c b m e1 e2)]
  | cons x h ih =>
    obtain ⟨op', out⟩ := x
    by_cases hx : ∃ c b m, op' = .reg c b m ∧ out = .ret 0
    · obtain ⟨c, b, m, rfl, rfl⟩ := hx
      simp only [List.cons_append, inForce, ih, List.map_append, List.map_cons, List.map_nil, List.mem_append, List.mem_singleton]
      have : (Op.unreg c = op) = False := eq_false (fun e => h2 c e.symm)
      simp only [this, or_false]
    · rw [List.cons_append, inForce_skip _ _ hx, inForce_skip _ _ hx, ih]

theorem run_append (s : State) (a b : List Op) :
    run s (a ++ b) = ((run (run s a).1 b).1, (run s a).2 ++ (run (run s a).1 b).2) := by
  induction a generalizing s with
  | nil => simp [run]
  | cons op a ih => simp [run, ih]

theorem eraseP_nodup (s : State) (cb : Nat) (hn : (s.map (·.callback)).Nodup) :
    s.eraseP (fun l => l.callback == cb) = s.filter (fun l => l.callback != cb) := by
  induction s with
  | nil => rfl
  | cons l s ih =>
    simp only [List.map_cons, List.nodup_cons] at hn
    by_cases h : l.callback = cb
    · subst h
      have : s.filter (fun x => x.callback != l.callback) = s := by
        rw [List.filter_eq_self]
        intro x hx
        simp only [bne_iff_ne, ne_eq]
        intro e
        exact hn.1 (by rw [← e]; exact List.mem_map_of_mem hx)
      simp [this]
    · simp [h, ih hn.2]

/-- The state after a history holds exactly the registrations in force, in order, without duplicates. -/
theorem state_inForce (ops : List Op) :
    (run init ops).1.map (fun l => (l.callback, l.obj)) = inForce (run init ops).2 ∧
    ((run init ops).1.map (·.callback)).Nodup := by
  induction ops using List.reverseRecOn with
  | nil => simp [run, init, inForce]
  | append_singleton ops op ih =>
    obtain ⟨ih1, ih2⟩ := ih
    rw [run_append]
    generalize (run init ops).1 = s at *
    generalize (run init ops).2 = h at *
    simp only [run]
    cases op with
    | reg cb obj mem =>
      by_cases hd : s.any (fun l => l.callback == cb) = true
      · rw [inForce_other]
        · simp [step, reg, hd, ih1, ih2]
        · intro _ _ _ _; simp [step, reg, hd, EPERM]
        · intro _; simp
      · by_cases hm : mem = true
        · subst hm
          have e : (step s (.reg cb obj true)) = (s ++ [⟨cb, obj⟩], .ret 0) := by simp [step, reg, hd]
          rw [e, inForce_reg]
          simp only [List.map_append, List.map_cons, List.map_nil, ih1, true_and]
          rw [List.nodup_append]
          refine ⟨ih2, by simp, ?_⟩
          intro a ha b hb
          simp only [List.mem_singleton] at hb
          subst hb
          rintro rfl
          obtain ⟨l, hl, rfl⟩ := List.mem_map.mp ha
          exact hd (List.any_eq_true.mpr ⟨l, hl, by simp⟩)
        · rw [inForce_other]
          · simp [step, reg, hd, hm, ih1, ih2]
          · intro _ _ _ _; simp [step, reg, hd, hm, ENOMEM]
          · intro _; simp
    | unreg cb =>
      rw [inForce_unreg]
      simp only [step, unreg]
      rw [eraseP_nodup s cb ih2, ← ih1]
      constructor
      · rw [List.filter_map]; rfl
      · exact ih2.sublist (List.Sublist.map _ List.filter_sublist)
    | event ev o =>
      rw [inForce_other]
      · exact ⟨ih1, ih2⟩
      · intro _ _ _ h; cases h
      · intro _; simp

/-- C14. After any history, an event calls exactly the registrations in force, each once, oldest first, each with its own
object and the given event and argument; and no callback is in force twice. -/
theorem C14_event_calls (ops : List Op) (ev : Int) (o : Nat) :
    let h := (run init ops).2
    (step (run init ops).1 (.event ev o)).2 = .calls ((inForce h).map (fun p => ⟨p.1, p.2, ev, o⟩)) ∧
    ((inForce h).map Prod.fst).Nodup := by
  obtain ⟨h1, h2⟩ := state_inForce ops
  refine ⟨?_, ?_⟩
  · rw [← h1]
    simp [step, event]
  · rw [← h1, List.map_map]; exact h2

/-- C14. Registration fails with `-EPERM` exactly if the callback is in force, and with `-ENOMEM` exactly if it is not and memory is
exhausted; a failed registration leaves the registrations as they were. -/
theorem C14_reg_result (ops : List Op) (cb obj : Nat) (mem : Bool) :
    let h := (run init ops).2
    let r := step (run init ops).1 (.reg cb obj mem)
    (r.2 = .ret (-EPERM) ↔ cb ∈ (inForce h).map Prod.fst) ∧
    (r.2 = .ret (-ENOMEM) ↔ cb ∉ (inForce h).map Prod.fst ∧ mem = false) ∧
    (r.2 = .ret 0 ↔ cb ∉ (inForce h).map Prod.fst ∧ mem = true) ∧
    (r.2 ≠ .ret 0 → r.1 = (run init ops).1) := by
  obtain ⟨h1, h2⟩ := state_inForce ops
  intro h r
  have e : (inForce h).map Prod.fst = (run init ops).1.map (·.callback) := by
    rw [← h1, List.map_map]; rfl
  rw [e]
  have hany : ((run init ops).1.any (fun l => l.callback == cb) = true) ↔ cb ∈ (run init ops).1.map (·.callback) := by
    simp [List.any_eq_true]
  rw [← hany]
  simp only [r, step, reg]
  by_cases hd : (run init ops).1.any (fun l => l.callback == cb) = true
  · simp [hd, EPERM, ENOMEM]
  · cases mem <;> simp [hd, EPERM, ENOMEM]

/-- C14. After unregistering, the callback is not called until it is registered again. -/
theorem C14_unreg_silences (ops ops2 : List Op) (cb : Nat) (hno : ∀ obj mem, Op.reg cb obj mem ∉ ops2) (ev : Int) (o : Nat)
    (l : List Call) (hl : (step (run init (ops ++ .unreg cb :: ops2)).1 (.event ev o)).2 = .calls l) :
    ∀ c ∈ l, c.callback ≠ cb := by
  have key : ∀ (ops2 : List Op), (∀ obj mem, Op.reg cb obj mem ∉ ops2) → ∀ s : State, (∀ l ∈ s, l.callback ≠ cb) →
      ∀ l ∈ (run s ops2).1, l.callback ≠ cb := by
    intro ops2
    induction ops2 with
    | nil => intro _ s hs; exact hs
    | cons op ops2 ih =>
      intro hno s hs
      simp only [run]
      apply ih (fun obj mem hm => hno obj mem (List.mem_cons_of_mem _ hm))
      cases op with
      | reg c b m =>
        simp only [step, reg]
        split
        · exact hs
        · split
          · exact hs
          · intro l hl
            rcases List.mem_append.mp hl with hl | hl
            · exact hs l hl
            · simp at hl
              subst hl
              intro e
              exact hno b m (by simp only at e; rw [e]; simp)
      | unreg c =>
        intro l hl
        exact hs l (List.mem_of_mem_eraseP hl)
      | event ev o => exact hs
  rw [show ops ++ Op.unreg cb :: ops2 = (ops ++ [.unreg cb]) ++ ops2 by simp, run_append] at hl
  simp only [step, event, Out.calls.injEq] at hl
  subst hl
  intro c hc
  obtain ⟨x, hx, rfl⟩ := List.mem_map.mp hc
  refine key ops2 hno _ ?_ x hx
  rw [run_append]
  simp only [run, step, unreg]
  rw [eraseP_nodup _ _ (state_inForce ops).2]
  intro l hl
  have := (List.mem_filter.mp hl).2
  simpa using this

/-- Non-vacuity: two handlers, one refused duplicate, one removed and registered again behind the other. -/
example :
    (inForce (run init [.reg 1 10 true, .reg 2 20 true, .reg 1 11 true, .unreg 1, .reg 1 12 true]).2 = [(2, 20), (1, 12)]) ∧
    (run init [.reg 1 10 true, .reg 1 11 true, .event 5 7]).2.map Prod.snd =
      [.ret 0, .ret (-EPERM), .calls [⟨1, 10, 5, 7⟩]] := by
  decide

end Ouro.Notifier
