import Verif.Proof.Pft

/-!
# C26 — the forwarding table is a finite map
-/

namespace Ouro.Pft

open Spec.FiniteMap

/-- Specification: the calls on a finite map from addresses to next hop lists. -/
def specStep (m : Map (BitVec 64) (List Int)) : Op → Map (BitVec 64) (List Int) × Out
  | .insert dst fds mem =>
    match m dst with
    | some _ => (m, .ret (-EPERM))
    | none => if mem then (put m dst fds, .ret 0) else (m, .ret (-ENOMEM))
  | .lookup dst =>
    match m dst with
    | some fds => (m, .found fds fds.length)
    | none => (m, .ret (-1))
  | .delete dst =>
    match m dst with
    | some _ => (remove m dst, .ret 0)
    | none => (m, .ret (-1))
  | .flush => (empty, .ret 0)

/-- Specification: outputs of a history. -/
def specRun (m : Map (BitVec 64) (List Int)) : List Op → List Out
  | [] => []
  | op :: ops => (specStep m op).2 :: specRun (specStep m op).1 ops

/-- Refinement relation: the stored entries are the map's, with their full length. -/
def Refines (p : Pft) (m : Map (BitVec 64) (List Int)) : Prop :=
  WF p ∧ ∀ dst, get p dst = (m dst).map (fun fds => ⟨dst, fds, fds.length⟩)

/-- Callers pass non-empty next hop lists (the code asserts this). -/
def ValidOp : Op → Prop
  | .insert _ fds _ => fds ≠ []
  | _ => True

instance : DecidablePred ValidOp := fun op => by cases op <;> unfold ValidOp <;> infer_instance

theorem step_refines {p : Pft} {m : Map (BitVec 64) (List Int)} (h : Refines p m) (op : Op) (hv : ValidOp op) :
    ∃ p', step p op = .ok (p', (specStep m op).2) ∧ Refines p' (specStep m op).1 := by
  obtain ⟨hw, hg⟩ := h
  cases op with
  | insert dst fds mem =>
    have hl : fds.length ≠ 0 := by
      intro e; exact hv (List.length_eq_zero_iff.mp e)
    obtain ⟨p', r, e1, w', e2, e3⟩ := insert_spec hw dst fds fds.length mem hl
    simp only [step, e1, Outcome.bind_ok, Outcome.pure_eq, specStep]
    cases hm : m dst with
    | some l =>
      have hs : (get p dst).isSome = true := by rw [hg dst, hm]; rfl
      rw [if_pos hs] at e2
      refine ⟨p', by rw [e2], w', ?_⟩
      rw [e3, if_neg]
      · exact hg
      · rintro ⟨h1, _⟩
        rw [Option.isNone_iff_eq_none] at h1
        rw [h1] at hs; cases hs
    | none =>
      have hn : get p dst = none := by rw [hg dst, hm]; rfl
      rw [hn] at e2 e3
      cases mem with
      | true =>
        simp at e2
        refine ⟨p', by rw [e2]; rfl, w', ?_⟩
        intro x
        rw [e3]
        simp only [Option.isNone_none, and_self, if_true, put]
        split
        · rename_i e; subst e; rfl
        · exact hg x
      | false =>
        simp at e2
        refine ⟨p', by rw [e2]; rfl, w', ?_⟩
        intro x
        rw [e3]
        simpa using hg x
  | lookup dst =>
    simp only [step, lookup_eq hw, Outcome.bind_ok, specStep, Outcome.pure_eq]
    rw [hg dst]
    cases hm : m dst with
    | some l => exact ⟨p, rfl, hw, hg⟩
    | none => exact ⟨p, rfl, hw, hg⟩
  | delete dst =>
    obtain ⟨p', r, e1, w', e2, e3⟩ := delete_spec hw dst
    simp only [step, e1, Outcome.bind_ok, Outcome.pure_eq, specStep]
    cases hm : m dst with
    | some l =>
      have hs : (get p dst).isSome = true := by rw [hg dst, hm]; rfl
      rw [if_pos hs] at e2
      refine ⟨p', by rw [e2], w', ?_⟩
      intro x
      rw [e3]
      simp only [remove]
      split
      · rfl
      · exact hg x
    | none =>
      have hn : get p dst = none := by rw [hg dst, hm]; rfl
      rw [hn] at e2
      simp at e2
      refine ⟨p', by rw [e2], w', ?_⟩
      intro x
      rw [e3]
      simp only [remove]
      split
      · rename_i e; subst e; rw [hm]; rfl
      · exact hg x
  | flush =>
    obtain ⟨w', e⟩ := flush_spec hw
    refine ⟨flush p, rfl, w', ?_⟩
    intro x
    rw [e]; rfl

/-- C26. For every requested size, keying and history of calls with non-empty lists, the table answers exactly as a finite map would,
and no undefined behaviour occurs. -/
theorem C26_table_is_a_map (b : BitVec 64) (hash : Option (BitVec 64 → BitVec 64)) (h0 : b ≠ 0) (h1 : b.toNat ≤ 2 ^ 63)
    (ops : List Op) (hv : ∀ op ∈ ops, ValidOp op) :
    ∃ p p', create b hash = some p ∧ run p ops = .ok (p', specRun empty ops) := by
  obtain ⟨p, e, w, g⟩ := create_wf b hash h0 h1
  have h : Refines p empty := ⟨w, by intro x; rw [g]; rfl⟩
  have key : ∀ (ops : List Op) (p : Pft) (m : Map (BitVec 64) (List Int)), Refines p m → (∀ op ∈ ops, ValidOp op) →
      ∃ p', run p ops = .ok (p', specRun m ops) := by
    intro ops
    induction ops with
    | nil => intro p m _ _; exact ⟨p, rfl⟩
    | cons op ops ih =>
      intro p m h hv
      obtain ⟨p1, e1, h1⟩ := step_refines h op (hv op (by simp))
      obtain ⟨p2, e2⟩ := ih p1 _ h1 (fun o ho => hv o (by simp [ho]))
      exact ⟨p2, by simp [run, e1, e2, specRun]⟩
  obtain ⟨p', e'⟩ := key ops p empty h hv
  exact ⟨p, p', e, e'⟩

/-- C26. The number of buckets is the least power of two that is at least the request (for requests up to 2^63), and 0 is refused. -/
theorem C26_bucket_count (b : BitVec 64) (hash : Option (BitVec 64 → BitVec 64)) :
    (b = 0 → create b hash = none) ∧
    (b ≠ 0 → b.toNat ≤ 2 ^ 63 → ∃ p m, create b hash = some p ∧ p.buckets.length = 2 ^ m ∧ p.size.toNat = 2 ^ m ∧
      b.toNat ≤ 2 ^ m ∧ ∀ k, b.toNat ≤ 2 ^ k → m ≤ k) := by
  constructor
  · intro h; simp [create, h]
  · intro h0 h1
    obtain ⟨m, hm⟩ := roundUp_spec b h0 h1
    obtain ⟨p, e, w, _⟩ := create_wf b hash h0 h1
    have hs : p.size = roundUp b := by
      unfold create at e
      rw [if_neg h0] at e
      rw [← Option.some.inj e]
    exact ⟨p, m, e, by rw [w.size, hs]; exact hm.1, by rw [hs]; exact hm.1, hm.2⟩

/-- Non-vacuity: addresses 1 and 5 collide in a table of four buckets (three requested). -/
example : (∃ p p', create 3 none = some p ∧ p.buckets.length = 4 ∧
    run p [.insert 1 [7] true, .insert 5 [8, 9] true, .insert 1 [3] true, .delete 1, .lookup 1, .lookup 5, .flush, .lookup 5] =
      .ok (p', [.ret 0, .ret 0, .ret (-EPERM), .ret 0, .ret (-1), .found [8, 9] 2, .ret 0, .ret (-1)])) ∧
    (∀ op ∈ [Op.insert 1 [7] true, .insert 5 [8, 9] true, .insert 1 [3] true, .delete 1, .lookup 1, .lookup 5, .flush, .lookup 5],
      ValidOp op) := by
  exact ⟨⟨_, _, rfl, rfl, rfl⟩, by decide⟩

end Ouro.Pft
