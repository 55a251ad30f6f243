import Verif.Proof.GraphTables
import Mathlib.Data.List.Perm.Subperm

namespace Ouro.Graph

open Spec.Routing (Walk Dist Event announced)

/-- The event announced by a call. -/
def Call.event : Call → Event
  | .update s d => .up s d
  | .del s d => .down s d

theorem calls_rep : ∀ (cs : List Call) (g : Graph) (c : Nat → Nat → Nat), Rep g c →
    (∀ x ∈ cs, x.event.ends.1 ≠ x.event.ends.2) → ∃ g', calls g cs = .ok g' ∧ Rep g' ((cs.map Call.event).foldl Spec.Routing.step c)
  | [], g, c, R, _ => ⟨g, rfl, R⟩
  | .update s d :: cs, g, c, R, h => by
    have R1 := updateEdge_rep (s := s) (d := d) R (h _ (List.mem_cons_self ..))
    obtain ⟨g', e, R'⟩ := calls_rep cs _ _ R1 (fun x hx => h x (List.mem_cons_of_mem _ hx))
    refine ⟨g', ?_, R'⟩
    rw [calls, call, bind_ok', e]
  | .del s d :: cs, g, c, R, h => by
    obtain ⟨g1, e1, R1⟩ := delEdge_rep (s := s) (d := d) R (h _ (List.mem_cons_self ..))
    obtain ⟨g', e, R'⟩ := calls_rep cs _ _ R1 (fun x hx => h x (List.mem_cons_of_mem _ hx))
    refine ⟨g', ?_, R'⟩
    rw [calls, call, e1]
    simp only [bind_ok', Outcome.pure_eq]
    exact e

theorem announced_mentions : ∀ (es : List Event) (c : Nat → Nat → Nat) (a b : Nat), 0 < es.foldl Spec.Routing.step c a b →
    0 < c a b ∨ a ∈ es.flatMap (fun e => [e.ends.1, e.ends.2])
  | [], c, a, b, h => Or.inl h
  | e :: es, c, a, b, h => by
    rw [List.foldl_cons] at h
    rw [List.flatMap_cons]
    rcases announced_mentions es _ a b h with h | h
    · cases e with
      | up s d =>
        simp only [Spec.Routing.step] at h
        split at h
        · rename_i hc
          right
          simp only [Event.ends, List.mem_append, List.mem_cons]
          left; rcases hc with hc | hc
          · exact Or.inl hc.1
          · exact Or.inr (Or.inl hc.1)
        · exact Or.inl h
      | down s d =>
        simp only [Spec.Routing.step] at h
        split at h
        · exact Or.inl (by omega)
        · exact Or.inl h
    · exact Or.inr (List.mem_append_right _ h)

theorem nodup_subset_length {l m : List Nat} (h : l.Nodup) (hs : ∀ x ∈ l, x ∈ m) : l.length ≤ m.length :=
  (List.Nodup.subperm h hs).length_le

theorem verts_le {g} {es : List Event} (R : Rep g (announced es)) : g.verts.length ≤ 2 * es.length := by
  have h1 : (g.verts.map Vertex.addr).length ≤ (es.flatMap (fun e => [e.ends.1, e.ends.2])).length := by
    apply nodup_subset_length (addr_nodup R.toRep0)
    intro x hx
    obtain ⟨v, hv, rfl⟩ := List.mem_map.1 hx
    obtain ⟨b, hb⟩ := (R.has v.addr).1 ⟨v, hv, rfl⟩
    rcases announced_mentions es _ _ _ hb with h | h
    · omega
    · exact h
  have h2 : (es.flatMap (fun e => [e.ends.1, e.ends.2])).length = 2 * es.length := by
    clear h1 R
    induction es with
    | nil => rfl
    | cons e es ih => rw [List.flatMap_cons, List.length_append, ih]; simp; omega
  rw [List.length_map, h2] at h1
  exact h1

theorem history (cs : List Call) (hne : ∀ x ∈ cs, x.event.ends.1 ≠ x.event.ends.2) :
    ∃ g, calls create cs = .ok g ∧ Rep g (announced (cs.map Call.event)) ∧ g.verts.length ≤ 2 * cs.length := by
  obtain ⟨g, e, R⟩ := calls_rep cs create _ rep_create hne
  refine ⟨g, e, R, ?_⟩
  have := verts_le R
  rwa [List.length_map] at this

/-- Tables whose next hops are one hop nearer deliver. -/
theorem delivers {link : Nat → Nat → Prop} {table : Nat → Spec.Routing.Table}
    (h1 : ∀ a d b, Spec.Routing.mayForward table d a b → a ≠ d ∧ ∀ n, Dist link a d n → ∃ m, n = m + 1 ∧ Dist link b d m)
    (h2 : ∀ a d n, Dist link a d n → a ≠ d → ∃ b, Spec.Routing.mayForward table d a b) : Spec.Routing.Delivers link table := by
  have hops : ∀ s d n k x, Dist link s d n → Walk (Spec.Routing.mayForward table d) k s x → k ≤ n ∧ Dist link x d (n - k) := by
    intro s d n k x hd hw
    induction hw generalizing n with
    | nil a => exact ⟨Nat.zero_le _, hd⟩
    | cons hl _ ih =>
      obtain ⟨m, rfl, hm⟩ := (h1 _ _ _ hl).2 n hd
      obtain ⟨k1, k2⟩ := ih m hm
      exact ⟨by omega, by rw [Nat.add_sub_add_right]; exact k2⟩
  refine ⟨hops, fun x d n hd hne => h2 x d n hd hne, ?_⟩
  intro s d n k x hd hw
  obtain ⟨h3, h4⟩ := hops s d n k x hd hw
  constructor
  · rintro rfl
    have := dist_uniq h4 (dist_self link x)
    omega
  · rintro rfl
    rw [Nat.sub_self] at h4
    exact dist_zero h4

end Ouro.Graph
