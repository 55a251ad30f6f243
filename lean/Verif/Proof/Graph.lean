import Verif.Model.Graph
import Verif.Spec.Routing
import Verif.Proof.Tac

namespace Ouro.Graph

open Spec.Routing (Walk Dist)

/-- There is an edge from `a` to `b` with count `k`. -/
def W (g : Graph) (a b k : Nat) : Prop := ∃ v ∈ g.verts, v.addr = a ∧ ⟨b, k⟩ ∈ v.edges

def HasV (g : Graph) (a : Nat) : Prop := ∃ v ∈ g.verts, v.addr = a

/-- The graph represents the counts `c`; there may be vertices without edges. -/
structure Rep0 (g : Graph) (c : Nat → Nat → Nat) : Prop where
  sorted : g.verts.Pairwise (fun v w => v.addr < w.addr)
  idx : ∀ (i : Nat) (v : Vertex), g.verts[i]? = some v → v.index = i
  nr : g.nr = g.verts.length
  nodup : ∀ v ∈ g.verts, (v.edges.map Edge.nb).Nodup
  edges : ∀ a b k, W g a b k ↔ k = c a b ∧ 0 < c a b

theorem Rep0.uniq {g c} (R : Rep0 g c) {v w : Vertex} (hv : v ∈ g.verts) (hw : w ∈ g.verts) (h : v.addr = w.addr) : v = w := by
  obtain ⟨i, hi, rfl⟩ := List.getElem_of_mem hv
  obtain ⟨j, hj, rfl⟩ := List.getElem_of_mem hw
  have hp := List.pairwise_iff_getElem.1 R.sorted
  rcases Nat.lt_trichotomy i j with hij | hij | hij
  · have := hp i j hi hj hij; omega
  · subst hij; rfl
  · have := hp j i hj hi hij; omega

theorem findVertex_some {g : Graph} {a : Nat} {v : Vertex} (h : findVertex g a = some v) : v ∈ g.verts ∧ v.addr = a := by
  unfold findVertex at h
  exact ⟨List.mem_of_find?_eq_some h, by simpa using List.find?_some h⟩

theorem findVertex_none {g : Graph} {a : Nat} (h : findVertex g a = none) : ¬ HasV g a := by
  rintro ⟨v, hv, rfl⟩
  unfold findVertex at h
  have := List.find?_eq_none.1 h v hv
  simp at this

theorem findVertex_of {g c} (R : Rep0 g c) {v : Vertex} (hv : v ∈ g.verts) : findVertex g v.addr = some v := by
  cases h : findVertex g v.addr with
  | none => exact absurd ⟨v, hv, rfl⟩ (findVertex_none h)
  | some w =>
    have := findVertex_some h
    rw [R.uniq hv this.1 this.2.symm]

theorem findEdge_some {es : List Edge} {d : Nat} {e : Edge} (h : findEdge es d = some e) : e ∈ es ∧ e.nb = d := by
  unfold findEdge at h
  exact ⟨List.mem_of_find?_eq_some h, by simpa using List.find?_some h⟩

theorem findEdge_none {es : List Edge} {d : Nat} (h : findEdge es d = none) : ∀ e ∈ es, e.nb ≠ d := by
  intro e he
  unfold findEdge at h
  have := List.find?_eq_none.1 h e he
  simpa using this

/-! ### Vertices -/

theorem takeWhile_spec (vs : List Vertex) (a : Nat) : ∀ v ∈ vs.takeWhile (fun v => ¬ v.addr > a), v.addr ≤ a := by
  induction vs with
  | nil => simp
  | cons w ws ih =>
    intro v hv
    rw [List.takeWhile_cons] at hv
    split at hv
    · rename_i h
      rcases List.mem_cons.1 hv with rfl | hv
      · simpa using h
      · exact ih v hv
    · simp at hv

theorem dropWhile_spec (vs : List Vertex) (a : Nat) (hs : vs.Pairwise (fun v w => v.addr < w.addr)) :
    ∀ v ∈ vs.dropWhile (fun v => ¬ v.addr > a), a < v.addr := by
  induction vs with
  | nil => simp
  | cons w ws ih =>
    intro v hv
    rw [List.dropWhile_cons] at hv
    have hp := List.pairwise_cons.1 hs
    split at hv
    · exact ih hp.2 v hv
    · rename_i h
      have hw : a < w.addr := by simpa using h
      rcases List.mem_cons.1 hv with rfl | hv
      · exact hw
      · have := hp.1 v hv; omega

theorem addVertex_verts (g : Graph) (a : Nat) (hs : g.verts.Pairwise (fun v w => v.addr < w.addr)) (hn : ¬ HasV g a) :
    ∃ pre post, g.verts = pre ++ post ∧ (∀ v ∈ pre, v.addr < a) ∧ (∀ v ∈ post, a < v.addr) ∧
      (addVertex g a).verts = pre ++ ⟨a, pre.length, []⟩ :: post.map (fun v => { v with index := v.index + 1 }) ∧
      (addVertex g a).nr = g.nr + 1 := by
  refine ⟨g.verts.takeWhile (fun v => ¬ v.addr > a), g.verts.dropWhile (fun v => ¬ v.addr > a),
    (List.takeWhile_append_dropWhile).symm, ?_, dropWhile_spec _ _ hs, ?_, rfl⟩
  · intro v hv
    have h1 := takeWhile_spec _ _ v hv
    have h2 : v ∈ g.verts := (List.takeWhile_prefix _).subset hv
    rcases Nat.lt_or_ge v.addr a with h | h
    · exact h
    · exact absurd ⟨v, h2, by omega⟩ hn
  · unfold addVertex
    simp only [List.map_append, List.map_cons, gt_iff_lt, Nat.lt_irrefl, if_false]
    congr 1
    · conv_rhs => rw [← List.map_id (List.takeWhile _ _)]
      apply List.map_congr_left
      intro v hv
      have h1 := takeWhile_spec g.verts a v (by simpa using hv)
      rw [if_neg (by omega)]; rfl
    · congr 1
      apply List.map_congr_left
      intro v hv
      have h1 := dropWhile_spec g.verts a hs v (by simpa using hv)
      rw [if_pos h1]

theorem mem_addVertex {g : Graph} {a : Nat} (hs : g.verts.Pairwise (fun v w => v.addr < w.addr)) (hn : ¬ HasV g a) (x : Nat) (es : List Edge) :
    (∃ v ∈ (addVertex g a).verts, v.addr = x ∧ v.edges = es) ↔ (∃ v ∈ g.verts, v.addr = x ∧ v.edges = es) ∨ (x = a ∧ es = []) := by
  obtain ⟨pre, post, e, h1, h2, e', _⟩ := addVertex_verts g a hs hn
  rw [e', e]
  simp only [List.mem_append, List.mem_cons, List.mem_map]
  constructor
  · rintro ⟨v, hv | rfl | ⟨w, hw, rfl⟩, rfl, rfl⟩
    · exact Or.inl ⟨v, Or.inl hv, rfl, rfl⟩
    · exact Or.inr ⟨rfl, rfl⟩
    · exact Or.inl ⟨w, Or.inr hw, rfl, rfl⟩
  · rintro (⟨v, hv | hv, rfl, rfl⟩ | ⟨rfl, rfl⟩)
    · exact ⟨v, Or.inl hv, rfl, rfl⟩
    · exact ⟨_, Or.inr (Or.inr ⟨v, hv, rfl⟩), rfl, rfl⟩
    · exact ⟨_, Or.inr (Or.inl rfl), rfl, rfl⟩

theorem W_iff {g : Graph} {a b k : Nat} : W g a b k ↔ ∃ es, (∃ v ∈ g.verts, v.addr = a ∧ v.edges = es) ∧ ⟨b, k⟩ ∈ es := by
  constructor
  · rintro ⟨v, hv, h1, h2⟩; exact ⟨_, ⟨v, hv, h1, rfl⟩, h2⟩
  · rintro ⟨_, ⟨v, hv, h1, rfl⟩, h2⟩; exact ⟨v, hv, h1, h2⟩

theorem HasV_iff {g : Graph} {a : Nat} : HasV g a ↔ ∃ es, ∃ v ∈ g.verts, v.addr = a ∧ v.edges = es := by
  constructor
  · rintro ⟨v, hv, h⟩; exact ⟨_, v, hv, h, rfl⟩
  · rintro ⟨_, v, hv, h, _⟩; exact ⟨v, hv, h⟩

theorem addVertex_rep {g c} (R : Rep0 g c) {a : Nat} (hn : ¬ HasV g a) :
    Rep0 (addVertex g a) c ∧ ∀ x, HasV (addVertex g a) x ↔ HasV g x ∨ x = a := by
  have hm := fun x es => mem_addVertex R.sorted hn x es
  obtain ⟨pre, post, e, h1, h2, e', en⟩ := addVertex_verts g a R.sorted hn
  have hs := R.sorted
  rw [e, List.pairwise_append] at hs
  refine ⟨⟨?_, ?_, ?_, ?_, ?_⟩, ?_⟩
  · rw [e', List.pairwise_append]
    refine ⟨hs.1, List.pairwise_cons.2 ⟨?_, ?_⟩, ?_⟩
    · intro w hw
      obtain ⟨x, hx, rfl⟩ := List.mem_map.1 hw
      exact h2 x hx
    · rw [List.pairwise_map]; exact hs.2.1
    · intro v hv w hw
      rcases List.mem_cons.1 hw with rfl | hw
      · exact h1 v hv
      · obtain ⟨x, hx, rfl⟩ := List.mem_map.1 hw
        exact hs.2.2 v hv x hx
  · intro i v hi
    rw [e', List.getElem?_append] at hi
    have hidx := R.idx
    rw [e] at hidx
    split at hi
    · exact hidx i v (by rw [List.getElem?_append_left (by assumption)]; exact hi)
    · rename_i hge
      rcases Nat.eq_or_lt_of_le (Nat.le_of_not_lt hge) with h | h
      · rw [← h] at hi
        simp at hi
        rw [← hi]; exact h
      · obtain ⟨j, rfl⟩ : ∃ j, i = pre.length + 1 + j := ⟨i - pre.length - 1, by omega⟩
        rw [show pre.length + 1 + j - pre.length = j + 1 by omega, List.getElem?_cons_succ, List.getElem?_map] at hi
        cases hw : post[j]? with
        | none => rw [hw] at hi; cases hi
        | some w =>
          rw [hw] at hi
          simp at hi
          rw [← hi]
          have := hidx (pre.length + j) w (by rw [List.getElem?_append_right (by omega)]; simpa using hw)
          dsimp only
          omega
  · rw [en, e', R.nr, e]; simp; omega
  · intro v hv
    have := (hm v.addr v.edges).1 ⟨v, hv, rfl, rfl⟩
    rcases this with ⟨w, hw, _, h⟩ | ⟨_, h⟩
    · rw [← h]; exact R.nodup w hw
    · rw [h]; simp
  · intro x y k
    rw [← R.edges, W_iff, W_iff]
    constructor
    · rintro ⟨es, h, hk⟩
      rcases (hm _ _).1 h with h | ⟨_, rfl⟩
      · exact ⟨es, h, hk⟩
      · cases hk
    · rintro ⟨es, h, hk⟩
      exact ⟨es, (hm _ _).2 (Or.inl h), hk⟩
  · intro x
    rw [HasV_iff, HasV_iff]
    constructor
    · rintro ⟨es, h⟩
      rcases (hm _ _).1 h with h | ⟨rfl, _⟩
      · exact Or.inl ⟨es, h⟩
      · exact Or.inr rfl
    · rintro (⟨es, h⟩ | rfl)
      · exact ⟨es, (hm _ _).2 (Or.inl h)⟩
      · exact ⟨[], (hm _ _).2 (Or.inr ⟨rfl, rfl⟩)⟩

theorem ensure_rep {g c} (R : Rep0 g c) (a : Nat) :
    Rep0 (ensure g a) c ∧ ∀ x, HasV (ensure g a) x ↔ HasV g x ∨ x = a := by
  unfold ensure
  split
  · rename_i v h
    refine ⟨R, fun x => ⟨Or.inl, ?_⟩⟩
    rintro (h' | rfl)
    · exact h'
    · exact ⟨v, findVertex_some h⟩
  · rename_i h
    exact addVertex_rep R (findVertex_none h)

theorem delVertex_verts {g c} (R : Rep0 g c) {v : Vertex} (hv : v ∈ g.verts) :
    ∃ pre post, g.verts = pre ++ v :: post ∧
      (delVertex g v.addr).verts = pre ++ post.map (fun w => { w with index := w.index - 1 }) := by
  obtain ⟨pre, post, e⟩ := List.append_of_mem hv
  have hs := R.sorted
  rw [e, List.pairwise_append, List.pairwise_cons] at hs
  refine ⟨pre, post, e, ?_⟩
  unfold delVertex
  simp only
  rw [e, List.filter_append, List.filter_cons]
  have f1 : pre.filter (fun w => decide (w.addr ≠ v.addr)) = pre := by
    rw [List.filter_eq_self]
    intro w hw
    have := hs.2.2 w hw v (List.mem_cons_self ..)
    simp; omega
  have f2 : post.filter (fun w => decide (w.addr ≠ v.addr)) = post := by
    rw [List.filter_eq_self]
    intro w hw
    have := hs.2.1.1 w hw
    simp; omega
  rw [f1, f2]
  simp only [ne_eq, not_true_eq_false, decide_false, Bool.false_eq_true, if_false, List.map_append]
  congr 1
  · conv_rhs => rw [← List.map_id pre]
    apply List.map_congr_left
    intro w hw
    have := hs.2.2 w hw v (List.mem_cons_self ..)
    rw [if_neg (by omega)]; rfl
  · apply List.map_congr_left
    intro w hw
    have := hs.2.1.1 w hw
    rw [if_pos (by omega)]

theorem delVertex_rep {g c} (R : Rep0 g c) {v : Vertex} (hv : v ∈ g.verts) (he : v.edges = []) :
    Rep0 (delVertex g v.addr) c ∧ ∀ x, HasV (delVertex g v.addr) x ↔ HasV g x ∧ x ≠ v.addr := by
  obtain ⟨pre, post, e, e'⟩ := delVertex_verts R hv
  have hs := R.sorted
  rw [e, List.pairwise_append, List.pairwise_cons] at hs
  have hm : ∀ x es, (∃ w ∈ (delVertex g v.addr).verts, w.addr = x ∧ w.edges = es) ↔
      (∃ w ∈ g.verts, w.addr = x ∧ w.edges = es) ∧ x ≠ v.addr := by
    intro x es
    rw [e', e]
    simp only [List.mem_append, List.mem_cons, List.mem_map]
    constructor
    · rintro ⟨w, hw | ⟨u, hu, rfl⟩, rfl, rfl⟩
      · have := hs.2.2 w hw v (List.mem_cons_self ..)
        exact ⟨⟨w, Or.inl hw, rfl, rfl⟩, by omega⟩
      · have := hs.2.1.1 u hu
        exact ⟨⟨u, Or.inr (Or.inr hu), rfl, rfl⟩, by dsimp only; omega⟩
    · rintro ⟨⟨w, hw | rfl | hw, rfl, rfl⟩, hne⟩
      · exact ⟨w, Or.inl hw, rfl, rfl⟩
      · exact absurd rfl hne
      · exact ⟨_, Or.inr ⟨w, hw, rfl⟩, rfl, rfl⟩
  refine ⟨⟨?_, ?_, ?_, ?_, ?_⟩, ?_⟩
  · rw [e', List.pairwise_append]
    refine ⟨hs.1, ?_, ?_⟩
    · rw [List.pairwise_map]; exact hs.2.1.2
    · intro w hw u hu
      obtain ⟨x, hx, rfl⟩ := List.mem_map.1 hu
      exact hs.2.2 w hw x (List.mem_cons_of_mem _ hx)
  · intro i w hi
    rw [e', List.getElem?_append] at hi
    have hidx := R.idx
    rw [e] at hidx
    split at hi
    · exact hidx i w (by rw [List.getElem?_append_left (by assumption)]; exact hi)
    · obtain ⟨j, rfl⟩ : ∃ j, i = pre.length + j := ⟨i - pre.length, by omega⟩
      rw [show pre.length + j - pre.length = j by omega, List.getElem?_map] at hi
      cases hw : post[j]? with
      | none => rw [hw] at hi; cases hi
      | some u =>
        rw [hw] at hi
        simp at hi
        rw [← hi]
        have := hidx (pre.length + (j + 1)) u (by rw [List.getElem?_append_right (by omega)]; simpa using hw)
        dsimp only
        omega
  · show g.nr - 1 = _
    rw [e', R.nr, e]; simp
  · intro w hw
    obtain ⟨⟨u, hu, _, h⟩, _⟩ := (hm w.addr w.edges).1 ⟨w, hw, rfl, rfl⟩
    rw [← h]; exact R.nodup u hu
  · intro x y k
    rw [← R.edges, W_iff, W_iff]
    constructor
    · rintro ⟨es, h, hk⟩
      exact ⟨es, ((hm _ _).1 h).1, hk⟩
    · rintro ⟨es, h, hk⟩
      refine ⟨es, (hm _ _).2 ⟨h, ?_⟩, hk⟩
      rintro rfl
      obtain ⟨w, hw, hwa, rfl⟩ := h
      rw [R.uniq hw hv hwa, he] at hk
      cases hk
  · intro x
    rw [HasV_iff, HasV_iff]
    constructor
    · rintro ⟨es, h⟩
      exact ⟨⟨es, ((hm _ _).1 h).1⟩, ((hm _ _).1 h).2⟩
    · rintro ⟨⟨es, h⟩, hne⟩
      exact ⟨es, (hm _ _).2 ⟨h, hne⟩⟩

/-! ### Edges -/

theorem setEdges_rep {g c} (R : Rep0 g c) {a : Nat} {f : List Edge → List Edge} {c' : Nat → Nat → Nat}
    (hnd : ∀ es, (es.map Edge.nb).Nodup → ((f es).map Edge.nb).Nodup)
    (hsame : ∀ x y, x ≠ a → c' x y = c x y)
    (hf : ∀ v ∈ g.verts, v.addr = a → ∀ b k, ⟨b, k⟩ ∈ f v.edges ↔ k = c' a b ∧ 0 < c' a b) (hv : HasV g a) :
    Rep0 (setEdges g a f) c' ∧ ∀ x, HasV (setEdges g a f) x ↔ HasV g x := by
  have hadr : ∀ v : Vertex, (if v.addr = a then { v with edges := f v.edges } else v : Vertex).addr = v.addr := by
    intro v; split <;> rfl
  refine ⟨⟨?_, ?_, ?_, ?_, ?_⟩, ?_⟩
  · unfold setEdges
    simp only [List.pairwise_map]
    refine R.sorted.imp ?_
    intro v w h; rw [hadr, hadr]; exact h
  · intro i v hi
    unfold setEdges at hi
    simp only [List.getElem?_map] at hi
    cases hw : g.verts[i]? with
    | none => rw [hw] at hi; cases hi
    | some w =>
      rw [hw] at hi
      have := R.idx i w hw
      simp at hi
      rw [← hi]
      split <;> exact this
  · simp [setEdges, R.nr]
  · intro v hv
    unfold setEdges at hv
    obtain ⟨w, hw, rfl⟩ := List.mem_map.1 hv
    split
    · exact hnd _ (R.nodup w hw)
    · exact R.nodup w hw
  · intro x y k
    unfold W setEdges
    simp only [List.mem_map]
    by_cases hx : x = a
    · subst hx
      obtain ⟨v0, hv0, hva⟩ := hv
      rw [← hf v0 hv0 hva]
      constructor
      · rintro ⟨_, ⟨w, hw, rfl⟩, h1, h2⟩
        rw [hadr] at h1
        rw [if_pos h1] at h2
        rw [R.uniq hw hv0 (by omega)] at h2
        exact h2
      · intro h
        exact ⟨_, ⟨v0, hv0, rfl⟩, by rw [hadr]; exact hva, by rw [if_pos hva]; exact h⟩
    · rw [hsame x y hx, ← R.edges]
      constructor
      · rintro ⟨_, ⟨w, hw, rfl⟩, h1, h2⟩
        rw [hadr] at h1
        rw [if_neg (by omega)] at h2
        exact ⟨w, hw, h1, h2⟩
      · rintro ⟨w, hw, h1, h2⟩
        exact ⟨_, ⟨w, hw, rfl⟩, by rw [hadr]; exact h1, by rw [if_neg (by omega)]; exact h2⟩
  · intro x
    unfold HasV setEdges
    simp only [List.mem_map]
    constructor
    · rintro ⟨_, ⟨w, hw, rfl⟩, h1⟩
      rw [hadr] at h1
      exact ⟨w, hw, h1⟩
    · rintro ⟨w, hw, h1⟩
      exact ⟨_, ⟨w, hw, rfl⟩, by rw [hadr]; exact h1⟩

theorem announce_nb (d : Nat) (es : List Edge) (h : (es.map Edge.nb).Nodup) : ((announce d es).map Edge.nb).Nodup := by
  unfold announce
  split
  · rw [List.map_map]
    have : (Edge.nb ∘ fun e : Edge => if e.nb = d then { e with announced := e.announced + 1 } else e) = Edge.nb := by
      funext e; simp only [Function.comp]; split <;> rfl
    rw [this]; exact h
  · rename_i hn
    rw [List.map_cons, List.nodup_cons]
    refine ⟨?_, h⟩
    intro hm
    obtain ⟨e, he, hd⟩ := List.mem_map.1 hm
    exact findEdge_none hn e he hd

theorem mem_announce (d : Nat) (es : List Edge) (f : Nat → Nat)
    (hf : ∀ b k, ⟨b, k⟩ ∈ es ↔ k = f b ∧ 0 < f b) (b k : Nat) :
    ⟨b, k⟩ ∈ announce d es ↔ k = (if b = d then f b + 1 else f b) ∧ 0 < (if b = d then f b + 1 else f b) := by
  unfold announce
  split
  · rename_i e he
    obtain ⟨hmem, hnb⟩ := findEdge_some he
    have hfd := (hf e.nb e.announced).1 hmem
    rw [hnb] at hfd
    simp only [List.mem_map]
    constructor
    · rintro ⟨x, hx, h2⟩
      have hx' := (hf x.nb x.announced).1 hx
      split at h2
      · rename_i hxd
        cases h2
        rw [if_pos hxd]; omega
      · rename_i hxd
        subst h2
        rw [if_neg hxd]; exact hx'
    · rintro ⟨h2, h3⟩
      by_cases hb : b = d
      · subst hb
        rw [if_pos rfl] at h2
        refine ⟨e, hmem, ?_⟩
        rw [if_pos hnb]
        cases e
        simp at *
        omega
      · rw [if_neg hb] at h2 h3
        exact ⟨⟨b, k⟩, (hf b k).2 ⟨h2, h3⟩, by rw [if_neg hb]⟩
  · rename_i hn
    have hno := findEdge_none hn
    have hz : f d = 0 := by
      rcases Nat.eq_zero_or_pos (f d) with h0 | h0
      · exact h0
      · exact absurd rfl (hno ⟨d, f d⟩ ((hf _ _).2 ⟨rfl, h0⟩))
    rw [List.mem_cons]
    by_cases hb : b = d
    · subst hb
      rw [if_pos rfl, hz]
      constructor
      · rintro (h2 | h2)
        · cases h2; omega
        · exact absurd rfl (hno _ h2)
      · rintro ⟨rfl, _⟩; exact Or.inl rfl
    · rw [if_neg hb, ← hf]
      constructor
      · rintro (h2 | h2)
        · cases h2; exact absurd rfl hb
        · exact h2
      · exact Or.inr

theorem withdraw_nb (d : Nat) (es : List Edge) (h : (es.map Edge.nb).Nodup) : ((withdraw d es).map Edge.nb).Nodup := by
  unfold withdraw
  refine List.Nodup.sublist (List.Sublist.map _ List.filter_sublist) ?_
  rw [List.map_map]
  have : (Edge.nb ∘ fun e : Edge => if e.nb = d then { e with announced := e.announced - 1 } else e) = Edge.nb := by
    funext e; simp only [Function.comp]; split <;> rfl
  rw [this]; exact h

theorem mem_withdraw (d : Nat) (es : List Edge) (f : Nat → Nat)
    (hf : ∀ b k, ⟨b, k⟩ ∈ es ↔ k = f b ∧ 0 < f b) (b k : Nat) :
    ⟨b, k⟩ ∈ withdraw d es ↔ k = (if b = d then f b - 1 else f b) ∧ 0 < (if b = d then f b - 1 else f b) := by
  unfold withdraw
  simp only [List.mem_filter, List.mem_map, decide_eq_true_eq]
  constructor
  · rintro ⟨⟨x, hx, h2⟩, h3⟩
    have hx' := (hf x.nb x.announced).1 hx
    split at h2
    · rename_i hxd
      cases h2
      rw [if_pos hxd]
      have : ¬ x.announced - 1 = 0 := fun hh => h3 ⟨hxd, hh⟩
      omega
    · rename_i hxd
      subst h2
      rw [if_neg hxd]; exact hx'
  · rintro ⟨h2, h3⟩
    by_cases hb : b = d
    · subst hb
      rw [if_pos rfl] at h2 h3
      refine ⟨⟨⟨b, f b⟩, (hf _ _).2 ⟨rfl, by omega⟩, ?_⟩, ?_⟩
      · rw [if_pos rfl, h2]
      · rintro ⟨_, hh⟩; omega
    · rw [if_neg hb] at h2 h3
      refine ⟨⟨⟨b, k⟩, (hf b k).2 ⟨h2, h3⟩, by rw [if_neg hb]⟩, ?_⟩
      rintro ⟨hh, _⟩; exact hb hh

theorem Rep0.mem {g c} (R : Rep0 g c) {v : Vertex} (hv : v ∈ g.verts) (b k : Nat) : ⟨b, k⟩ ∈ v.edges ↔ k = c v.addr b ∧ 0 < c v.addr b := by
  rw [← R.edges]
  constructor
  · intro h; exact ⟨v, hv, rfl, h⟩
  · rintro ⟨w, hw, h1, h2⟩
    rw [R.uniq hv hw h1.symm]; exact h2

/-- The graph represents the counts, and has a vertex exactly for the nodes that have links. -/
structure Rep (g : Graph) (c : Nat → Nat → Nat) : Prop extends Rep0 g c where
  has : ∀ a, HasV g a ↔ ∃ b, 0 < c a b
  sym : ∀ a b, c a b = c b a
  irr : ∀ a, c a a = 0

theorem rep_create : Rep create (fun _ _ => 0) := by
  refine ⟨⟨List.Pairwise.nil, ?_, rfl, ?_, ?_⟩, ?_, fun _ _ => rfl, fun _ => rfl⟩
  · intro i v h; simp [create] at h
  · intro v h; simp [create] at h
  · intro a b k; simp [W, create]
  · intro a; simp [HasV, create]

theorem updateEdge_rep {g c} (R : Rep g c) {s d : Nat} (hsd : s ≠ d) :
    Rep (updateEdge g s d) (Spec.Routing.step c (.up s d)) := by
  obtain ⟨R1, h1⟩ := ensure_rep R.toRep0 s
  obtain ⟨R2, h2⟩ := ensure_rep R1 d
  have hs2 : HasV (ensure (ensure g s) d) s := (h2 s).2 (Or.inl ((h1 s).2 (Or.inr rfl)))
  have hd2 : HasV (ensure (ensure g s) d) d := (h2 d).2 (Or.inr rfl)
  obtain ⟨R3, h3⟩ := setEdges_rep (c' := fun a b => if a = s ∧ b = d then c a b + 1 else c a b) (f := announce d) R2 (announce_nb d)
    (fun x y hx => if_neg (fun hh => hx hh.1))
    (fun v hv hva b k => by
      rw [mem_announce d v.edges (c v.addr) (fun b k => R2.mem hv b k), hva]
      simp) hs2
  obtain ⟨R4, h4⟩ := setEdges_rep (c' := Spec.Routing.step c (.up s d)) (f := announce s) R3 (announce_nb s)
    (fun x y hx => by
      simp only [Spec.Routing.step]
      congr 1
      simp only [hx, false_and, or_false])
    (fun v hv hva b k => by
      rw [mem_announce s v.edges _ (fun b k => R3.mem hv b k), hva]
      simp only [Spec.Routing.step, hsd.symm, false_and, if_false, false_or, true_and]) ((h3 d).2 hd2)
  refine ⟨R4, ?_, ?_, ?_⟩
  · intro a
    show HasV (setEdges (setEdges (ensure (ensure g s) d) s (announce d)) d (announce s)) a ↔ _
    rw [h4, h3, h2, h1, R.has]
    simp only [Spec.Routing.step]
    constructor
    · rintro ((⟨b, hb⟩ | rfl) | rfl)
      · refine ⟨b, ?_⟩; split <;> omega
      · exact ⟨d, by rw [if_pos (Or.inl ⟨rfl, rfl⟩)]; omega⟩
      · exact ⟨s, by rw [if_pos (Or.inr ⟨rfl, rfl⟩)]; omega⟩
    · rintro ⟨b, hb⟩
      split at hb
      · rename_i h
        rcases h with h | h
        · exact Or.inl (Or.inr h.1)
        · exact Or.inr h.1
      · exact Or.inl (Or.inl ⟨b, hb⟩)
  · intro a b
    simp only [Spec.Routing.step]
    rw [R.sym a b]
    by_cases h : (a = s ∧ b = d) ∨ (a = d ∧ b = s)
    · rw [if_pos h, if_pos (by tauto)]
    · rw [if_neg h, if_neg (by tauto)]
  · intro a
    simp only [Spec.Routing.step]
    rw [if_neg (by rintro (⟨rfl, h⟩ | ⟨rfl, h⟩) <;> exact hsd (by omega)), R.irr]

theorem prune_rep {g c} (R : Rep0 g c) (a : Nat) :
    Rep0 (prune g a) c ∧ ∀ x, HasV (prune g a) x ↔ HasV g x ∧ (x = a → ∃ b, 0 < c a b) := by
  unfold prune
  split
  · rename_i v h
    obtain ⟨hv, rfl⟩ := findVertex_some h
    split
    · rename_i he
      obtain ⟨R', h'⟩ := delVertex_rep R hv he
      refine ⟨R', fun x => ?_⟩
      rw [h']
      constructor
      · rintro ⟨h1, h2⟩; exact ⟨h1, fun hh => absurd hh h2⟩
      · rintro ⟨h1, h2⟩
        refine ⟨h1, fun hh => ?_⟩
        obtain ⟨b, hb⟩ := h2 hh
        have := (R.mem hv b (c v.addr b)).2 ⟨rfl, hb⟩
        rw [he] at this; cases this
    · rename_i he
      refine ⟨R, fun x => ⟨fun h1 => ⟨h1, fun _ => ?_⟩, fun h1 => h1.1⟩⟩
      obtain ⟨e, hmem⟩ := List.exists_mem_of_ne_nil _ he
      exact ⟨e.nb, by have := (R.mem hv e.nb e.announced).1 hmem; omega⟩
  · rename_i h
    refine ⟨R, fun x => ⟨fun h1 => ⟨h1, ?_⟩, fun h1 => h1.1⟩⟩
    rintro rfl
    exact absurd h1 (findVertex_none h)

theorem delEdge_rep {g c} (R : Rep g c) {s d : Nat} (hsd : s ≠ d) :
    ∃ g', delEdge g s d = .ok (g', if 0 < c s d then 0 else -1) ∧ Rep g' (Spec.Routing.step c (.down s d)) := by
  by_cases hc : 0 < c s d
  · rw [if_pos hc]
    have hs : HasV g s := (R.has s).2 ⟨d, hc⟩
    have hd : HasV g d := (R.has d).2 ⟨s, by rw [R.sym]; exact hc⟩
    obtain ⟨v, hv, hva⟩ := hs
    obtain ⟨w, hw, hwa⟩ := hd
    have fv : findVertex g s = some v := by rw [← hva]; exact findVertex_of R.toRep0 hv
    have fw : findVertex g d = some w := by rw [← hwa]; exact findVertex_of R.toRep0 hw
    have fe : ∃ e, findEdge v.edges d = some e := by
      cases h : findEdge v.edges d with
      | some e => exact ⟨e, rfl⟩
      | none =>
        exact absurd rfl (findEdge_none h ⟨d, c s d⟩ ((R.mem hv _ _).2 (by rw [hva]; exact ⟨rfl, hc⟩)))
    have fe' : ∃ e, findEdge w.edges s = some e := by
      cases h : findEdge w.edges s with
      | some e => exact ⟨e, rfl⟩
      | none =>
        exact absurd rfl (findEdge_none h ⟨s, c d s⟩ ((R.mem hw _ _).2 (by rw [hwa]; exact ⟨rfl, by rw [R.sym]; exact hc⟩)))
    obtain ⟨e1, fe⟩ := fe
    obtain ⟨e2, fe'⟩ := fe'
    obtain ⟨R3, h3⟩ := setEdges_rep (c' := fun a b => if a = s ∧ b = d then c a b - 1 else c a b) (f := withdraw d) R.toRep0 (withdraw_nb d)
      (fun x y hx => if_neg (fun hh => hx hh.1))
      (fun v hv hva b k => by
        rw [mem_withdraw d v.edges (c v.addr) (fun b k => R.mem hv b k), hva]
        simp) ⟨v, hv, hva⟩
    obtain ⟨R4, h4⟩ := setEdges_rep (c' := Spec.Routing.step c (.down s d)) (f := withdraw s) R3 (withdraw_nb s)
      (fun x y hx => by
        simp only [Spec.Routing.step]
        congr 1
        simp only [hx, false_and, or_false])
      (fun v hv hva b k => by
        rw [mem_withdraw s v.edges _ (fun b k => R3.mem hv b k), hva]
        simp only [Spec.Routing.step, hsd.symm, false_and, if_false, false_or, true_and]) ((h3 d).2 ⟨w, hw, hwa⟩)
    obtain ⟨R5, h5⟩ := prune_rep R4 s
    obtain ⟨R6, h6⟩ := prune_rep R5 d
    refine ⟨_, ?_, R6, ?_, ?_, ?_⟩
    · unfold delEdge
      simp only [fv, fw, fe, fe', hsd, if_false]
    · intro a
      rw [h6, h5, h4, h3, R.has]
      constructor
      · rintro ⟨⟨⟨b, hb⟩, p⟩, q⟩
        by_cases h1 : a = s
        · rw [h1]; exact p h1
        · by_cases h2 : a = d
          · rw [h2]; exact q h2
          · refine ⟨b, ?_⟩
            simp only [Spec.Routing.step]
            rw [if_neg (by tauto)]; exact hb
      · rintro ⟨b, hb⟩
        refine ⟨⟨⟨b, ?_⟩, ?_⟩, ?_⟩
        · simp only [Spec.Routing.step] at hb
          split at hb <;> omega
        · rintro rfl; exact ⟨b, hb⟩
        · rintro rfl; exact ⟨b, hb⟩
    · intro a b
      simp only [Spec.Routing.step]
      rw [R.sym a b]
      by_cases h : (a = s ∧ b = d) ∨ (a = d ∧ b = s)
      · rw [if_pos h, if_pos (by tauto)]
      · rw [if_neg h, if_neg (by tauto)]
    · intro a
      simp only [Spec.Routing.step]
      rw [if_neg (by rintro (⟨rfl, h⟩ | ⟨rfl, h⟩) <;> exact hsd (by omega)), R.irr]
  · rw [if_neg hc]
    have hz : c s d = 0 := by omega
    have hz' : c d s = 0 := by rw [← R.sym]; exact hz
    have hstep : Spec.Routing.step c (.down s d) = c := by
      funext a b
      simp only [Spec.Routing.step]
      split
      · rename_i h
        rcases h with ⟨rfl, rfl⟩ | ⟨rfl, rfl⟩ <;> omega
      · rfl
    rw [hstep]
    refine ⟨g, ?_, R⟩
    unfold delEdge
    split
    · rfl
    · rename_i v fv
      obtain ⟨hv, hva⟩ := findVertex_some fv
      split
      · rfl
      · split
        · rfl
        · rename_i e fe
          obtain ⟨he, hnb⟩ := findEdge_some fe
          have := (R.mem hv e.nb e.announced).1 he
          rw [hnb, hva] at this
          omega

end Ouro.Graph
