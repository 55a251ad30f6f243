import Verif.Model.Broadcast
import Verif.Spec.Broadcast
import Mathlib.Combinatorics.SimpleGraph.Acyclic

/-! # Proofs about the broadcast IPCP -/

namespace Ouro.Broadcast

open Spec.Broadcast

/-! ## One process -/

theorem addNb_eq (s : State) (fd : Int) (mem : Bool) :
    (addNb s fd mem).1 = if fd ∈ s then s else if mem then s ++ [fd] else s := by
  unfold addNb
  by_cases h : fd ∈ s
  · rw [if_pos (by simpa using h), if_pos h]
  · rw [if_neg (by simpa using h), if_neg h]; cases mem <;> simp

theorem delNb_eq (s : State) (fd : Int) : (delNb s fd).1 = s.erase fd := by
  unfold delNb
  by_cases h : fd ∈ s
  · rw [if_pos (by simpa using h)]; exact (List.erase_eq_eraseP' _ _).symm
  · rw [if_neg (by simpa using h), List.erase_of_not_mem h]

/-- What the specification is told about an event. -/
def evOf : Op → List Ev
  | .connAdd fd true => [.joined fd]
  | .connAdd _ false => []
  | .connDel fd => [.left fd]
  | .packet _ => []

/-- The log of a history, latest first. -/
def evs (ops : List Op) : List Ev := (ops.reverse).flatMap evOf

/-- The state after a history is the specification's set of neighbours. -/
theorem run_inv (ops : List Op) (s : State) (log : List Ev) (h : s.Nodup) (hm : ∀ fd, fd ∈ s ↔ present fd log) :
    (run s ops).1.Nodup ∧ ∀ fd, fd ∈ (run s ops).1 ↔ present fd (evs ops ++ log) := by
  induction ops generalizing s log with
  | nil => exact ⟨h, by simpa [run, evs] using hm⟩
  | cons op ops ih =>
    have hs : (step s op).1.Nodup ∧ ∀ fd, fd ∈ (step s op).1 ↔ present fd (evOf op ++ log) := by
      cases op with
      | connAdd fd mem =>
        simp only [step, addNb_eq]
        cases mem with
        | false =>
          simp only [evOf, List.nil_append, Bool.false_eq_true, if_false, ite_self]
          exact ⟨h, hm⟩
        | true =>
          simp only [evOf, List.cons_append, List.nil_append, if_true, present]
          by_cases hf : fd ∈ s
          · rw [if_pos hf]
            refine ⟨h, fun x => ⟨fun hx => .inr ((hm x).mp hx), ?_⟩⟩
            rintro (rfl | hx)
            · exact hf
            · exact (hm x).mpr hx
          · rw [if_neg hf]
            refine ⟨?_, fun x => ?_⟩
            · rw [List.nodup_append]
              exact ⟨h, by simp, by rintro a ha b hb rfl; simp at hb; exact hf (hb ▸ ha)⟩
            · rw [List.mem_append, List.mem_singleton, hm x]
              constructor
              · rintro (h1 | rfl)
                · exact .inr h1
                · exact .inl rfl
              · rintro (rfl | h1)
                · exact .inr rfl
                · exact .inl h1
      | connDel fd =>
        simp only [step, delNb_eq, evOf, List.cons_append, List.nil_append, present]
        refine ⟨h.erase _, fun x => ?_⟩
        rw [h.mem_erase_iff, hm x, ne_comm]
      | packet f => exact ⟨h, by simpa [evOf, step] using hm⟩
    have := ih _ _ hs.1 hs.2
    simpa [run, evs, List.flatMap_append] using this

/-- The writes of a packet are the other neighbours. -/
theorem packet_spec (s : State) (h : s.Nodup) (P : Int → Prop) (hm : ∀ fd, fd ∈ s ↔ P fd) (i : Int) :
    Forwarded P i (packet s i) := by
  refine ⟨h.filter _, by simp [packet], fun fd hne => ?_⟩
  rw [← hm]; simp [packet, hne]

theorem run_append (s : State) (a b : List Op) : (run s (a ++ b)).2 = (run s a).2 ++ (run (run s a).1 b).2 := by
  induction a generalizing s with
  | nil => rfl
  | cons x a ih => simp [run, ih]

theorem run_length (s : State) (a : List Op) : (run s a).2.length = a.length := by
  induction a generalizing s with
  | nil => rfl
  | cons x a ih => simp [run, ih]

/-! ## A tree of processes -/

section Tree

variable {V : Type} {G : SimpleGraph V}

/-- `u` is the neighbour of `w` on the way to `s`. -/
def Closer (G : SimpleGraph V) (s w u : V) : Prop := G.Adj w u ∧ G.dist s w = G.dist s u + 1

theorem closer_unique (hG : G.IsTree) {s w u1 u2 : V} (h1 : Closer G s w u1) (h2 : Closer G s w u2) : u1 = u2 := by
  classical
  have key : ∀ {u : V} (_ : Closer G s w u), ∃ p : G.Walk w s, p.IsPath ∧ p.snd = u := by
    intro u h
    obtain ⟨p, hp, hl⟩ := hG.connected.exists_path_of_dist u s
    have hw : w ∉ p.support := by
      intro hw
      have h3 : G.dist w s ≤ (p.dropUntil w hw).length := SimpleGraph.dist_le _
      have h4 := p.length_dropUntil_le_length hw
      have h5 := h.2
      rw [G.dist_comm (u := s) (v := w), G.dist_comm (u := s) (v := u)] at h5
      omega
    refine ⟨SimpleGraph.Walk.cons h.1 p, ?_, by simp⟩
    rw [SimpleGraph.Walk.cons_isPath_iff]; exact ⟨hp, hw⟩
  obtain ⟨p, hp, rfl⟩ := key h1
  obtain ⟨q, hq, rfl⟩ := key h2
  rw [(hG.existsUnique_path w s).unique hp hq]

theorem closer_exists (hG : G.IsTree) {s w : V} (h : w ≠ s) : ∃ u, Closer G s w u := by
  obtain ⟨p, _, hl⟩ := hG.connected.exists_path_of_dist w s
  cases p with
  | nil => exact absurd rfl h
  | @cons _ u _ hadj p =>
    refine ⟨u, hadj, ?_⟩
    have h1 : G.dist u s ≤ p.length := SimpleGraph.dist_le _
    rw [SimpleGraph.Walk.length_cons] at hl
    rcases hG.dist_eq_dist_add_one_of_adj s hadj with h2 | h2
    · exact h2
    · rw [G.dist_comm (u := s) (v := w), G.dist_comm (u := s) (v := u)] at h2; omega

theorem closer_or (hG : G.IsTree) {s w u : V} (h : G.Adj w u) : Closer G s w u ∨ Closer G s u w := by
  rcases hG.dist_eq_dist_add_one_of_adj s h with h2 | h2
  · exact .inl ⟨h, h2⟩
  · exact .inr ⟨h.symm, h2⟩

theorem closer_asymm {s w u : V} (h : Closer G s w u) (h' : Closer G s u w) : False := by
  have := h.2; have := h'.2; omega

theorem closer_ne {s w u : V} (h : Closer G s w u) : w ≠ s := by
  rintro rfl; have := h.2; simp at this

/-- The flows of the layer are the edges of the graph: every neighbour is reached by one flow, and flows lead back. -/
structure Layer.Over (L : Layer V) (G : SimpleGraph V) : Prop where
  nodup : ∀ v, (L.net v).Nodup
  adj : ∀ v fd, fd ∈ L.net v → G.Adj v (L.link v fd).1
  back : ∀ v fd, fd ∈ L.net v → (L.link v fd).2 ∈ L.net (L.link v fd).1 ∧ L.link (L.link v fd).1 (L.link v fd).2 = (v, fd)
  inj : ∀ v fd fd', fd ∈ L.net v → fd' ∈ L.net v → (L.link v fd).1 = (L.link v fd').1 → fd = fd'
  surj : ∀ v w, G.Adj v w → ∃ fd ∈ L.net v, (L.link v fd).1 = w

/-- What holds while a packet of `s` spreads. -/
structure Spread (L : Layer V) (G : SimpleGraph V) (s : V) (f : Flood V) : Prop where
  flow : ∀ v fd, (v, fd) ∈ f.inflight → fd ∈ L.net v ∧ Closer G s v (L.link v fd).1
  nodup : (f.inflight.map Prod.fst ++ f.got).Nodup
  notSrc : s ∉ f.got
  cover : ∀ v u, Closer G s v u → (v ∈ f.inflight.map Prod.fst ++ f.got ↔ u = s ∨ u ∈ f.got)

/-- What `v` writes when it got the packet from its neighbour on `fd`. -/
theorem writes_mem {L : Layer V} (hL : L.Over G) (v : V) (l : List Int) (hl : ∀ x ∈ l, x ∈ L.net v) (w : V) (x : Int) :
    (w, x) ∈ l.map (L.link v) → x ∈ L.net w ∧ (L.link w x).1 = v ∧ G.Adj v w ∧ ∃ fd ∈ l, (L.link v fd).1 = w := by
  intro h
  obtain ⟨fd, hfd, he⟩ := List.mem_map.mp h
  have h1 := hL.back v fd (hl fd hfd)
  have h2 := hL.adj v fd (hl fd hfd)
  rw [he] at h1 h2
  exact ⟨h1.1, by rw [h1.2], h2, fd, hfd, by rw [he]⟩

theorem writes_nodup {L : Layer V} (hL : L.Over G) (v : V) (l : List Int) (hl : ∀ x ∈ l, x ∈ L.net v) (hn : l.Nodup) :
    ((l.map (L.link v)).map Prod.fst).Nodup := by
  rw [List.map_map]
  refine List.Nodup.map_on ?_ hn
  intro x hx y hy h
  exact hL.inj v x y (hl x hx) (hl y hy) h

theorem spread_originate {L : Layer V} (hG : G.IsTree) (hL : L.Over G) (s : V) : Spread L G s (originate L s) := by
  have hmem : ∀ w, w ∈ ((L.net s).map (L.link s)).map Prod.fst ↔ G.Adj s w := by
    intro w
    constructor
    · intro h
      obtain ⟨⟨w', x⟩, h1, rfl⟩ := List.mem_map.mp h
      exact (writes_mem hL s _ (fun _ h => h) _ _ h1).2.2.1
    · intro h
      obtain ⟨fd, h1, rfl⟩ := hL.surj s w h
      exact List.mem_map.mpr ⟨_, List.mem_map.mpr ⟨fd, h1, rfl⟩, rfl⟩
  have hcl : ∀ {w}, G.Adj s w → Closer G s w s := by
    intro w h
    rcases closer_or hG (s := s) h with h1 | h1
    · exact absurd rfl (closer_ne h1)
    · exact h1
  refine ⟨?_, ?_, by simp [originate], ?_⟩
  · intro v fd h
    obtain ⟨h1, h2, h3, _⟩ := writes_mem hL s _ (fun _ h => h) _ _ h
    exact ⟨h1, by rw [h2]; exact hcl h3⟩
  · simpa [originate] using writes_nodup hL s _ (fun _ h => h) (hL.nodup s)
  · intro v u hc
    simp only [originate, List.append_nil, List.not_mem_nil, or_false]
    rw [hmem]
    constructor
    · intro h; exact closer_unique hG hc (hcl h)
    · rintro rfl; exact hc.1.symm

theorem spread_step {L : Layer V} (hG : G.IsTree) (hL : L.Over G) {s : V} {f g : Flood V} (hs : Spread L G s f)
    (h : Flood.Step L f g) : Spread L G s g := by
  obtain ⟨pre, post, v, fd, got⟩ := h
  obtain ⟨hf, hn, hsrc, hcov⟩ := hs
  dsimp only at hf hn hsrc hcov
  obtain ⟨hfd, hup⟩ := hf v fd (by simp)
  have hvs := closer_ne hup
  have hsub : ∀ x ∈ packet (L.net v) fd, x ∈ L.net v := fun x hx => (List.mem_filter.mp hx).1
  have hvg : v ∉ got := by
    intro hv
    rw [List.nodup_append] at hn
    exact hn.2.2 v (by simp) v hv rfl
  -- what is written goes to the neighbours that are farther away
  have hw : ∀ w, w ∈ ((packet (L.net v) fd).map (L.link v)).map Prod.fst ↔ Closer G s w v := by
    intro w
    constructor
    · intro h
      obtain ⟨⟨w', x⟩, h1, rfl⟩ := List.mem_map.mp h
      obtain ⟨_, _, h2, y, hy, hyw⟩ := writes_mem hL v _ hsub _ _ h1
      rcases closer_or hG (s := s) h2 with h3 | h3
      · have := closer_unique hG h3 hup
        rw [← hyw] at this
        have := hL.inj v y fd (hsub y hy) hfd this
        rw [this] at hy
        simp [packet] at hy
      · exact h3
    · intro h
      obtain ⟨y, h1, rfl⟩ := hL.surj v w h.1.symm
      refine List.mem_map.mpr ⟨_, List.mem_map.mpr ⟨y, ?_, rfl⟩, rfl⟩
      unfold packet
      rw [List.mem_filter]
      refine ⟨h1, ?_⟩
      simp only [bne_iff_ne, ne_eq]
      rintro rfl
      exact closer_asymm h hup
  have hperm : ((pre ++ post).map Prod.fst ++ (v :: got)).Perm ((pre ++ (v, fd) :: post).map Prod.fst ++ got) := by
    simp only [List.map_append, List.map_cons, List.append_assoc, List.cons_append]
    refine List.Perm.append_left _ ?_
    exact List.perm_middle
  have hnew : ∀ w, Closer G s w v → w ∉ (pre ++ (v, fd) :: post).map Prod.fst ++ got := by
    intro w hc hm
    rcases (hcov w v hc).mp hm with h | h
    · exact hvs h
    · exact hvg h
  refine ⟨?_, ?_, ?_, ?_⟩
  · intro x y hm
    dsimp only at hm
    rw [List.mem_append] at hm
    rcases hm with hm | hm
    · refine hf x y ?_
      rw [List.mem_append, List.mem_cons]
      rcases List.mem_append.mp hm with h | h
      · exact .inl h
      · exact .inr (.inr h)
    · obtain ⟨h1, h2, _, _⟩ := writes_mem hL v _ hsub _ _ hm
      refine ⟨h1, ?_⟩
      rw [h2]
      exact (hw x).mp (List.mem_map.mpr ⟨_, hm, rfl⟩)
  · have hp : (((pre ++ post ++ (packet (L.net v) fd).map (L.link v)).map Prod.fst) ++ (v :: got)).Perm
        (((packet (L.net v) fd).map (L.link v)).map Prod.fst ++ ((pre ++ (v, fd) :: post).map Prod.fst ++ got)) := by
      rw [List.map_append]
      refine (List.Perm.append_right _ List.perm_append_comm).trans ?_
      rw [List.append_assoc]
      exact List.Perm.append_left _ hperm
    refine hp.nodup_iff.mpr ?_
    rw [List.nodup_append]
    refine ⟨writes_nodup hL v _ hsub ((hL.nodup v).filter _), hn, ?_⟩
    rintro a ha b hb rfl
    exact hnew a ((hw a).mp ha) hb
  · dsimp only
    rw [List.mem_cons]
    rintro (h | h)
    · exact hvs h.symm
    · exact hsrc h
  · intro x u hc
    dsimp only
    have hx : x ∈ (pre ++ post ++ (packet (L.net v) fd).map (L.link v)).map Prod.fst ++ v :: got ↔
        Closer G s x v ∨ x ∈ (pre ++ (v, fd) :: post).map Prod.fst ++ got := by
      rw [← hperm.mem_iff, ← hw x, List.map_append (l₁ := pre ++ post), List.mem_append, List.mem_append, List.mem_append]
      tauto
    rw [hx, hcov x u hc, List.mem_cons]
    constructor
    · rintro (h | h | h)
      · exact .inr (.inl (closer_unique hG hc h))
      · exact .inl h
      · exact .inr (.inr h)
    · rintro (h | rfl | h)
      · exact .inr (.inl h)
      · exact .inl hc
      · exact .inr (.inr h)

theorem spread_steps {L : Layer V} (hG : G.IsTree) (hL : L.Over G) {s : V} {f g : Flood V} (hs : Spread L G s f)
    (h : Flood.Steps L f g) : Spread L G s g := by
  induction h with
  | refl => exact hs
  | tail _ h2 ih => exact spread_step hG hL ih h2

/-- When nothing is on its way any more, everybody got the packet. -/
theorem spread_done {L : Layer V} (hG : G.IsTree) {s : V} {f : Flood V} (hs : Spread L G s f) (h : f.inflight = []) :
    ∀ v, v ≠ s → v ∈ f.got := by
  have : ∀ n v, G.dist s v = n → v ≠ s → v ∈ f.got := by
    intro n
    induction n with
    | zero =>
      intro v hd hne
      exact absurd (hG.connected.dist_eq_zero_iff.mp hd).symm hne
    | succ n ih =>
      intro v hd hne
      obtain ⟨u, hu⟩ := closer_exists hG hne
      have h1 := hs.cover v u hu
      rw [h] at h1
      simp only [List.map_nil, List.nil_append] at h1
      rw [h1]
      by_cases hus : u = s
      · exact .inl hus
      · exact .inr (ih u (by have := hu.2; omega) hus)
  exact fun v hne => this _ v rfl hne

end Tree

end Ouro.Broadcast
