import Verif.Proof.GraphHistory

/-!
# C28, C29, C30: routing tables

`calls create cs = .ok g` gives the graph after a history of calls; `usable` links are those announced exactly twice. Histories are
free of calls for a link from a node to itself, and shorter than 2^28 calls, so that no distance overflows an `int`.
-/

namespace Ouro.Graph

open Spec.Routing

/-- Histories for which the theorems are stated. -/
def Sane (cs : List Call) : Prop := (∀ x ∈ cs, x.event.ends.1 ≠ x.event.ends.2) ∧ cs.length < 2 ^ 28

/-- C28: after any history, from any source, the simple table has one next hop for each node that can be reached over usable links,
the first hop of a shortest path, and no other entries; without a table nothing can be reached. -/
theorem C28_shortest_paths (cs : List Call) (h : Sane cs) (src : Nat) :
    ∃ g r, calls create cs = .ok g ∧ simple g src = .ok r ∧
      match r with
      | some (t, _) => ShortestTable (usable (cs.map Call.event)) src t
      | none => ∀ d n, Walk (usable (cs.map Call.event)) n src d → d = src := by
  obtain ⟨g, e, R, hl⟩ := history cs h.1
  have hI : INT_MAX = 2147483647 := (rfl)
  have h2 := h.2
  rcases simple_spec R (by omega) src with ⟨k1, k2⟩ | ⟨_, t, dist, k2, S, _⟩
  · refine ⟨g, none, e, k2, ?_⟩
    intro d n hw
    exact (no_walk (two_verts R k1) hw).symm
  · refine ⟨g, some (t, dist), e, k2, ?_⟩
    refine ⟨S.nodup, ?_, S.complete⟩
    intro d nhs hd
    obtain ⟨hne, h, m, k1, k2, k3, k4⟩ := S.entry d nhs hd
    exact ⟨hne, h, m, k1, k2, k4, k3⟩

/-- A history with five nodes, one of them cut off by a link announced from one side only. -/
def demo : List Call :=
  [.update 1 2, .update 2 1, .update 2 3, .update 3 2, .update 1 4, .update 4 1, .update 3 4, .update 4 3, .del 3 4, .update 4 5]

example : Sane demo := by refine ⟨by decide, by decide⟩

example : (calls create demo >>= fun g => simple g 1) = .ok (some ([(4, [4]), (3, [2]), (2, [2])], [0, 1, 2, 1, INT_MAX])) := by
  decide +kernel

/-- C28: the tables of the calls themselves: an update announces the link once more, a deletion takes one announcement back and
reports whether there was one. -/
theorem C28_edges (cs : List Call) (h : Sane cs) (s d : Nat) (hsd : s ≠ d) :
    ∃ g g', calls create cs = .ok g ∧ delEdge g s d = .ok (g', if 0 < announced (cs.map Call.event) s d then 0 else -1) := by
  obtain ⟨g, e, R, _⟩ := history cs h.1
  obtain ⟨g', e', _⟩ := delEdge_rep R hsd
  exact ⟨g, g', e, e'⟩

/-- Tables of all nodes, computed from the same graph by the simple policy. -/
def SimpleTables (g : Graph) (table : Nat → Spec.Routing.Table) : Prop :=
  ∀ a, (∃ dist, simple g a = .ok (some (table a, dist))) ∨ (simple g a = .ok none ∧ table a = [])

/-- Tables of all nodes, computed from the same graph by the equal-cost policy. -/
def EcmpTables (g : Graph) (table : Nat → Spec.Routing.Table) : Prop :=
  ∀ a, ecmp g a = .ok (some (table a)) ∨ (ecmp g a = .ok none ∧ table a = [])

/-- C29: with the simple policy at every node, packets arrive after the shortest-path number of hops. -/
theorem C29_simple_delivers (cs : List Call) (h : Sane cs) (g : Graph) (hg : calls create cs = .ok g) :
    ∃ table, SimpleTables g table ∧ ∀ table', SimpleTables g table' → table' = table ∧ Delivers (usable (cs.map Call.event)) table' := by
  obtain ⟨g', e, R, hl⟩ := history cs h.1
  rw [hg] at e
  cases Outcome.ok.inj e
  have hI : INT_MAX = 2147483647 := (rfl)
  have h2 := h.2
  have hs := simple_spec R (by omega)
  refine ⟨fun a => match simple g a with | .ok (some (t, _)) => t | _ => [], ?_, ?_⟩
  · intro a
    rcases hs a with ⟨_, k2⟩ | ⟨_, t, dist, k2, S, _⟩
    · right; simp only [k2, and_self]
    · left; exact ⟨dist, by simp only [k2]⟩
  · intro table ht
    constructor
    · funext a
      rcases ht a with ⟨dist, k⟩ | ⟨k, k'⟩
      · simp only [k]
      · simp only [k]; exact k'
    have hS : ∀ a, SimpleOk (announced (cs.map Call.event)) a (table a) := by
      intro a
      rcases ht a with ⟨dist, k⟩ | ⟨k, k'⟩
      · rcases hs a with ⟨_, k2⟩ | ⟨_, t, dist, k2, S, _⟩
        · rw [k] at k2; cases k2
        · rw [k] at k2; cases k2; exact S
      · rcases hs a with ⟨k1, _⟩ | ⟨_, t, dist, k2, S, _⟩
        · rw [k']
          exact ⟨by simp, by simp, fun d m hne hw => absurd (no_walk (two_verts R k1) hw).symm hne⟩
        · rw [k] at k2; cases k2
    refine delivers ?_ ?_
    · rintro a d b ⟨nhs, hm, hb⟩
      obtain ⟨hne, h, m, rfl, _, k3, k4⟩ := (hS a).entry d nhs hm
      rw [List.mem_singleton] at hb
      subst hb
      refine ⟨hne.symm, fun n hn => ⟨m, dist_uniq hn k3, k4⟩⟩
    · intro a d n hd hne
      obtain ⟨nhs, hm⟩ := (hS a).complete d n (Ne.symm hne) hd.1
      obtain ⟨_, h, m, rfl, _⟩ := (hS a).entry d nhs hm
      exact ⟨h, [h], hm, List.mem_singleton.2 rfl⟩

example : ∃ g, calls create demo = .ok g := ⟨_, rfl⟩

/-- C29: the same with the equal-cost policy, whichever of the listed next hops are chosen on the way. -/
theorem C29_ecmp_delivers (cs : List Call) (h : Sane cs) (g : Graph) (hg : calls create cs = .ok g) :
    ∃ table, EcmpTables g table ∧ ∀ table', EcmpTables g table' → table' = table ∧ Delivers (usable (cs.map Call.event)) table' := by
  obtain ⟨g', e, R, hl⟩ := history cs h.1
  rw [hg] at e
  cases Outcome.ok.inj e
  have hI : INT_MAX = 2147483647 := (rfl)
  have h2 := h.2
  have hs := ecmp_spec R (by omega)
  refine ⟨fun a => match ecmp g a with | .ok (some t) => t | _ => [], ?_, ?_⟩
  · intro a
    rcases hs a with ⟨_, k2⟩ | ⟨_, t, k2, S⟩
    · right; simp only [k2, and_self]
    · left; simp only [k2]
  · intro table ht
    constructor
    · funext a
      rcases ht a with k | ⟨k, k'⟩
      · simp only [k]
      · simp only [k]; exact k'
    have hS : ∀ a, (EcmpOk (announced (cs.map Call.event)) a (table a)) ∨ ((∀ b, announced (cs.map Call.event) a b = 0) ∧ table a = []) := by
      intro a
      rcases ht a with k | ⟨k, k'⟩
      · rcases hs a with ⟨_, k2⟩ | ⟨_, t, k2, S⟩
        · rw [k] at k2; cases k2
        · rw [k] at k2; cases k2; exact Or.inl S
      · rcases hs a with ⟨k1, _⟩ | ⟨_, t, k2, S⟩
        · exact Or.inr ⟨k1, k'⟩
        · rw [k] at k2; cases k2
    refine delivers ?_ ?_
    · rintro a d b ⟨nhs, hm, hb⟩
      rcases hS a with S | ⟨_, k⟩
      · obtain ⟨hne, _, h3⟩ := S.entry d nhs hm
        obtain ⟨_, m, k3, k4⟩ := (h3 b).1 hb
        exact ⟨hne.symm, fun n hn => ⟨m, dist_uniq hn k4, k3⟩⟩
      · rw [k] at hm; cases hm
    · intro a d n hd hne
      have hw := hd.1
      cases hw with
      | nil => exact absurd rfl hne
      | @cons _ b _ n' hl hw =>
        rcases hS a with S | ⟨k, _⟩
        · have hdv : ∃ b, 0 < announced (cs.map Call.event) d b := by
            have := walk_has R hd.1 ((R.has a).2 ⟨b, lt_of_lt_of_eq (by decide) hl.symm⟩)
            exact (R.has d).1 this
          obtain ⟨nhs, hm⟩ := S.complete d (Ne.symm hne) hdv
          refine ⟨b, nhs, hm, ?_⟩
          refine ((S.entry d nhs hm).2.2 b).2 ⟨lt_of_lt_of_eq (by decide) hl.symm, n', ⟨hw, ?_⟩, hd⟩
          intro m' hm'
          have := hd.2 (m' + 1) (.cons hl hm')
          omega
        · have : announced (cs.map Call.event) a b = 2 := hl
          rw [k] at this; cases this

/-- C29: the equal-cost table lists exactly the announced neighbours that are one hop nearer. -/
theorem C29_ecmp_exact (cs : List Call) (h : Sane cs) (g : Graph) (hg : calls create cs = .ok g) (src : Nat) (t : Table)
    (ht : ecmp g src = .ok (some t)) (d : Nat) (nhs : List Nat) (hd : (d, nhs) ∈ t) (a : Nat) :
    a ∈ nhs ↔ 0 < announced (cs.map Call.event) src a ∧
      ∃ n, Dist (usable (cs.map Call.event)) a d n ∧ Dist (usable (cs.map Call.event)) src d (n + 1) := by
  obtain ⟨g', e, R, hl⟩ := history cs h.1
  rw [hg] at e
  cases Outcome.ok.inj e
  have hI : INT_MAX = 2147483647 := (rfl)
  have h2 := h.2
  rcases ecmp_spec R (by omega) src with ⟨_, k2⟩ | ⟨_, t', k2, S⟩
  · rw [ht] at k2; cases k2
  · rw [ht] at k2; cases k2
    exact (S.entry d nhs hd).2.2 a

/-- The square 1-2-3-4 with a link from 1 to 5 announced by one end only, and 5-3 usable. -/
def square : List Call :=
  [.update 1 2, .update 2 1, .update 2 3, .update 3 2, .update 1 4, .update 4 1, .update 3 4, .update 4 3, .update 1 5,
   .update 3 5, .update 5 3]

/-- C29, C30: a neighbour that never confirmed the link is listed as a next hop (5 for 3 at 1), both as equal-cost next hop and as
alternate. -/
theorem C30_unconfirmed_neighbour_violated :
    (calls create square >>= fun g => ecmp g 1) = .ok (some [(5, [4, 2]), (4, [4]), (3, [5, 4, 2]), (2, [2])]) ∧
    (calls create square >>= fun g => lfa g 1) = .ok (some [(5, [2, 4, 2]), (4, [4, 5]), (3, [2, 5, 4, 2]), (2, [2, 5])]) ∧
    Sane square ∧ ¬ usable (square.map Call.event) 1 5 := by
  refine ⟨by decide +kernel, by decide +kernel, ⟨by decide, by decide⟩, ?_⟩
  unfold usable; decide

/-- Fewer neighbours than the table of neighbours has places. -/
def FewNeighbours (es : List Event) (src : Nat) : Prop :=
  ∀ l : List Nat, l.Nodup → (∀ b ∈ l, 0 < announced es src b) → l.length ≤ 4096

/-- C30: after the primary next hop of an entry come exactly the announced neighbours, other than the destination, that satisfy the
loop-free condition. The missing part: such a neighbour need not be one over a usable link. -/
theorem C30_alternates_partial (cs : List Call) (h : Sane cs) (src : Nat) (hf : FewNeighbours (cs.map Call.event) src) :
    ∃ g r, calls create cs = .ok g ∧ lfa g src = .ok r ∧
      match r with
      | none => ∀ d n, Walk (usable (cs.map Call.event)) n src d → d = src
      | some t => (∀ d nhs, (d, nhs) ∈ t → ∃ p l, nhs = p :: l ∧ l.Nodup ∧
            ∀ a, a ∈ l ↔ 0 < announced (cs.map Call.event) src a ∧ a ≠ d ∧ LoopFree (usable (cs.map Call.event)) src d a) ∧
          ∃ s dist, simple g src = .ok (some (s, dist)) ∧ ShortestTable (usable (cs.map Call.event)) src (t.map (fun e => (e.1, e.2.take 1))) := by
  obtain ⟨g, e, R, hl⟩ := history cs h.1
  have hI : INT_MAX = 2147483647 := (rfl)
  have h2 := h.2
  have hmax : ∀ v ∈ g.verts, v.addr = src → v.edges.length ≤ maxFlows := by
    rintro v hv rfl
    have := hf (v.edges.map Edge.nb) (R.nodup v hv) (by
      intro b hb
      obtain ⟨x, hx, rfl⟩ := List.mem_map.1 hb
      exact ((R.mem hv x.nb x.announced).1 hx).2)
    rw [List.length_map] at this
    exact this
  have symm : ∀ a b n, Dist (usable (cs.map Call.event)) a b n → Dist (usable (cs.map Call.event)) b a n := by
    have hsym : ∀ a b, usable (cs.map Call.event) a b → usable (cs.map Call.event) b a := by
      intro a b hab; unfold usable at *; rw [R.sym]; exact hab
    intro a b n hd
    exact ⟨walk_symm hsym hd.1, fun m hm => hd.2 m (walk_symm hsym hm)⟩
  rcases lfa_spec R (by omega) src hmax with ⟨k1, k2⟩ | ⟨k1, t, k2, S⟩
  · exact ⟨g, none, e, k2, fun d n hw => (no_walk (two_verts R k1) hw).symm⟩
  · refine ⟨g, some t, e, k2, ?_, ?_⟩
    · intro d nhs hd
      obtain ⟨hne, p, m, l, rfl, _, _, _, hn, hm⟩ := S.entry d nhs hd
      refine ⟨p, l, rfl, hn, ?_⟩
      intro a
      rw [hm a]
      constructor
      · rintro ⟨h1, h2, x, y, z, hx, hy, hz, hlt⟩
        exact ⟨h1, h2, x, y, z, hx, symm _ _ _ hy, hz, hlt⟩
      · rintro ⟨h1, h2, x, y, z, hx, hy, hz, hlt⟩
        exact ⟨h1, h2, x, y, z, hx, symm _ _ _ hy, hz, hlt⟩
    · rcases simple_spec R (by omega) src with ⟨k3, _⟩ | ⟨_, s, dist, k3, _, _⟩
      · omega
      · refine ⟨s, dist, k3, ?_, ?_, ?_⟩
        · rw [List.map_map]; exact S.nodup
        · intro d nhs hd
          obtain ⟨⟨d', n'⟩, hmem, heq⟩ := List.mem_map.1 hd
          cases heq
          obtain ⟨hne, p, m, l, rfl, k4, k5, k6, _⟩ := S.entry d' n' hmem
          exact ⟨hne, p, m, rfl, k4, k6, k5⟩
        · intro d n hne hw
          obtain ⟨nhs, hm⟩ := S.complete d n hne hw
          exact ⟨nhs.take 1, List.mem_map.2 ⟨_, hm, rfl⟩⟩

/-- C30: if no link of the source is announced by one end only (or more than twice), every alternate is a neighbour over a usable link
and satisfies the condition. -/
theorem C30_alternates (cs : List Call) (h : Sane cs) (src : Nat) (hf : FewNeighbours (cs.map Call.event) src)
    (hc : ∀ a, announced (cs.map Call.event) src a = 0 ∨ usable (cs.map Call.event) src a) (g : Graph) (hg : calls create cs = .ok g)
    (t : Table) (ht : lfa g src = .ok (some t)) (d : Nat) (nhs : List Nat) (hd : (d, nhs) ∈ t) (a : Nat) (ha : a ∈ nhs.tail) :
    usable (cs.map Call.event) src a ∧ LoopFree (usable (cs.map Call.event)) src d a := by
  obtain ⟨g', r, e, k, hr⟩ := C30_alternates_partial cs h src hf
  rw [hg] at e
  cases Outcome.ok.inj e
  rw [ht] at k
  cases Outcome.ok.inj k
  obtain ⟨p, l, rfl, _, hl⟩ := hr.1 d nhs hd
  obtain ⟨h1, _, h3⟩ := (hl a).1 ha
  refine ⟨?_, h3⟩
  rcases hc a with h0 | h0
  · omega
  · exact h0

example : FewNeighbours ((square.take 8).map Call.event) 1 ∧ Sane (square.take 8) := by
  refine ⟨?_, by decide, by decide⟩
  intro l hl hb
  have : ∀ b ∈ l, b ∈ [2, 4] := by
    intro b h
    have := hb b h
    simp [square, announced, step, Call.event] at this
    by_cases h2 : b = 2
    · simp [h2]
    · by_cases h4 : b = 4
      · simp [h4]
      · simp [h2, h4] at this
  have := nodup_subset_length hl this
  simp at this; omega

/-- C30: the primary next hop is listed again as its own alternate, unless it is the destination. -/
theorem C30_primary_repeated (cs : List Call) (h : Sane cs) (src : Nat) (hf : FewNeighbours (cs.map Call.event) src) (g : Graph)
    (hg : calls create cs = .ok g) (t : Table) (ht : lfa g src = .ok (some t)) (d p : Nat) (l : List Nat) (hd : (d, p :: l) ∈ t)
    (hp : p ≠ d) : p ∈ l := by
  obtain ⟨g', r, e, k, hr⟩ := C30_alternates_partial cs h src hf
  rw [hg] at e
  cases Outcome.ok.inj e
  rw [ht] at k
  cases Outcome.ok.inj k
  obtain ⟨p', l', heq, _, hl⟩ := hr.1 d _ hd
  cases heq
  obtain ⟨s, dist, _, hS⟩ := hr.2
  obtain ⟨hne, q, n, hq, hlk, h1, h2⟩ := hS.entry d [p] (List.mem_map.2 ⟨_, hd, rfl⟩)
  cases hq
  refine (hl p).2 ⟨lt_of_lt_of_eq (by decide) hlk.symm, hp, n, 1, n + 1, h1, ?_, h2, by omega⟩
  have hlk' : usable (cs.map Call.event) p src := by
    obtain ⟨g', _, R, _⟩ := history cs h.1
    unfold usable at *
    rw [R.sym]; exact hlk
  refine ⟨.cons hlk' (.nil _), ?_⟩
  intro m hm
  cases hm with
  | nil =>
    obtain ⟨g', _, R, _⟩ := history cs h.1
    unfold usable at hlk
    rw [R.irr] at hlk; cases hlk
  | cons _ _ => omega

/-- C30: with more than 4096 neighbours the arrays on the stack overflow. -/
theorem C30_many_neighbours_violated (cs : List Call) (h : Sane cs) (src : Nat) (l : List Nat) (hl : l.Nodup) (hlen : 4096 < l.length)
    (hb : ∀ b ∈ l, 0 < announced (cs.map Call.event) src b) : ∃ g, calls create cs = .ok g ∧ lfa g src = .ub := by
  obtain ⟨g, e, R, hll⟩ := history cs h.1
  have hI : INT_MAX = 2147483647 := (rfl)
  have h2 := h.2
  refine ⟨g, e, ?_⟩
  cases l with
  | nil => simp at hlen
  | cons b l' =>
    obtain ⟨v, hv, rfl⟩ := (R.has src).2 ⟨b, hb b (List.mem_cons_self ..)⟩
    refine lfa_overflow R (by omega) hv ?_
    have := nodup_subset_length hl (m := v.edges.map Edge.nb) (by
      intro x hx
      exact List.mem_map.2 ⟨⟨x, _⟩, (R.mem hv x _).2 ⟨rfl, hb x hx⟩, rfl⟩)
    rw [List.length_map] at this
    unfold maxFlows
    omega

/-- C28: deleting a link from a node to itself uses freed memory. -/
theorem C28_self_link_violated : ∃ g, calls create [.update 7 7] = .ok g ∧ delEdge g 7 7 = .ub := ⟨_, rfl, rfl⟩

end Ouro.Graph
