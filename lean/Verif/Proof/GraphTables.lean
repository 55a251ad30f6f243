import Verif.Proof.Dijkstra

namespace Ouro.Graph

open Spec.Routing (Walk Dist)

theorem dist_uniq {link : Nat → Nat → Prop} {a b n m : Nat} (h : Dist link a b n) (h' : Dist link a b m) : n = m :=
  Nat.le_antisymm (h.2 m h'.1) (h'.2 n h.1)

theorem dist_zero {link : Nat → Nat → Prop} {a b : Nat} (h : Dist link a b 0) : a = b := by
  have := h.1; cases this; rfl

theorem dist_self (link : Nat → Nat → Prop) (a : Nat) : Dist link a a 0 := ⟨.nil a, fun _ _ => Nat.zero_le _⟩

/-- The array of distances computed from `src`. -/
structure DistOk (g : Graph) (c : Nat → Nat → Nat) (src : Nat) (dist : List Nat) : Prop where
  len : dist.length = g.verts.length
  ok : ∀ (i : Nat) (v : Vertex), g.verts[i]? = some v →
    (∃ x, dist[i]? = some x ∧ x ≤ g.verts.length ∧ Dist (fun a b => c a b = 2) src v.addr x) ∨
    (dist[i]? = some INT_MAX ∧ ∀ m, ¬ Walk (fun a b => c a b = 2) m src v.addr)

theorem dijkstra_dist {g c} (R : Rep g c) (hn : g.verts.length + 2 < INT_MAX) (src : Nat) :
    ∃ st, dijkstra g src = .ok st ∧ DistOk g c src st.dist := by
  obtain ⟨st, e, h1, _, h3⟩ := dijkstra_spec R hn src
  refine ⟨st, e, h1, ?_⟩
  intro i v hi
  rcases h3 i v hi with ⟨x, a, b, c, _⟩ | ⟨a, _, b⟩
  · exact Or.inl ⟨x, a, b, c⟩
  · exact Or.inr ⟨a, b⟩

/-! ### The simple table -/

theorem simpleLoop_spec (nhops : List (Option Nat)) : ∀ (vs : List Vertex) (i : Nat) (t : Table), i + vs.length ≤ nhops.length →
    ∃ l : Table, simpleLoop nhops vs i t = .ok (l.reverse ++ t) ∧ (l.map Prod.fst).Sublist (vs.map Vertex.addr) ∧
      ∀ d nhs, (d, nhs) ∈ l ↔ ∃ j v h, vs[j]? = some v ∧ nhops[i + j]? = some (some h) ∧ d = v.addr ∧ nhs = [h]
  | [], i, t, _ => ⟨[], rfl, .slnil, by simp⟩
  | v :: vs, i, t, hl => by
    simp only [List.length_cons] at hl
    have hd : nhops[i]? = some nhops[i] := List.getElem?_eq_getElem (by omega)
    unfold simpleLoop
    rw [rd_eq hd, bind_ok']
    have key : ∀ (l : Table), (∀ d nhs, (d, nhs) ∈ l ↔ ∃ j w h, vs[j]? = some w ∧ nhops[i + 1 + j]? = some (some h) ∧ d = w.addr ∧ nhs = [h]) →
        ∀ d nhs, ((∃ h, nhops[i]? = some (some h) ∧ d = v.addr ∧ nhs = [h]) ∨ (d, nhs) ∈ l) ↔
          ∃ j w h, (v :: vs)[j]? = some w ∧ nhops[i + j]? = some (some h) ∧ d = w.addr ∧ nhs = [h] := by
      intro l hmem d nhs
      constructor
      · rintro (⟨h, h1, h2, h3⟩ | h)
        · exact ⟨0, v, h, rfl, h1, h2, h3⟩
        · obtain ⟨j, w, h, h1, h2, h3⟩ := (hmem d nhs).1 h
          exact ⟨j + 1, w, h, by simpa using h1, by rw [← Nat.add_assoc, Nat.add_right_comm]; exact h2, h3⟩
      · rintro ⟨j, w, h, h1, h2, h3⟩
        cases j with
        | zero => simp at h1; subst h1; exact Or.inl ⟨h, h2, h3⟩
        | succ j =>
          right
          exact (hmem d nhs).2 ⟨j, w, h, by simpa using h1, by rw [Nat.add_right_comm, Nat.add_assoc]; exact h2, h3⟩
    cases hh : nhops[i] with
    | none =>
      obtain ⟨l, e, hs, hm⟩ := simpleLoop_spec nhops vs (i + 1) t (by omega)
      refine ⟨l, e, hs.trans (List.sublist_cons_self ..), ?_⟩
      intro d nhs
      rw [← key l hm d nhs]
      constructor
      · exact Or.inr
      · rintro (⟨h, h1, _⟩ | h)
        · rw [hd, hh] at h1; cases h1
        · exact h
    | some h0 =>
      obtain ⟨l, e, hs, hm⟩ := simpleLoop_spec nhops vs (i + 1) ((v.addr, [h0]) :: t) (by omega)
      refine ⟨(v.addr, [h0]) :: l, ?_, ?_, ?_⟩
      · dsimp only
        rw [e]; simp
      · exact hs.cons_cons _
      · intro d nhs
        rw [← key l hm d nhs, List.mem_cons]
        constructor
        · rintro (h | h)
          · cases h; exact Or.inl ⟨h0, by rw [hd, hh], rfl, rfl⟩
          · exact Or.inr h
        · rintro (⟨h, h1, rfl, rfl⟩ | h)
          · rw [hd, hh] at h1; cases h1; exact Or.inl rfl
          · exact Or.inr h

theorem addr_nodup {g c} (R : Rep0 g c) : (g.verts.map Vertex.addr).Nodup := by
  rw [List.Nodup, List.pairwise_map]
  exact R.sorted.imp (fun h => by omega)

/-- The table: one entry for every reachable node. -/
structure SimpleOk (c : Nat → Nat → Nat) (src : Nat) (t : Table) : Prop where
  nodup : (t.map Prod.fst).Nodup
  entry : ∀ d nhs, (d, nhs) ∈ t → d ≠ src ∧ ∃ h m, nhs = [h] ∧ c src h = 2 ∧ Dist (fun a b => c a b = 2) src d (m + 1) ∧
    Dist (fun a b => c a b = 2) h d m
  complete : ∀ d m, d ≠ src → Walk (fun a b => c a b = 2) m src d → ∃ nhs, (d, nhs) ∈ t

theorem two_verts {g c} (R : Rep g c) (h : g.nr < 2) : ∀ a b, c a b = 0 := by
  intro a b
  by_contra hne
  have hpos : 0 < c a b := Nat.pos_of_ne_zero hne
  obtain ⟨v, hv, rfl⟩ := (R.has a).2 ⟨b, hpos⟩
  obtain ⟨w, hw, rfl⟩ := (R.has b).2 ⟨v.addr, by rw [R.sym]; exact hpos⟩
  have h1 := getElem?_lt (mem_index R.toRep0 hv)
  have h2 := getElem?_lt (mem_index R.toRep0 hw)
  rw [R.nr] at h
  have : v = w := by
    have e1 := mem_index R.toRep0 hv
    have e2 := mem_index R.toRep0 hw
    have : v.index = w.index := by omega
    rw [this, e2] at e1
    exact (Option.some.inj e1).symm
  rw [this, R.irr] at hpos
  omega

theorem no_walk {c : Nat → Nat → Nat} (h : ∀ a b, c a b = 0) {m a b : Nat} (hw : Walk (fun a b => c a b = 2) m a b) : a = b := by
  cases hw with
  | nil => rfl
  | cons hl _ => rw [h] at hl; cases hl

theorem simple_spec {g c} (R : Rep g c) (hn : g.verts.length + 2 < INT_MAX) (src : Nat) :
    (g.nr < 2 ∧ simple g src = .ok none) ∨
    (2 ≤ g.nr ∧ ∃ t dist, simple g src = .ok (some (t, dist)) ∧ SimpleOk c src t ∧ DistOk g c src dist) := by
  by_cases hnr : g.nr < 2
  · left; unfold simple; rw [if_pos hnr]; exact ⟨hnr, rfl⟩
  right
  refine ⟨by omega, ?_⟩
  obtain ⟨st, e, l1, l2, h⟩ := dijkstra_spec R hn src
  obtain ⟨l, es, hsub, hm⟩ := simpleLoop_spec st.nhops g.verts 0 [] (by rw [l2]; omega)
  rw [List.append_nil] at es
  have hdist : DistOk g c src st.dist := by
    obtain ⟨st', e', h'⟩ := dijkstra_dist R hn src
    rw [e] at e'
    rw [Outcome.ok.inj e']; exact h'
  refine ⟨l.reverse, st.dist, ?_, ?_, hdist⟩
  · unfold simple
    rw [if_neg hnr, e, bind_ok', es, bind_ok']
    rfl
  · constructor
    · rw [List.map_reverse, (List.reverse_perm _).nodup_iff]
      exact List.Nodup.sublist hsub (addr_nodup R.toRep0)
    · intro d nhs hd
      rw [List.mem_reverse, hm] at hd
      obtain ⟨j, v, nh, hj, hnh, rfl, rfl⟩ := hd
      rw [Nat.zero_add] at hnh
      rcases h j v hj with ⟨x, _, _, hx, hc⟩ | ⟨_, hc, _⟩
      · rcases hc with ⟨_, hc⟩ | ⟨hne, h', m, h1, h2, rfl, h3⟩
        · rw [hc] at hnh; cases hnh
        · rw [h1] at hnh; cases hnh
          exact ⟨hne, nh, m, rfl, h2, hx, h3⟩
      · rw [hc] at hnh; cases hnh
    · intro d m hne hw
      have hsrc : HasV g src := by
        cases hw with
        | nil => exact absurd rfl hne
        | cons hl _ => exact (R.has src).2 ⟨_, lt_of_lt_of_eq (by decide) hl.symm⟩
      obtain ⟨v, hv, rfl⟩ := walk_has R hw hsrc
      have hi := mem_index R.toRep0 hv
      rcases h _ v hi with ⟨x, _, _, hx, hc⟩ | ⟨_, _, hc⟩
      · rcases hc with ⟨hc, _⟩ | ⟨_, h', m, h1, h2, rfl, h3⟩
        · exact absurd hc hne
        · exact ⟨[h'], List.mem_reverse.2 ((hm _ _).2 ⟨_, v, h', hi, by rw [Nat.zero_add]; exact h1, rfl, rfl⟩)⟩
      · exact absurd hw (hc m)

/-! ### The equal cost table -/

theorem deref_edge {g c} (R : Rep g c) {v : Vertex} (hv : v ∈ g.verts) {e : Edge} (he : e ∈ v.edges) :
    ∃ w ∈ g.verts, w.addr = e.nb ∧ deref g e.nb = .ok w ∧ 0 < c v.addr e.nb := by
  have := (R.mem hv e.nb e.announced).1 he
  obtain ⟨w, hw, hwa⟩ := (R.has e.nb).2 ⟨v.addr, by rw [R.sym]; omega⟩
  refine ⟨w, hw, hwa, ?_, this.2⟩
  unfold deref
  rw [← hwa, findVertex_of R.toRep0 hw]

theorem addInt_one {x : Nat} (h : x < INT_MAX - 1) : addInt x 1 = ((x + 1 : Nat) : Int) := by
  have hI : INT_MAX = 2147483647 := (rfl)
  rw [addInt_of_lt (by omega)]; omega

theorem addInt_wrap {a b : Nat} (ha : a ≤ INT_MAX) (hb : b ≤ INT_MAX) (h : INT_MAX < a + b) : addInt a b < 0 := by
  have hI : INT_MAX = 2147483647 := (rfl)
  unfold addInt
  have : ((a : Int) + b) = ((a : Int) + b - 2 ^ 32) + (2 ^ 32 : Nat) := by omega
  rw [this, Int.add_bmod_right, Int.bmod_eq_of_le] <;> omega

/-- The condition for an equal cost next hop, on the arrays. -/
theorem ecmp_cond {g c src nb} (hn : g.verts.length + 2 < INT_MAX) {dist tmp : List Nat} (hd : DistOk g c src dist) (ht : DistOk g c nb tmp) {v : Vertex} {i x d : Nat}
    (hi : g.verts[i]? = some v) (hx : tmp[i]? = some x) (hdd : dist[i]? = some d) :
    addInt x 1 = (d : Int) ↔ ∃ m, Dist (fun a b => c a b = 2) nb v.addr m ∧ Dist (fun a b => c a b = 2) src v.addr (m + 1) := by
  have hI : INT_MAX = 2147483647 := (rfl)
  rcases ht.ok i v hi with ⟨x', e1, l1, D1⟩ | ⟨e1, N1⟩
  · rw [hx] at e1; cases e1
    rw [addInt_one (by omega)]
    rcases hd.ok i v hi with ⟨d', e2, l2, D2⟩ | ⟨e2, N2⟩
    · rw [hdd] at e2; cases e2
      constructor
      · intro h
        have : d = x + 1 := by omega
        subst this
        exact ⟨x, D1, D2⟩
      · rintro ⟨m, h1, h2⟩
        rw [dist_uniq D1 h1, dist_uniq D2 h2]
    · rw [hdd] at e2
      have e2 := Option.some.inj e2
      constructor
      · intro h; omega
      · rintro ⟨m, _, h2⟩; exact absurd h2.1 (N2 _)
  · rw [hx] at e1
    have e1 := Option.some.inj e1
    constructor
    · intro h
      have := addInt_wrap (a := x) (b := 1) (by omega) (by omega) (by omega)
      omega
    · rintro ⟨m, h1, _⟩; exact absurd h1.1 (N1 _)

open Classical in
theorem ecmpVerts_spec {g c src nb} (R0 : Rep0 g c) (hn : g.verts.length + 2 < INT_MAX) {dist tmp : List Nat} (hd : DistOk g c src dist) (ht : DistOk g c nb tmp) :
    ∀ (vs pre : List Vertex) (fw : List (List Nat)), pre ++ vs = g.verts → fw.length = g.verts.length →
    ∃ fw', ecmpVerts nb tmp dist vs fw = .ok fw' ∧ fw'.length = fw.length ∧
      ∀ (i : Nat) (l : List Nat), fw[i]? = some l → fw'[i]? = some (if ∃ v, vs[i - pre.length]? = some v ∧ pre.length ≤ i ∧ ∃ m,
        Dist (fun a b => c a b = 2) nb v.addr m ∧ Dist (fun a b => c a b = 2) src v.addr (m + 1) then l ++ [nb] else l)
  | [], pre, fw, _, _ => ⟨fw, rfl, rfl, by simp⟩
  | v :: vs, pre, fw, hp, hl => by
    have hi : g.verts[pre.length]? = some v := by rw [← hp]; simp
    have hidx : v.index = pre.length := R0.idx _ _ hi
    have hlt := getElem?_lt hi
    obtain ⟨x, hx⟩ : ∃ x, tmp[pre.length]? = some x := ⟨_, List.getElem?_eq_getElem (by rw [ht.len]; exact hlt)⟩
    obtain ⟨d, hdd⟩ : ∃ x, dist[pre.length]? = some x := ⟨_, List.getElem?_eq_getElem (by rw [hd.len]; exact hlt)⟩
    obtain ⟨l0, hl0⟩ : ∃ x, fw[pre.length]? = some x := ⟨_, List.getElem?_eq_getElem (by rw [hl]; exact hlt)⟩
    have hc := ecmp_cond hn hd ht hi hx hdd
    unfold ecmpVerts
    rw [hidx, rd_eq hx, bind_ok', rd_eq hdd, bind_ok']
    have ind : ∀ (i : Nat), i ≠ pre.length → ∀ P : Vertex → Prop,
        ((∃ w, vs[i - (pre ++ [v]).length]? = some w ∧ (pre ++ [v]).length ≤ i ∧ P w) ↔
          (∃ w, (v :: vs)[i - pre.length]? = some w ∧ pre.length ≤ i ∧ P w)) := by
      intro i hne P
      simp only [List.length_append, List.length_cons, List.length_nil]
      constructor
      · rintro ⟨w, h1, h2, h3⟩
        refine ⟨w, ?_, by omega, h3⟩
        have : i - pre.length = (i - (pre.length + (0 + 1))) + 1 := by omega
        rw [this]; simpa using h1
      · rintro ⟨w, h1, h2, h3⟩
        refine ⟨w, ?_, by omega, h3⟩
        have : i - pre.length = (i - (pre.length + (0 + 1))) + 1 := by omega
        rw [this] at h1; simpa using h1
    by_cases hcond : addInt x 1 = (d : Int)
    · rw [if_pos hcond, rd_eq hl0, bind_ok', wr_eq (getElem?_lt hl0), bind_ok']
      obtain ⟨fw', e, hl', h⟩ := ecmpVerts_spec R0 hn hd ht vs (pre ++ [v]) (fw.set pre.length (l0 ++ [nb])) (by simpa using hp) (by simpa using hl)
      refine ⟨fw', e, by simpa using hl', ?_⟩
      intro i l hil
      by_cases hne : i = pre.length
      · subst hne
        rw [hl0] at hil; cases hil
        rw [h _ (l0 ++ [nb]) (List.getElem?_set_self (getElem?_lt hl0))]
        rw [if_neg (by simp), if_pos ⟨v, by simp, by omega, hc.1 hcond⟩]
      · rw [h i l (by rw [List.getElem?_set_ne (Ne.symm hne)]; exact hil)]
        simp only [ind i hne]
    · rw [if_neg hcond]
      obtain ⟨fw', e, hl', h⟩ := ecmpVerts_spec R0 hn hd ht vs (pre ++ [v]) fw (by simpa using hp) hl
      refine ⟨fw', e, hl', ?_⟩
      intro i l hil
      rw [h i l hil]
      by_cases hne : i = pre.length
      · subst hne
        rw [if_neg (by simp), if_neg]
        rintro ⟨w, h1, _, h3⟩
        simp only [Nat.sub_self, List.getElem?_cons_zero, Option.some.injEq] at h1
        subst h1
        exact hcond (hc.2 h3)
      · simp only [ind i hne]

open Classical in
theorem ecmpNbs_spec {g c src} (R : Rep g c) (hn : g.verts.length + 2 < INT_MAX) {dist : List Nat} (hd : DistOk g c src dist)
    {v : Vertex} (hv : v ∈ g.verts) : ∀ (es : List Edge) (fw : List (List Nat)), (∀ e ∈ es, e ∈ v.edges) → fw.length = g.verts.length →
    ∃ fw', ecmpNbs g dist es fw = .ok fw' ∧ fw'.length = fw.length ∧
      ∀ (i : Nat) (w : Vertex) (l : List Nat), g.verts[i]? = some w → fw[i]? = some l →
        fw'[i]? = some (l ++ (es.filter (fun e => ∃ m, Dist (fun a b => c a b = 2) e.nb w.addr m ∧
          Dist (fun a b => c a b = 2) src w.addr (m + 1))).map Edge.nb)
  | [], fw, _, _ => ⟨fw, rfl, rfl, by simp⟩
  | e :: es, fw, hsub, hl => by
    obtain ⟨w, hw, hwa, hder, _⟩ := deref_edge R hv (hsub e (List.mem_cons_self ..))
    obtain ⟨st, e1, ht⟩ := dijkstra_dist R hn w.addr
    obtain ⟨fw1, e2, hl1, h1⟩ := ecmpVerts_spec R.toRep0 hn hd ht g.verts [] fw rfl hl
    obtain ⟨fw2, e3, hl2, h2⟩ := ecmpNbs_spec R hn hd hv es fw1 (fun e he => hsub e (List.mem_cons_of_mem _ he)) (by rw [hl1, hl])
    refine ⟨fw2, ?_, by rw [hl2, hl1], ?_⟩
    · rw [ecmpNbs, hder, bind_ok', e1, bind_ok', e2, bind_ok', e3]
    · intro i u l hi hil
      have := h1 i l hil
      rw [h2 i u _ hi this]
      simp only [List.length_nil, Nat.sub_zero, Nat.zero_le, true_and, hi, Option.some.injEq]
      have hiff : (∃ v, u = v ∧ ∃ m, Dist (fun a b => c a b = 2) w.addr v.addr m ∧ Dist (fun a b => c a b = 2) src v.addr (m + 1)) ↔
          (∃ m, Dist (fun a b => c a b = 2) e.nb u.addr m ∧ Dist (fun a b => c a b = 2) src u.addr (m + 1)) := by
        rw [hwa]
        constructor
        · rintro ⟨_, rfl, h⟩; exact h
        · intro h; exact ⟨_, rfl, h⟩
      by_cases hq : ∃ m, Dist (fun a b => c a b = 2) e.nb u.addr m ∧ Dist (fun a b => c a b = 2) src u.addr (m + 1)
      · rw [if_pos (hiff.2 hq), List.filter_cons_of_pos (by simpa using hq), List.map_cons, hwa]
        simp
      · rw [if_neg (fun h => hq (hiff.1 h)), List.filter_cons_of_neg (by simpa using hq)]

theorem ecmpTable_spec (src : Nat) (fw : List (List Nat)) : ∀ (vs : List Vertex) (i : Nat) (t : Table), i + vs.length ≤ fw.length →
    ∃ l : Table, ecmpTable src fw vs i t = .ok (l.reverse ++ t) ∧ (l.map Prod.fst).Sublist (vs.map Vertex.addr) ∧
      ∀ d nhs, (d, nhs) ∈ l ↔ ∃ j v, vs[j]? = some v ∧ fw[i + j]? = some nhs ∧ d = v.addr ∧ d ≠ src
  | [], i, t, _ => ⟨[], rfl, .slnil, by simp⟩
  | v :: vs, i, t, hl => by
    simp only [List.length_cons] at hl
    have hd : fw[i]? = some fw[i] := List.getElem?_eq_getElem (by omega)
    unfold ecmpTable
    have key : ∀ (l : Table), (∀ d nhs, (d, nhs) ∈ l ↔ ∃ j w, vs[j]? = some w ∧ fw[i + 1 + j]? = some nhs ∧ d = w.addr ∧ d ≠ src) →
        ∀ d nhs, ((fw[i]? = some nhs ∧ d = v.addr ∧ d ≠ src) ∨ (d, nhs) ∈ l) ↔
          ∃ j w, (v :: vs)[j]? = some w ∧ fw[i + j]? = some nhs ∧ d = w.addr ∧ d ≠ src := by
      intro l hmem d nhs
      constructor
      · rintro (⟨h1, h2, h3⟩ | h)
        · exact ⟨0, v, rfl, h1, h2, h3⟩
        · obtain ⟨j, w, h1, h2, h3⟩ := (hmem d nhs).1 h
          exact ⟨j + 1, w, by simpa using h1, by rw [← Nat.add_assoc, Nat.add_right_comm]; exact h2, h3⟩
      · rintro ⟨j, w, h1, h2, h3⟩
        cases j with
        | zero => simp at h1; subst h1; exact Or.inl ⟨h2, h3⟩
        | succ j =>
          right
          exact (hmem d nhs).2 ⟨j, w, by simpa using h1, by rw [Nat.add_right_comm, Nat.add_assoc]; exact h2, h3⟩
    by_cases hs : v.addr = src
    · rw [if_pos hs]
      obtain ⟨l, e, hsu, hm⟩ := ecmpTable_spec src fw vs (i + 1) t (by omega)
      refine ⟨l, e, hsu.trans (List.sublist_cons_self ..), ?_⟩
      intro d nhs
      rw [← key l hm d nhs]
      constructor
      · exact Or.inr
      · rintro (⟨_, rfl, h1⟩ | h)
        · exact absurd hs h1
        · exact h
    · rw [if_neg hs, rd_eq hd, bind_ok']
      obtain ⟨l, e, hsu, hm⟩ := ecmpTable_spec src fw vs (i + 1) ((v.addr, fw[i]) :: t) (by omega)
      refine ⟨(v.addr, fw[i]) :: l, by rw [e]; simp, hsu.cons_cons _, ?_⟩
      intro d nhs
      rw [← key l hm d nhs, List.mem_cons]
      constructor
      · rintro (h | h)
        · cases h; exact Or.inl ⟨hd, rfl, hs⟩
        · exact Or.inr h
      · rintro (⟨h1, rfl, h2⟩ | h)
        · rw [hd] at h1; cases h1; exact Or.inl rfl
        · exact Or.inr h

/-- The table for equal cost multipath. -/
structure EcmpOk (c : Nat → Nat → Nat) (src : Nat) (t : Table) : Prop where
  nodup : (t.map Prod.fst).Nodup
  entry : ∀ d nhs, (d, nhs) ∈ t → d ≠ src ∧ nhs.Nodup ∧ ∀ h, h ∈ nhs ↔ 0 < c src h ∧ ∃ m, Dist (fun a b => c a b = 2) h d m ∧
    Dist (fun a b => c a b = 2) src d (m + 1)
  complete : ∀ d, d ≠ src → (∃ b, 0 < c d b) → ∃ nhs, (d, nhs) ∈ t
  known : ∀ d nhs, (d, nhs) ∈ t → ∃ b, 0 < c d b

theorem ecmp_spec {g c} (R : Rep g c) (hn : g.verts.length + 2 < INT_MAX) (src : Nat) :
    ((∀ b, c src b = 0) ∧ ecmp g src = .ok none) ∨
    ((∃ b, 0 < c src b) ∧ ∃ t, ecmp g src = .ok (some t) ∧ EcmpOk c src t) := by
  classical
  by_cases hnr : g.nr < 2
  · left; unfold ecmp; rw [if_pos hnr]; exact ⟨fun b => two_verts R hnr src b, rfl⟩
  obtain ⟨st, e, hdist⟩ := dijkstra_dist R hn src
  cases hf : findVertex g src with
  | none =>
    left
    have := findVertex_none hf
    rw [R.has] at this
    refine ⟨fun b => ?_, ?_⟩
    · by_contra hne; exact this ⟨b, Nat.pos_of_ne_zero hne⟩
    · unfold ecmp; rw [if_neg hnr, e, bind_ok', hf]; rfl
  | some v =>
    right
    obtain ⟨hv, rfl⟩ := findVertex_some hf
    refine ⟨(R.has _).1 ⟨v, hv, rfl⟩, ?_⟩
    obtain ⟨fw, e1, hl, hfw⟩ := ecmpNbs_spec R hn hdist hv v.edges (List.replicate g.nr []) (fun _ h => h) (by rw [List.length_replicate, R.nr])
    rw [List.length_replicate, R.nr] at hl
    obtain ⟨l, e2, hsub, hm⟩ := ecmpTable_spec v.addr fw g.verts 0 [] (by omega)
    rw [List.append_nil] at e2
    refine ⟨l.reverse, ?_, ?_⟩
    · unfold ecmp; rw [if_neg hnr, e, bind_ok', hf]; dsimp only; rw [e1, bind_ok', e2, bind_ok']; rfl
    · constructor
      · rw [List.map_reverse, (List.reverse_perm _).nodup_iff]
        exact List.Nodup.sublist hsub (addr_nodup R.toRep0)
      · intro d nhs hd
        rw [List.mem_reverse, hm] at hd
        obtain ⟨j, w, hj, hnh, rfl, hne⟩ := hd
        rw [Nat.zero_add] at hnh
        have := hfw j w [] hj (by rw [List.getElem?_replicate, if_pos (by rw [R.nr]; exact getElem?_lt hj)])
        rw [List.nil_append, hnh] at this
        have := Option.some.inj this
        subst this
        refine ⟨hne, ?_, ?_⟩
        · exact List.Nodup.sublist (List.filter_sublist.map _) (R.nodup v hv)
        · intro h
          simp only [List.mem_map, List.mem_filter, decide_eq_true_eq]
          constructor
          · rintro ⟨e, ⟨he, hm⟩, rfl⟩
            exact ⟨((R.mem hv e.nb e.announced).1 he).2, hm⟩
          · rintro ⟨hp, hm⟩
            exact ⟨⟨h, c v.addr h⟩, ⟨(R.mem hv h _).2 ⟨rfl, hp⟩, hm⟩, rfl⟩
      · intro d hne hb
        obtain ⟨w, hw, rfl⟩ := (R.has d).2 hb
        have hi := mem_index R.toRep0 hw
        have hlt := getElem?_lt hi
        exact ⟨fw[w.index], List.mem_reverse.2 ((hm _ _).2 ⟨_, w, hi, by rw [Nat.zero_add]; exact List.getElem?_eq_getElem (by omega), rfl, hne⟩)⟩
      · intro d nhs hd
        rw [List.mem_reverse, hm] at hd
        obtain ⟨j, w, hj, -, rfl, -⟩ := hd
        exact (R.has w.addr).1 ⟨w, List.mem_of_getElem? hj, rfl⟩

/-! ### Loop-free alternates -/

theorem nbDists_spec {g c} (R : Rep g c) (hn : g.verts.length + 2 < INT_MAX) {v : Vertex} (hv : v ∈ g.verts) :
    ∀ (es : List Edge), (∀ e ∈ es, e ∈ v.edges) → ∃ l, nbDists g es = .ok l ∧ l.map (fun x => x.1) = es.map Edge.nb ∧
      ∀ x ∈ l, (∃ w ∈ g.verts, w.addr = x.1 ∧ w.index = x.2.1) ∧ DistOk g c x.1 x.2.2 ∧ 0 < c v.addr x.1
  | [], _ => ⟨[], rfl, rfl, by simp⟩
  | e :: es, hsub => by
    obtain ⟨w, hw, hwa, hder, hpos⟩ := deref_edge R hv (hsub e (List.mem_cons_self ..))
    obtain ⟨st, e1, ht⟩ := dijkstra_dist R hn w.addr
    obtain ⟨l, e2, hl, h⟩ := nbDists_spec R hn hv es (fun e he => hsub e (List.mem_cons_of_mem _ he))
    refine ⟨(w.addr, w.index, st.dist) :: l, ?_, ?_, ?_⟩
    · rw [nbDists, hder, bind_ok', e1, bind_ok', e2, bind_ok']; rfl
    · simp [hl, hwa]
    · intro x hx
      rcases List.mem_cons.1 hx with rfl | hx
      · exact ⟨⟨w, hw, rfl, rfl⟩, ht, by dsimp only; rw [hwa]; exact hpos⟩
      · exact h x hx

theorem lfa_cond {g c src a} (R : Rep g c) (hn : 2 * g.verts.length + 2 < INT_MAX) {dist nd : List Nat} (hd : DistOk g c src dist) (ht : DistOk g c a nd) {v w : Vertex} {x dn dv : Nat}
    (hv : v ∈ g.verts) (hw : w ∈ g.verts) (hwa : w.addr = a) (hns : a ≠ src) (hvs : v.addr ≠ src)
    (hx : nd[v.index]? = some x) (hdn : dist[w.index]? = some dn) (hdv : dist[v.index]? = some dv) :
    ((x : Int) < addInt dn dv) ↔ ∃ p q r, Dist (fun a b => c a b = 2) a v.addr p ∧ Dist (fun a b => c a b = 2) src a q ∧
      Dist (fun a b => c a b = 2) src v.addr r ∧ p < q + r := by
  have hI : INT_MAX = 2147483647 := (rfl)
  have hiv := mem_index R.toRep0 hv
  have hiw := mem_index R.toRep0 hw
  rcases hd.ok _ w hiw with ⟨dn', e1, l1, D1⟩ | ⟨e1, N1⟩
  · rw [hdn] at e1; cases e1
    have hdn1 : 1 ≤ dn := by
      cases dn with
      | zero => have := dist_zero D1; rw [hwa] at this; exact absurd this.symm hns
      | succ _ => omega
    rcases hd.ok _ v hiv with ⟨dv', e2, l2, D2⟩ | ⟨e2, N2⟩
    · rw [hdv] at e2; cases e2
      by_cases hsum : dn + dv < 2 ^ 31
      · rw [addInt_of_lt hsum]
        rcases ht.ok _ v hiv with ⟨x', e3, l3, D3⟩ | ⟨e3, N3⟩
        · rw [hx] at e3; cases e3
          constructor
          · intro h
            exact ⟨x, dn, dv, D3, by rw [← hwa]; exact D1, D2, by omega⟩
          · rintro ⟨p, q, r, hp, hq, hr, hlt⟩
            rw [dist_uniq D3 hp, dist_uniq D2 hr]
            rw [hwa] at D1
            rw [dist_uniq D1 hq]
            omega
        · rw [hx] at e3
          have e3 := Option.some.inj e3
          constructor
          · intro h
            -- the two distances from the source are finite, so is the one between them
            exfalso
            have w1 := walk_symm (fun a b h => by rw [R.sym]; exact h) D1.1
            rw [hwa] at w1
            exact N3 _ (walk_append w1 D2.1)
          · rintro ⟨p, q, r, hp, _⟩; exact absurd hp.1 (N3 _)
      · exfalso
        -- distances are bounded by the number of vertices, which is tiny in comparison
        omega
    · rw [hdv] at e2
      have e2 := Option.some.inj e2
      constructor
      · intro h
        have := addInt_wrap (a := dn) (b := dv) (by omega) (by omega) (by omega)
        omega
      · rintro ⟨p, q, r, _, _, hr, _⟩; exact absurd hr.1 (N2 _)
  · rw [hdn] at e1
    have e1 := Option.some.inj e1
    constructor
    · intro h
      rcases hd.ok _ v hiv with ⟨dv', e2, l2, D2⟩ | ⟨e2, N2⟩
      · rw [hdv] at e2; cases e2
        by_cases hz : dv = 0
        · subst hz; exact absurd (dist_zero D2).symm hvs
        · have := addInt_wrap (a := dn) (b := dv) (by omega) (by omega) (by omega)
          omega
      · rw [hdv] at e2
        have e2 := Option.some.inj e2
        have := addInt_wrap (a := dn) (b := dv) (by omega) (by omega) (by omega)
        omega
    · rintro ⟨p, q, r, _, hq, _⟩; rw [hwa] at N1; exact absurd hq.1 (N1 _)

/-- The condition for an alternate `a` for `d`. -/
def LfaCond (c : Nat → Nat → Nat) (src d a : Nat) : Prop :=
  ∃ p q r, Dist (fun a b => c a b = 2) a d p ∧ Dist (fun a b => c a b = 2) src a q ∧ Dist (fun a b => c a b = 2) src d r ∧ p < q + r

/-- Append to the entry for `d`. -/
def app (d : Nat) (l : List Nat) (e : Nat × List Nat) : Nat × List Nat := if e.1 = d then (e.1, e.2 ++ l) else e

theorem app_fst (d : Nat) (l : List Nat) (t : Table) : (t.map (app d l)).map Prod.fst = t.map Prod.fst := by
  rw [List.map_map]
  apply List.map_congr_left
  intro e _
  simp only [Function.comp, app]
  split <;> rfl

theorem app_nil (d : Nat) (t : Table) : t.map (app d []) = t := by
  conv => rhs; rw [← List.map_id t]
  apply List.map_congr_left
  intro e _
  simp only [app, List.append_nil, id]
  split <;> rfl

theorem app_app (d : Nat) (l l' : List Nat) (t : Table) : (t.map (app d l)).map (app d l') = t.map (app d (l ++ l')) := by
  rw [List.map_map]
  apply List.map_congr_left
  intro e _
  simp only [Function.comp, app]
  by_cases h : e.1 = d
  · simp [h]
  · simp [h]

theorem addLfa_spec : ∀ (t : Table) (a h : Nat), (t.map Prod.fst).Nodup → a ∈ t.map Prod.fst → addLfa t a h = some (t.map (app a [h]))
  | [], a, h, _, hm => by simp at hm
  | (d, nhs) :: t, a, h, hn, hm => by
    unfold addLfa
    rw [List.map_cons, List.nodup_cons] at hn
    by_cases hd : d = a
    · rw [if_pos hd]
      subst hd
      have : t.map (app d [h]) = t := by
        conv => rhs; rw [← List.map_id t]
        apply List.map_congr_left
        intro e he
        have : e.1 ≠ d := fun hh => hn.1 (List.mem_map.2 ⟨e, he, hh⟩)
        simp [app, this]
      rw [List.map_cons, this]
      simp [app]
    · rw [if_neg hd, addLfa_spec t a h hn.2 (by
        rw [List.map_cons, List.mem_cons] at hm
        rcases hm with hm | hm
        · exact absurd hm.symm hd
        · exact hm)]
      simp [app, hd]

open Classical in
theorem lfaNbs_spec {g c src} (R : Rep g c) (hn : 2 * g.verts.length + 2 < INT_MAX) {dist : List Nat} (hd : DistOk g c src dist)
    {v : Vertex} (hv : v ∈ g.verts) (hvs : v.addr ≠ src) : ∀ (l : List (Nat × Nat × List Nat)) (t : Table),
    (t.map Prod.fst).Nodup → (∀ m, Walk (fun a b => c a b = 2) m src v.addr → v.addr ∈ t.map Prod.fst) →
    (∀ x ∈ l, (∃ w ∈ g.verts, w.addr = x.1 ∧ w.index = x.2.1) ∧ DistOk g c x.1 x.2.2 ∧ x.1 ≠ src) →
    lfaNbs dist v l t = .ok (some (t.map (app v.addr ((l.map (fun x => x.1)).filter (fun a => a ≠ v.addr ∧ LfaCond c src v.addr a)))))
  | [], t, _, _, _ => by rw [lfaNbs]; simp [app_nil]
  | (a, ix, nd) :: l, t, h1, h2, h3 => by
    obtain ⟨⟨w, hw, hwa, hwi⟩, ht, hne⟩ := h3 _ (List.mem_cons_self ..)
    dsimp only at hwa hwi ht hne
    subst hwi
    have ih := fun t h1 h2 => lfaNbs_spec R hn hd hv hvs l t h1 h2 (fun x hx => h3 x (List.mem_cons_of_mem _ hx))
    rw [lfaNbs]
    by_cases hav : a = v.addr
    · rw [if_pos hav, ih t h1 h2, List.map_cons, List.filter_cons_of_neg (by simp [hav])]
    · rw [if_neg hav]
      have hiv := getElem?_lt (mem_index R.toRep0 hv)
      have hiw := getElem?_lt (mem_index R.toRep0 hw)
      obtain ⟨x, hx⟩ : ∃ x, nd[v.index]? = some x := ⟨_, List.getElem?_eq_getElem (by rw [ht.len]; exact hiv)⟩
      obtain ⟨dn, hdn⟩ : ∃ x, dist[w.index]? = some x := ⟨_, List.getElem?_eq_getElem (by rw [hd.len]; exact hiw)⟩
      obtain ⟨dv, hdv⟩ : ∃ x, dist[v.index]? = some x := ⟨_, List.getElem?_eq_getElem (by rw [hd.len]; exact hiv)⟩
      have hc := lfa_cond R hn hd ht hv hw hwa hne hvs hx hdn hdv
      rw [rd_eq hx, bind_ok', rd_eq hdn, bind_ok', rd_eq hdv, bind_ok']
      by_cases hcond : (x : Int) < addInt dn dv
      · have hL : LfaCond c src v.addr a := hc.1 hcond
        obtain ⟨p, q, r, _, _, hr, _⟩ := hc.1 hcond
        rw [if_pos hcond, addLfa_spec t v.addr a h1 (h2 r hr.1)]
        dsimp only
        rw [ih (t.map (app v.addr [a])) (by rw [app_fst]; exact h1) (by rw [app_fst]; exact h2), app_app, List.map_cons,
          List.filter_cons_of_pos (by simp [hav, hL])]
        rfl
      · have hL : ¬ LfaCond c src v.addr a := fun h => hcond (hc.2 h)
        rw [if_neg hcond, ih t h1 h2, List.map_cons, List.filter_cons_of_neg (by simp [hL])]

open Classical in
/-- The alternates appended for `d`. -/
noncomputable def alts (c : Nat → Nat → Nat) (src : Nat) (nbs : List Nat) (d : Nat) : List Nat :=
  nbs.filter (fun a => a ≠ d ∧ LfaCond c src d a)

theorem lfaLoop_spec {g c src} (R : Rep g c) (hn : 2 * g.verts.length + 2 < INT_MAX) {dist : List Nat} (hd : DistOk g c src dist)
    {nbs : List (Nat × Nat × List Nat)} (hnb : ∀ x ∈ nbs, (∃ w ∈ g.verts, w.addr = x.1 ∧ w.index = x.2.1) ∧ DistOk g c x.1 x.2.2 ∧ x.1 ≠ src) :
    ∀ (vs : List Vertex) (t : Table), (∀ v ∈ vs, v ∈ g.verts) → (vs.map Vertex.addr).Nodup → (t.map Prod.fst).Nodup →
    (∀ d m, d ≠ src → Walk (fun a b => c a b = 2) m src d → d ∈ t.map Prod.fst) →
    ∃ t', lfaLoop src dist nbs vs t = .ok (some t') ∧ t'.map Prod.fst = t.map Prod.fst ∧
      (∀ d n, (d, n) ∈ t' → ∃ n0, (d, n0) ∈ t ∧
        ((d ≠ src ∧ d ∈ vs.map Vertex.addr ∧ n = n0 ++ alts c src (nbs.map (fun x => x.1)) d) ∨
         ((d = src ∨ d ∉ vs.map Vertex.addr) ∧ n = n0)))
  | [], t, _, _, _, _ => ⟨t, rfl, rfl, fun d n h => ⟨n, h, Or.inr ⟨Or.inr (by simp), rfl⟩⟩⟩
  | v :: vs, t, h1, h2, h3, h4 => by
    rw [List.map_cons, List.nodup_cons] at h2
    rw [lfaLoop]
    by_cases hs : v.addr = src
    · rw [if_pos hs]
      obtain ⟨t', e, hk, hm⟩ := lfaLoop_spec R hn hd hnb vs t (fun v hv => h1 v (List.mem_cons_of_mem _ hv)) h2.2 h3 h4
      refine ⟨t', e, hk, ?_⟩
      intro d n hdn
      obtain ⟨n0, hn0, h⟩ := hm d n hdn
      refine ⟨n0, hn0, ?_⟩
      rcases h with ⟨k1, k2, k3⟩ | ⟨k1, k2⟩
      · exact Or.inl ⟨k1, by rw [List.map_cons]; exact List.mem_cons_of_mem _ k2, k3⟩
      · right
        refine ⟨?_, k2⟩
        by_cases hds : d = src
        · exact Or.inl hds
        · right
          rw [List.map_cons, List.mem_cons, hs]
          rintro (h | h)
          · exact hds h
          · rcases k1 with k1 | k1
            · exact hds k1
            · exact k1 h
    · rw [if_neg hs, lfaNbs_spec R hn hd (h1 v (List.mem_cons_self ..)) hs nbs t h3 (fun m hw => h4 _ m hs hw) hnb, bind_ok']
      dsimp only
      change ∃ t', lfaLoop src dist nbs vs (t.map (app v.addr (alts c src (nbs.map (fun x => x.1)) v.addr))) = .ok (some t') ∧ _
      obtain ⟨t', e, hk, hm⟩ := lfaLoop_spec R hn hd hnb vs (t.map (app v.addr (alts c src (nbs.map (fun x => x.1)) v.addr)))
        (fun v hv => h1 v (List.mem_cons_of_mem _ hv)) h2.2 (by rw [app_fst]; exact h3) (by rw [app_fst]; exact h4)
      refine ⟨t', e, by rw [hk, app_fst], ?_⟩
      intro d n hdn
      obtain ⟨n0, hn0, h⟩ := hm d n hdn
      rw [List.mem_map] at hn0
      obtain ⟨⟨d1, n1⟩, hmem, heq⟩ := hn0
      by_cases hd1 : d1 = v.addr
      · simp only [app, hd1, if_true] at heq
        cases heq
        subst hd1
        refine ⟨n1, hmem, ?_⟩
        rcases h with ⟨_, k2, _⟩ | ⟨_, k2⟩
        · exact absurd k2 h2.1
        · exact Or.inl ⟨hs, by simp, k2⟩
      · simp only [app, hd1, if_false] at heq
        cases heq
        refine ⟨n0, hmem, ?_⟩
        rw [List.map_cons, List.mem_cons]
        rcases h with ⟨k1, k2, k3⟩ | ⟨k1, k2⟩
        · exact Or.inl ⟨k1, Or.inr k2, k3⟩
        · refine Or.inr ⟨?_, k2⟩
          rcases k1 with k1 | k1
          · exact Or.inl k1
          · refine Or.inr ?_
            rintro (h | h)
            · exact hd1 h
            · exact k1 h

/-- The table with alternates. -/
structure LfaOk (c : Nat → Nat → Nat) (src : Nat) (t : Table) : Prop where
  nodup : (t.map Prod.fst).Nodup
  entry : ∀ d nhs, (d, nhs) ∈ t → d ≠ src ∧ ∃ h m l, nhs = h :: l ∧ c src h = 2 ∧ Dist (fun a b => c a b = 2) src d (m + 1) ∧
    Dist (fun a b => c a b = 2) h d m ∧ l.Nodup ∧ ∀ a, a ∈ l ↔ 0 < c src a ∧ a ≠ d ∧ LfaCond c src d a
  complete : ∀ d m, d ≠ src → Walk (fun a b => c a b = 2) m src d → ∃ nhs, (d, nhs) ∈ t

theorem lfa_spec {g c} (R : Rep g c) (hn : 2 * g.verts.length + 2 < INT_MAX) (src : Nat)
    (hmax : ∀ v ∈ g.verts, v.addr = src → v.edges.length ≤ maxFlows) :
    (g.nr < 2 ∧ lfa g src = .ok none) ∨ (2 ≤ g.nr ∧ ∃ t, lfa g src = .ok (some t) ∧ LfaOk c src t) := by
  rcases simple_spec R (by omega) src with ⟨h, e⟩ | ⟨h, t, dist, e, S, D⟩
  · left; refine ⟨h, ?_⟩; unfold lfa; rw [e, bind_ok']; rfl
  right
  refine ⟨h, ?_⟩
  unfold lfa
  rw [e, bind_ok']
  dsimp only
  have step : ∀ (es : List Edge), es.length ≤ maxFlows → (∀ a, a ∈ es.map Edge.nb ↔ 0 < c src a) → (es.map Edge.nb).Nodup →
      (∃ l, nbDists g es = .ok l ∧ l.map (fun x => x.1) = es.map Edge.nb ∧
      ∀ x ∈ l, (∃ w ∈ g.verts, w.addr = x.1 ∧ w.index = x.2.1) ∧ DistOk g c x.1 x.2.2 ∧ x.1 ≠ src) →
      ∃ t', (if maxFlows < es.length then Outcome.ub else nbDists g es >>= fun nbs => lfaLoop src dist nbs g.verts t) = .ok (some t') ∧ LfaOk c src t' := by
    rintro es hlen hmem hnod ⟨l, e1, hl, hx⟩
    rw [if_neg (by omega), e1, bind_ok']
    obtain ⟨t', e2, hk, hm⟩ := lfaLoop_spec R hn D hx g.verts t (fun _ h => h) (addr_nodup R.toRep0) S.nodup
      (fun d m hne hw => by obtain ⟨nhs, hh⟩ := S.complete d m hne hw; exact List.mem_map_of_mem hh)
    refine ⟨t', e2, ?_⟩
    constructor
    · rw [hk]; exact S.nodup
    · intro d nhs hd
      obtain ⟨n0, hn0, h⟩ := hm d nhs hd
      obtain ⟨hne, hh, m, rfl, k1, k2, k3⟩ := S.entry d n0 hn0
      have hv : d ∈ g.verts.map Vertex.addr := by
        obtain ⟨v, hv, rfl⟩ := walk_has R k2.1 ((R.has src).2 ⟨hh, by omega⟩)
        exact List.mem_map_of_mem hv
      rcases h with ⟨_, _, k4⟩ | ⟨k4, _⟩
      · refine ⟨hne, hh, m, alts c src (l.map (fun x => x.1)) d, by rw [k4]; rfl, k1, k2, k3, ?_, ?_⟩
        · unfold alts
          rw [hl]
          exact List.Nodup.sublist List.filter_sublist hnod
        · intro a
          unfold alts
          rw [hl, List.mem_filter, hmem]
          simp
      · rcases k4 with k4 | k4
        · exact absurd k4 hne
        · exact absurd hv k4
    · intro d m hne hw
      obtain ⟨nhs, hh⟩ := S.complete d m hne hw
      have : d ∈ t'.map Prod.fst := by rw [hk]; exact List.mem_map_of_mem hh
      obtain ⟨⟨d', n⟩, h1, rfl⟩ := List.mem_map.1 this
      exact ⟨n, h1⟩
  cases hf : findVertex g src with
  | none =>
    have hns : ∀ a, c src a = 0 := by
      intro a
      by_contra hne
      exact findVertex_none hf ((R.has src).2 ⟨a, Nat.pos_of_ne_zero hne⟩)
    exact step [] (by simp) (by intro a; simp [hns]) (by simp) ⟨[], rfl, rfl, by simp⟩
  | some v =>
    obtain ⟨hv, rfl⟩ := findVertex_some hf
    refine step v.edges (hmax v hv rfl) ?_ (R.nodup v hv) ?_
    · intro a
      rw [List.mem_map]
      constructor
      · rintro ⟨e, he, rfl⟩; exact ((R.mem hv e.nb e.announced).1 he).2
      · intro hp; exact ⟨⟨a, c v.addr a⟩, (R.mem hv a _).2 ⟨rfl, hp⟩, rfl⟩
    · obtain ⟨l, e1, e2, e3⟩ := nbDists_spec R (by omega) hv v.edges (fun _ h => h)
      refine ⟨l, e1, e2, fun x hx => ?_⟩
      obtain ⟨k1, k2, k3⟩ := e3 x hx
      refine ⟨k1, k2, ?_⟩
      intro hh
      rw [hh, R.irr] at k3
      omega

theorem lfa_overflow {g c} (R : Rep g c) (hn : 2 * g.verts.length + 2 < INT_MAX) {v : Vertex} (hv : v ∈ g.verts)
    (hmax : maxFlows < v.edges.length) : lfa g v.addr = .ub := by
  rcases simple_spec R (by omega) v.addr with ⟨h, e⟩ | ⟨h, t, dist, e, S, D⟩
  · exfalso
    have h0 := two_verts R h
    cases he : v.edges with
    | nil => rw [he] at hmax; simp at hmax
    | cons x xs =>
      have := ((R.mem hv x.nb x.announced).1 (by rw [he]; exact List.mem_cons_self ..)).2
      rw [h0] at this; omega
  · unfold lfa
    rw [e, bind_ok']
    dsimp only
    rw [findVertex_of R.toRep0 hv]
    dsimp only
    rw [if_pos hmax]

end Ouro.Graph
