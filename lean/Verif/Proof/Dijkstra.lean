import Verif.Proof.Graph
import Verif.Proof.Pft

namespace Ouro.Graph

open Spec.Routing (Walk Dist)

theorem walk_snoc {link : Nat → Nat → Prop} {n a b c : Nat} (h : Walk link n a b) (h' : link b c) : Walk link (n + 1) a c := by
  induction h with
  | nil a => exact .cons h' (.nil _)
  | cons hl _ ih => exact .cons hl (ih h')

theorem walk_append {link : Nat → Nat → Prop} {n m a b c : Nat} (h : Walk link n a b) (h' : Walk link m b c) : Walk link (n + m) a c := by
  induction h with
  | nil a => rw [Nat.zero_add]; exact h'
  | cons hl _ ih => rw [Nat.add_right_comm]; exact .cons hl (ih h')

theorem walk_last {link : Nat → Nat → Prop} {n a c : Nat} (h : Walk link (n + 1) a c) : ∃ b, Walk link n a b ∧ link b c := by
  induction n generalizing a with
  | zero =>
    cases h with
    | cons hl hw => cases hw; exact ⟨a, .nil a, hl⟩
  | succ n ih =>
    cases h with
    | cons hl hw =>
      obtain ⟨b, h1, h2⟩ := ih hw
      exact ⟨b, .cons hl h1, h2⟩

theorem walk_symm {link : Nat → Nat → Prop} (hs : ∀ a b, link a b → link b a) {n a b : Nat} (h : Walk link n a b) : Walk link n b a := by
  induction h with
  | nil a => exact .nil a
  | cons hl _ ih => exact walk_snoc ih (hs _ _ hl)

theorem addInt_of_lt {a b : Nat} (h : a + b < 2 ^ 31) : addInt a b = (a : Int) + b := by
  unfold addInt
  apply Int.bmod_eq_of_le <;> omega

theorem rd_eq {α : Type} {l : List α} {i : Nat} {a : α} (h : l[i]? = some a) : rd l i = .ok a := by
  unfold rd; rw [h]

theorem wr_eq {α : Type} {l : List α} {i : Nat} (h : i < l.length) (a : α) : wr l i a = .ok (l.set i a) := by
  unfold wr; rw [if_pos h]

theorem minLoop_spec (dist : List Nat) (used : List Bool) : ∀ (vs : List Vertex) (i min : Nat) (best : Option (Nat × Vertex)),
    i + vs.length ≤ dist.length → i + vs.length ≤ used.length →
    ∃ r, minLoop dist used vs i min best = .ok r ∧
      ((r = best ∧ ∀ j x, j < vs.length → dist[i + j]? = some x → used[i + j]? = some false → min ≤ x) ∨
       (∃ k v x, r = some (i + k, v) ∧ vs[k]? = some v ∧ used[i + k]? = some false ∧ dist[i + k]? = some x ∧ x < min ∧
         ∀ j y, j < vs.length → dist[i + j]? = some y → used[i + j]? = some false → x ≤ y))
  | [], i, min, best, _, _ => ⟨best, rfl, Or.inl ⟨rfl, fun j x hj => by simp at hj⟩⟩
  | v :: vs, i, min, best, h1, h2 => by
    simp only [List.length_cons] at h1 h2
    have hd : dist[i]? = some dist[i] := List.getElem?_eq_getElem (by omega)
    have hu : used[i]? = some used[i] := List.getElem?_eq_getElem (by omega)
    unfold minLoop
    rw [rd_eq hu, rd_eq hd]
    simp only [Outcome.bind_ok]
    by_cases hc : used[i] = false ∧ dist[i] < min
    · rw [if_pos hc]
      obtain ⟨r, hr, h⟩ := minLoop_spec dist used vs (i + 1) dist[i] (some (i, v)) (by omega) (by omega)
      refine ⟨r, hr, Or.inr ?_⟩
      rcases h with ⟨rfl, h⟩ | ⟨k, w, x, rfl, hk, hku, hkd, hlt, h⟩
      · refine ⟨0, v, dist[i], rfl, rfl, by rw [Nat.add_zero, hu, hc.1], by rw [Nat.add_zero, hd], hc.2, ?_⟩
        intro j y hj hy hyu
        cases j with
        | zero => rw [Nat.add_zero, hd] at hy; cases hy; exact Nat.le_refl _
        | succ j =>
          rw [← Nat.add_assoc, Nat.add_right_comm] at hy hyu
          exact h j y (by simpa using hj) hy hyu
      · refine ⟨k + 1, w, x, by rw [Nat.add_right_comm, Nat.add_assoc], by simpa using hk, ?_, ?_, by omega, ?_⟩
        · rw [← Nat.add_assoc, Nat.add_right_comm]; exact hku
        · rw [← Nat.add_assoc, Nat.add_right_comm]; exact hkd
        · intro j y hj hy hyu
          cases j with
          | zero => rw [Nat.add_zero, hd] at hy; cases hy; omega
          | succ j =>
            rw [← Nat.add_assoc, Nat.add_right_comm] at hy hyu
            exact h j y (by simpa using hj) hy hyu
    · rw [if_neg hc]
      obtain ⟨r, hr, h⟩ := minLoop_spec dist used vs (i + 1) min best (by omega) (by omega)
      refine ⟨r, hr, ?_⟩
      have h0 : ∀ y, dist[i + 0]? = some y → used[i + 0]? = some false → min ≤ y := by
        intro y hy hyu
        rw [Nat.add_zero, hd] at hy
        rw [Nat.add_zero, hu] at hyu
        cases hy
        have : used[i] = false := Option.some.inj hyu
        by_contra hlt
        exact hc ⟨this, by omega⟩
      rcases h with ⟨rfl, h⟩ | ⟨k, w, x, rfl, hk, hku, hkd, hlt, h⟩
      · refine Or.inl ⟨rfl, ?_⟩
        intro j y hj hy hyu
        cases j with
        | zero => exact h0 y hy hyu
        | succ j =>
          rw [← Nat.add_assoc, Nat.add_right_comm] at hy hyu
          exact h j y (by simpa using hj) hy hyu
      · refine Or.inr ⟨k + 1, w, x, by rw [Nat.add_right_comm, Nat.add_assoc], by simpa using hk, ?_, ?_, hlt, ?_⟩
        · rw [← Nat.add_assoc, Nat.add_right_comm]; exact hku
        · rw [← Nat.add_assoc, Nat.add_right_comm]; exact hkd
        · intro j y hj hy hyu
          cases j with
          | zero => have := h0 y hy hyu; omega
          | succ j =>
            rw [← Nat.add_assoc, Nat.add_right_comm] at hy hyu
            exact h j y (by simpa using hj) hy hyu

/-- The invariant of the main loop. `ex i b`: the link from the vertex at position `i` to `b` has yet to be looked at. -/
structure DInv (g : Graph) (c : Nat → Nat → Nat) (src : Nat) (st : DState) (ex : Nat → Nat → Prop) : Prop where
  l1 : st.dist.length = g.verts.length
  l2 : st.nhops.length = g.verts.length
  l3 : st.used.length = g.verts.length
  src0 : ∀ (i : Nat) (v : Vertex), g.verts[i]? = some v → v.addr = src → st.dist[i]? = some 0
  fin : ∀ (i : Nat) (v : Vertex) (x : Nat), g.verts[i]? = some v → st.dist[i]? = some x → x ≠ INT_MAX →
    x ≤ st.used.count true ∧ Walk (fun a b => c a b = 2) x src v.addr ∧ (v.addr = src → st.nhops[i]? = some none) ∧
    (v.addr ≠ src → ∃ h m, st.nhops[i]? = some (some h) ∧ c src h = 2 ∧ x = m + 1 ∧ Walk (fun a b => c a b = 2) m h v.addr)
  inf : ∀ i : Nat, st.dist[i]? = some INT_MAX → st.nhops[i]? = some none
  usedFin : ∀ i : Nat, st.used[i]? = some true → st.dist[i]? ≠ some INT_MAX
  mono : ∀ i j x y : Nat, st.used[i]? = some true → st.used[j]? = some false → st.dist[i]? = some x → st.dist[j]? = some y → x ≤ y
  relaxed : ∀ (i j : Nat) (v w : Vertex) (x y : Nat), st.used[i]? = some true → g.verts[i]? = some v → g.verts[j]? = some w →
    c v.addr w.addr = 2 → ¬ ex i w.addr → st.dist[i]? = some x → st.dist[j]? = some y → y ≤ x + 1

theorem DInv.weaken {g c src st ex ex'} (I : DInv g c src st ex) (h : ∀ i b, ex i b → ex' i b) : DInv g c src st ex' :=
  ⟨I.l1, I.l2, I.l3, I.src0, I.fin, I.inf, I.usedFin, I.mono,
    fun i j v w x y h1 h2 h3 h4 h5 h6 h7 => I.relaxed i j v w x y h1 h2 h3 h4 (fun hh => h5 (h _ _ hh)) h6 h7⟩

/-- What still has to be looked at while the edges `rem` of the vertex at position `i` remain. -/
def todo (i : Nat) (rem : List Edge) (i' b : Nat) : Prop := i' = i ∧ ∃ e ∈ rem, e.nb = b ∧ e.announced = 2

theorem mem_index {g c} (R : Rep0 g c) {w : Vertex} (h : w ∈ g.verts) : g.verts[w.index]? = some w := by
  obtain ⟨i, hi, rfl⟩ := List.getElem_of_mem h
  have h1 : g.verts[i]? = some g.verts[i] := List.getElem?_eq_getElem hi
  rw [R.idx i _ h1]; exact h1

theorem getElem?_lt {α : Type} {l : List α} {i : Nat} {a : α} (h : l[i]? = some a) : i < l.length := by
  obtain ⟨h, _⟩ := List.getElem?_eq_some_iff.1 h; exact h

theorem count_le_n {g c src st ex} (I : DInv g c src st ex) : st.used.count true ≤ g.verts.length := by
  rw [← I.l3]; exact List.count_le_length

theorem bind_ok' {α β : Type} (a : α) (f : α → Outcome β) : (Outcome.ok a >>= f) = f a := (rfl)

theorem relax_far {g src i v st e w di dn} (h2 : e.announced = 2) (hdi : st.dist[i]? = some di) (hder : deref g e.nb = .ok w)
    (hdn : st.dist[w.index]? = some dn) (hdi' : di + 1 < 2 ^ 31) (hle : dn ≤ di + 1) : relax g src i v st e = .ok st := by
  unfold relax
  rw [if_neg (by omega), rd_eq hdi, bind_ok', hder, bind_ok', rd_eq hdn, bind_ok', addInt_of_lt hdi', if_neg (by omega)]
  rfl

theorem relax_near {g src i v st e w di dn h} (h2 : e.announced = 2) (hdi : st.dist[i]? = some di) (hder : deref g e.nb = .ok w)
    (hdn : st.dist[w.index]? = some dn) (hdi' : di + 1 < 2 ^ 31) (hle : di + 1 < dn) (hv : viaHop src i v w st = .ok h)
    (hjn : w.index < st.nhops.length) :
    relax g src i v st e = .ok { st with dist := st.dist.set w.index (di + 1), nhops := st.nhops.set w.index h } := by
  unfold relax
  rw [if_neg (by omega), rd_eq hdi, bind_ok', hder, bind_ok', rd_eq hdn, bind_ok', addInt_of_lt hdi', if_pos (by omega),
    wr_eq (getElem?_lt hdn), bind_ok', hv, bind_ok', wr_eq hjn, bind_ok']
  rfl

theorem relax_spec {g c src} (R : Rep g c) (hn : g.verts.length + 2 < INT_MAX) {i di : Nat} {v : Vertex} {st : DState} {e : Edge}
    {rem : List Edge} (hv : g.verts[i]? = some v) (he : e ∈ v.edges) (I : DInv g c src st (todo i (e :: rem)))
    (hdi : st.dist[i]? = some di) (hu : st.used[i]? = some true) (hcnt : di + 1 ≤ st.used.count true)
    (htop : ∀ u x : Nat, st.used[u]? = some true → st.dist[u]? = some x → x ≤ di) :
    ∃ st', relax g src i v st e = .ok st' ∧ DInv g c src st' (todo i rem) ∧ st'.dist[i]? = some di ∧ st'.used = st.used ∧
      (∀ u x : Nat, st'.used[u]? = some true → st'.dist[u]? = some x → x ≤ di) := by
  have hvm : v ∈ g.verts := List.mem_of_getElem? hv
  have hcn := count_le_n I
  have hI : INT_MAX = 2147483647 := (rfl)
  by_cases h2 : e.announced ≠ 2
  · have he' : relax g src i v st e = .ok st := by unfold relax; rw [if_pos h2]
    rw [he']
    refine ⟨st, rfl, I.weaken ?_, hdi, rfl, htop⟩
    rintro i' b ⟨rfl, e', he', hb⟩
    refine ⟨rfl, ?_⟩
    rcases List.mem_cons.1 he' with rfl | he'
    · exact absurd hb.2 h2
    · exact ⟨e', he', hb⟩
  · have h2 : e.announced = 2 := by omega
    have hc : c v.addr e.nb = 2 := by
      have := (R.mem hvm e.nb e.announced).1 he
      omega
    obtain ⟨w, hw, hwa⟩ := (R.has e.nb).2 ⟨v.addr, by rw [R.sym]; omega⟩
    have hwi := mem_index R.toRep0 hw
    have hder : deref g e.nb = .ok w := by
      unfold deref; rw [← hwa, findVertex_of R.toRep0 hw]
    have hjl : w.index < st.dist.length := by rw [I.l1]; exact getElem?_lt hwi
    obtain ⟨dn, hdn⟩ : ∃ dn, st.dist[w.index]? = some dn := ⟨_, List.getElem?_eq_getElem hjl⟩
    have hdi' : di + 1 < 2 ^ 31 := by omega
    by_cases hlt : di + 1 < dn
    · have hju : st.used[w.index]? = some false := by
        have : w.index < st.used.length := by rw [I.l3, ← I.l1]; exact hjl
        cases hb : st.used[w.index]? with
        | none => rw [List.getElem?_eq_none_iff] at hb; omega
        | some b =>
          cases b with
          | false => rfl
          | true => have := htop _ _ hb hdn; omega
      have hji : w.index ≠ i := by rintro h; rw [h, hu] at hju; cases hju
      have hjn : w.index < st.nhops.length := by rw [I.l2, ← I.l1]; exact hjl
      have hfi := I.fin i v di hv hdi (by omega)
      have hsrc : w.addr ≠ src := by
        intro h
        have := I.src0 _ w hwi h
        rw [this] at hdn; cases hdn; omega
      obtain ⟨h, hnh, hch, hwalk⟩ : ∃ h, viaHop src i v w st = Outcome.ok (some h) ∧ c src h = 2 ∧
          Walk (fun a b => c a b = 2) di h w.addr := by
        unfold viaHop
        by_cases hvs : v.addr = src
        · rw [if_pos hvs]
          refine ⟨w.addr, rfl, by rw [← hvs, hwa]; exact hc, ?_⟩
          have : di = 0 := by
            have := I.src0 i v hv hvs
            rw [this] at hdi; cases hdi; rfl
          rw [this]; exact .nil _
        · rw [if_neg hvs]
          obtain ⟨h, m, h1, h2, h3, h4⟩ := hfi.2.2.2 hvs
          refine ⟨h, rd_eq h1, h2, ?_⟩
          rw [h3]
          exact walk_snoc h4 (by rw [hwa]; exact hc)
      rw [relax_near h2 hdi hder hdn hdi' hlt hnh hjn]
      refine ⟨_, rfl, ?_, ?_, rfl, ?_⟩
      · constructor
        · simp [I.l1]
        · simp [I.l2]
        · exact I.l3
        · intro k u hk hus
          rw [List.getElem?_set_ne (by rintro rfl; rw [hwi] at hk; cases hk; exact hsrc hus)]
          exact I.src0 k u hk hus
        · intro k u x hk hx hne
          by_cases hkj : k = w.index
          · subst hkj
            rw [hwi] at hk; cases hk
            rw [List.getElem?_set_self hjl] at hx
            cases hx
            refine ⟨hcnt, walk_snoc hfi.2.1 (by rw [hwa]; exact hc), fun hh => absurd hh hsrc, fun _ => ?_⟩
            exact ⟨h, di, List.getElem?_set_self hjn, hch, rfl, hwalk⟩
          · rw [List.getElem?_set_ne (Ne.symm hkj)] at hx
            simp only [List.getElem?_set_ne (Ne.symm hkj)]
            exact I.fin k u x hk hx hne
        · intro k hk
          by_cases hkj : k = w.index
          · subst hkj
            rw [List.getElem?_set_self hjl] at hk
            have := Option.some.inj hk
            omega
          · simp only [List.getElem?_set_ne (Ne.symm hkj)] at hk ⊢
            exact I.inf k hk
        · intro k hk
          have hkj : k ≠ w.index := by
            rintro rfl
            dsimp only at hk
            rw [hju] at hk; cases hk
          simp only [List.getElem?_set_ne (Ne.symm hkj)]
          exact I.usedFin k hk
        · intro k j x y hk hj hx hy
          dsimp only at hk hj
          have hkj : k ≠ w.index := by rintro rfl; rw [hju] at hk; cases hk
          simp only [List.getElem?_set_ne (Ne.symm hkj)] at hx
          have h1 := htop k x hk hx
          by_cases hjj : j = w.index
          · subst hjj
            rw [List.getElem?_set_self hjl] at hy; cases hy; omega
          · simp only [List.getElem?_set_ne (Ne.symm hjj)] at hy
            exact I.mono k j x y hk hj hx hy
        · intro k j u t x y hk hku hjt hct hex hx hy
          dsimp only at hk
          have hkj : k ≠ w.index := by rintro rfl; rw [hju] at hk; cases hk
          simp only [List.getElem?_set_ne (Ne.symm hkj)] at hx
          by_cases hjj : j = w.index
          · subst hjj
            rw [hwi] at hjt; cases hjt
            rw [List.getElem?_set_self hjl] at hy; cases hy
            by_cases hki : k = i
            · subst hki
              rw [hdi] at hx; cases hx; omega
            · have := I.relaxed k _ u w x dn hk hku hwi hct (fun hh => hki hh.1) hx hdn
              omega
          · simp only [List.getElem?_set_ne (Ne.symm hjj)] at hy
            refine I.relaxed k j u t x y hk hku hjt hct ?_ hx hy
            rintro ⟨rfl, e', he', hb⟩
            rcases List.mem_cons.1 he' with rfl | he'
            · have hta : t.addr = w.addr := by rw [hwa]; exact hb.1.symm
              have : t = w := R.uniq (List.mem_of_getElem? hjt) hw hta
              rw [this] at hjt
              exact hjj ((R.idx j w hjt).symm)
            · exact hex ⟨rfl, e', he', hb⟩
      · dsimp only
        rw [List.getElem?_set_ne hji]; exact hdi
      · intro u x hu' hx
        dsimp only at hu' hx
        have : u ≠ w.index := by rintro rfl; rw [hju] at hu'; cases hu'
        rw [List.getElem?_set_ne (Ne.symm this)] at hx
        exact htop u x hu' hx
    · have hlt : dn ≤ di + 1 := by omega
      rw [relax_far h2 hdi hder hdn hdi' hlt]
      refine ⟨st, rfl, ?_, hdi, rfl, htop⟩
      refine { I with relaxed := ?_ }
      intro k j u t x y hk hku hjt hct hex hx hy
      by_cases hq : k = i ∧ t.addr = e.nb
      · obtain ⟨rfl, hq⟩ := hq
        have : t = w := R.uniq (List.mem_of_getElem? hjt) hw (by omega)
        subst this
        have hj : j = t.index := (R.idx j t hjt).symm
        subst hj
        rw [hdn] at hy; cases hy
        rw [hdi] at hx; cases hx
        exact hlt
      · refine I.relaxed k j u t x y hk hku hjt hct ?_ hx hy
        rintro ⟨rfl, e', he', hb⟩
        rcases List.mem_cons.1 he' with rfl | he'
        · exact hq ⟨rfl, hb.1.symm⟩
        · exact hex ⟨rfl, e', he', hb⟩

theorem relaxAll_spec {g c src} (R : Rep g c) (hn : g.verts.length + 2 < INT_MAX) {i di : Nat} {v : Vertex} (hv : g.verts[i]? = some v) :
    ∀ (rem : List Edge) (st : DState), (∀ e ∈ rem, e ∈ v.edges) → DInv g c src st (todo i rem) →
    st.dist[i]? = some di → st.used[i]? = some true → di + 1 ≤ st.used.count true →
    (∀ u x : Nat, st.used[u]? = some true → st.dist[u]? = some x → x ≤ di) →
    ∃ st', relaxAll g src i v st rem = .ok st' ∧ DInv g c src st' (fun _ _ => False) ∧ st'.used = st.used
  | [], st, _, I, _, _, _, _ => ⟨st, rfl, I.weaken (by rintro i' b ⟨_, e, he, _⟩; cases he), rfl⟩
  | e :: rem, st, hsub, I, h1, h2, h3, h4 => by
    obtain ⟨st1, e1, I1, g1, g2, g3⟩ := relax_spec R hn hv (hsub e (List.mem_cons_self ..)) I h1 h2 h3 h4
    obtain ⟨st2, e2, I2, k2⟩ := relaxAll_spec R hn hv rem st1 (fun e he => hsub e (List.mem_cons_of_mem _ he)) I1 g1 (by rw [g2]; exact h2)
      (by rw [g2]; exact h3) g3
    refine ⟨st2, ?_, I2, by rw [k2, g2]⟩
    rw [relaxAll, e1, Outcome.bind_ok, e2]

theorem count_set_true : ∀ (l : List Bool) (i : Nat), l[i]? = some false → (l.set i true).count true = l.count true + 1
  | [], _, h => by simp at h
  | b :: l, 0, h => by simp at h; subst h; simp
  | b :: l, i + 1, h => by
    simp only [List.getElem?_cons_succ] at h
    rw [List.set_cons_succ, List.count_cons, List.count_cons, count_set_true l i h]
    omega

theorem loop_spec {g c src} (R : Rep g c) (hn : g.verts.length + 2 < INT_MAX) : ∀ (fuel : Nat) (st : DState),
    DInv g c src st (fun _ _ => False) → g.verts.length + 1 ≤ fuel + st.used.count true →
    ∃ st', dijkstraLoop g src fuel st = .ok st' ∧ DInv g c src st' (fun _ _ => False) ∧
      ∀ j x : Nat, st'.dist[j]? = some x → st'.used[j]? = some false → INT_MAX ≤ x
  | 0, st, I, h => by have := count_le_n I; omega
  | fuel + 1, st, I, h => by
    obtain ⟨r, hr, hs⟩ := minLoop_spec st.dist st.used g.verts 0 INT_MAX none (by rw [I.l1]; omega) (by rw [I.l3]; omega)
    unfold dijkstraLoop
    rw [hr]
    simp only [Outcome.bind_ok]
    rcases hs with ⟨rfl, hs⟩ | ⟨k, v, x, rfl, hk, hku, hkd, hlt, hs⟩
    · refine ⟨st, rfl, I, ?_⟩
      intro j y hy hyu
      have := hs j y (by rw [← I.l1]; exact getElem?_lt hy) (by rw [Nat.zero_add]; exact hy) (by rw [Nat.zero_add]; exact hyu)
      exact this
    · simp only [Nat.zero_add] at hku hkd hs ⊢
      have hkl : k < st.used.length := getElem?_lt hku
      rw [wr_eq hkl, Outcome.bind_ok]
      have hcs := count_set_true st.used k hku
      have hfk := I.fin k v x hk hkd (by omega)
      have hused : ∀ u : Nat, (st.used.set k true)[u]? = some true → u = k ∨ st.used[u]? = some true := by
        intro u hu
        by_cases huk : u = k
        · exact Or.inl huk
        · rw [List.getElem?_set_ne (Ne.symm huk)] at hu; exact Or.inr hu
      have hunused : ∀ u : Nat, (st.used.set k true)[u]? = some false → u ≠ k ∧ st.used[u]? = some false := by
        intro u hu
        by_cases huk : u = k
        · subst huk; rw [List.getElem?_set_self hkl] at hu; cases hu
        · rw [List.getElem?_set_ne (Ne.symm huk)] at hu; exact ⟨huk, hu⟩
      have htop : ∀ u y : Nat, (st.used.set k true)[u]? = some true → st.dist[u]? = some y → y ≤ x := by
        intro u y hu hy
        rcases hused u hu with rfl | hu
        · rw [hkd] at hy; cases hy; exact Nat.le_refl _
        · exact I.mono u k y x hu hku hy hkd
      have I1 : DInv g c src { st with used := st.used.set k true } (todo k v.edges) := by
        constructor
        · exact I.l1
        · exact I.l2
        · simp [I.l3]
        · exact I.src0
        · intro i u y hi hy hne
          have := I.fin i u y hi hy hne
          refine ⟨?_, this.2⟩
          dsimp only
          rw [hcs]; omega
        · exact I.inf
        · intro u hu
          rcases hused u hu with rfl | hu
          · dsimp only; rw [hkd]; intro hh; have := Option.some.inj hh; omega
          · exact I.usedFin u hu
        · intro i j y z hi hj hy hz
          have h1 := htop i y hi hy
          have h2 := hunused j hj
          have h3 := hs j z (by rw [← I.l1]; exact getElem?_lt hz) hz h2.2
          omega
        · intro i j u w y z hi hiu hjw hc hex hy hz
          rcases hused i hi with rfl | hi
          · rw [hk] at hiu; cases hiu
            exfalso
            apply hex
            refine ⟨rfl, ⟨w.addr, 2⟩, ?_, rfl, rfl⟩
            exact (R.mem (List.mem_of_getElem? hk) _ _).2 ⟨hc.symm, by omega⟩
          · exact I.relaxed i j u w y z hi hiu hjw hc (fun hh => hh) hy hz
      obtain ⟨st2, e2, I2, k2⟩ := relaxAll_spec R hn hk v.edges _ (fun _ h => h) I1 (di := x) hkd (List.getElem?_set_self hkl)
        (by dsimp only; rw [hcs]; omega) htop
      rw [e2, Outcome.bind_ok]
      exact loop_spec R hn fuel st2 I2 (by rw [k2]; dsimp only; rw [hcs]; omega)

theorem walk_has {g c} (R : Rep g c) {n a b : Nat} (h : Walk (fun a b => c a b = 2) n a b) (ha : HasV g a) : HasV g b := by
  induction h with
  | nil a => exact ha
  | cons hl _ ih => exact ih ((R.has _).2 ⟨_, by rw [R.sym]; exact lt_of_lt_of_eq (by decide) hl.symm⟩)

/-- What `dijkstra` computes. -/
theorem dijkstra_spec {g c} (R : Rep g c) (hn : g.verts.length + 2 < INT_MAX) (src : Nat) :
    ∃ st, dijkstra g src = .ok st ∧ st.dist.length = g.verts.length ∧ st.nhops.length = g.verts.length ∧
      ∀ (i : Nat) (v : Vertex), g.verts[i]? = some v →
        (∃ x, st.dist[i]? = some x ∧ x ≤ g.verts.length ∧ Dist (fun a b => c a b = 2) src v.addr x ∧
          ((v.addr = src ∧ st.nhops[i]? = some none) ∨
           (v.addr ≠ src ∧ ∃ h m, st.nhops[i]? = some (some h) ∧ c src h = 2 ∧ x = m + 1 ∧ Dist (fun a b => c a b = 2) h v.addr m))) ∨
        (st.dist[i]? = some INT_MAX ∧ st.nhops[i]? = some none ∧ (∀ m, ¬ Walk (fun a b => c a b = 2) m src v.addr)) := by
  unfold dijkstra
  rw [if_neg (by rw [R.nr]; omega), R.nr, Nat.sub_self, List.replicate_zero, List.append_nil]
  have I0 : DInv g c src (DState.mk (g.verts.map (fun v => if v.addr = src then 0 else INT_MAX))
      (List.replicate g.verts.length none) (List.replicate g.verts.length false)) (fun _ _ => False) := by
    have hu : ∀ i : Nat, (List.replicate g.verts.length false)[i]? ≠ some true := by
      intro i h
      rw [List.getElem?_replicate] at h
      split at h
      · cases h
      · cases h
    constructor
    · simp
    · simp
    · simp
    · intro i v hi hs
      simp [hi, hs]
    · intro i v x hi hx hne
      simp only [List.getElem?_map, hi, Option.map_some] at hx
      have hil := getElem?_lt hi
      split at hx
      · rename_i hs
        cases hx
        refine ⟨by omega, by rw [hs]; exact .nil _, fun _ => by simp [hil], fun hh => absurd hs hh⟩
      · cases hx; exact absurd rfl hne
    · intro i hi
      have hil := getElem?_lt hi
      simp only [List.length_map] at hil
      simp [hil]
    · intro i hi; exact absurd hi (hu i)
    · intro i j x y hi; exact absurd hi (hu i)
    · intro i j v w x y hi; exact absurd hi (hu i)
  obtain ⟨st, e, I, hend⟩ := loop_spec R hn (g.verts.length + 1) _ I0 (by omega)
  refine ⟨st, e, I.l1, I.l2, ?_⟩
  have hcn := count_le_n I
  have getd : ∀ i : Nat, i < g.verts.length → ∃ x, st.dist[i]? = some x := fun i hi =>
    ⟨_, List.getElem?_eq_getElem (by rw [I.l1]; exact hi)⟩
  -- every walk bounds the distance found
  have lower : ∀ m (b : Vertex) (j x : Nat), g.verts[j]? = some b → st.dist[j]? = some x → HasV g src →
      Walk (fun a b => c a b = 2) m src b.addr → x ≤ m ∧ x ≠ INT_MAX := by
    intro m
    induction m with
    | zero =>
      intro b j x hj hx _ hw
      have : src = b.addr := by cases hw; rfl
      have := I.src0 j b hj this.symm
      rw [this] at hx; cases hx
      exact ⟨Nat.le_refl _, by decide⟩
    | succ m ih =>
      intro b j x hj hx hsrc hw
      obtain ⟨a, hwa, hl⟩ := walk_last hw
      obtain ⟨w, hwm, rfl⟩ := walk_has R hwa hsrc
      have hwi := mem_index R.toRep0 hwm
      obtain ⟨y, hy⟩ := getd _ (getElem?_lt hwi)
      obtain ⟨h1, h2⟩ := ih w w.index y hwi hy hsrc hwa
      have hfy := (I.fin _ w y hwi hy h2).1
      have hused : st.used[w.index]? = some true := by
        have hlt : w.index < st.used.length := by rw [I.l3]; exact getElem?_lt hwi
        cases hb : st.used[w.index]? with
        | none => rw [List.getElem?_eq_none_iff] at hb; omega
        | some b =>
          cases b with
          | true => rfl
          | false => have := hend _ y hy hb; omega
      have := I.relaxed w.index j w b y x hused hwi hj hl (fun h => h) hy hx
      refine ⟨by omega, ?_⟩
      intro hx; rw [hx] at this; omega
  intro i v hi
  obtain ⟨x, hx⟩ := getd i (getElem?_lt hi)
  by_cases hne : x = INT_MAX
  · subst hne
    right
    refine ⟨hx, I.inf i hx, ?_⟩
    intro m hw
    by_cases hsrc : HasV g src
    · exact (lower m v i _ hi hx hsrc hw).2 rfl
    · -- a walk from a node without links stays there
      cases hw with
      | nil => exact hsrc ⟨v, List.mem_of_getElem? hi, rfl⟩
      | cons hl _ => exact hsrc ((R.has src).2 ⟨_, lt_of_lt_of_eq (by decide) hl.symm⟩)
  · left
    obtain ⟨h1, h2, h3, h4⟩ := I.fin i v x hi hx hne
    have hmin : ∀ m, Walk (fun a b => c a b = 2) m src v.addr → x ≤ m := by
      intro m hw
      by_cases hsrc : HasV g src
      · exact (lower m v i x hi hx hsrc hw).1
      · cases hw with
        | nil => exact absurd ⟨v, List.mem_of_getElem? hi, rfl⟩ hsrc
        | cons hl _ => exact absurd ((R.has src).2 ⟨_, lt_of_lt_of_eq (by decide) hl.symm⟩) hsrc
    refine ⟨x, hx, by omega, ⟨h2, hmin⟩, ?_⟩
    by_cases hvs : v.addr = src
    · exact Or.inl ⟨hvs, h3 hvs⟩
    · obtain ⟨h, m, k1, k2, k3, k4⟩ := h4 hvs
      refine Or.inr ⟨hvs, h, m, k1, k2, k3, k4, ?_⟩
      intro m' hm'
      have := hmin (m' + 1) (.cons k2 hm')
      omega

end Ouro.Graph
