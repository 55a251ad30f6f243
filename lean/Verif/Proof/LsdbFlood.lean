import Verif.Proof.Lsdb

namespace Ouro.Lsdb

open Ouro.Graph (bind_ok')

/-- The database holds this announcement or a newer one. -/
def Knows (ls : Ls) (m : Lsa) : Prop := ∃ a ∈ ls.db, a.src = m.src ∧ a.dst = m.dst ∧ m.seqno ≤ a.seqno

theorem mem_mid {α : Type} {x y : α} {pre post : List α} : y ∈ pre ++ x :: post ↔ y = x ∨ y ∈ pre ++ post := by
  simp only [List.mem_append, List.mem_cons]; tauto

theorem link_ret {ls : Ls} (I : Inv ls) {s d n now r} (h : LinkRes ls s d n now r) : r.2 = 0 ↔ ¬ Knows ls ⟨d, s, n⟩ := by
  cases h with
  | newer pre a post e h1 h2 h3 =>
    refine ⟨fun _ => ?_, fun _ => rfl⟩
    rintro ⟨b, hb, hb1, hb2, hb3⟩
    dsimp only at hb1 hb2 hb3
    have := sorted_uniq I.sorted (a := a) (b := b) (by rw [e]; simp) hb ⟨by omega, by omega⟩
    subst this; omega
  | older a ha h1 h2 h3 =>
    refine ⟨fun h => (by cases h), fun h => absurd ⟨a, ha, h1, h2, h3⟩ h⟩
  | fresh pre post e h =>
    refine ⟨fun _ => ?_, fun _ => rfl⟩
    rintro ⟨b, hb, hb1, hb2, _⟩
    exact h b hb ⟨hb1, hb2⟩

theorem link_knows {ls : Ls} {s d n now r} (h : LinkRes ls s d n now r) : Knows r.1 ⟨d, s, n⟩ := by
  cases h with
  | newer pre a post e h1 h2 h3 => exact ⟨_, mem_mid.2 (Or.inl rfl), rfl, rfl, Nat.le_refl _⟩
  | older a ha h1 h2 h3 => exact ⟨a, ha, h1, h2, h3⟩
  | fresh pre post e h => exact ⟨_, mem_mid.2 (Or.inl rfl), rfl, rfl, Nat.le_refl _⟩

theorem link_mono {ls : Ls} {s d n now r} (h : LinkRes ls s d n now r) {m : Lsa} (hm : Knows ls m) : Knows r.1 m := by
  obtain ⟨b, hb, hb1, hb2, hb3⟩ := hm
  cases h with
  | newer pre a post e h1 h2 h3 =>
    rw [e, mem_mid] at hb
    rcases hb with rfl | hb
    · exact ⟨_, mem_mid.2 (Or.inl rfl), by rw [← hb1, ← h1], by rw [← hb2, ← h2], by dsimp only; omega⟩
    · exact ⟨b, mem_mid.2 (Or.inr hb), hb1, hb2, hb3⟩
  | older a ha h1 h2 h3 => exact ⟨b, hb, hb1, hb2, hb3⟩
  | fresh pre post e h =>
    rw [e] at hb
    exact ⟨b, mem_mid.2 (Or.inr hb), hb1, hb2, hb3⟩

/-- Entries after `addLink`: the new one, or old ones about other links. -/
theorem link_mem {ls : Ls} (I : Inv ls) {s d n now r} (h : LinkRes ls s d n now r) {a : Adj} (ha : a ∈ r.1.db) :
    (a.src = s ∧ a.dst = d ∧ ((∃ b ∈ ls.db, b.src = s ∧ b.dst = d ∧ a.seqno = max b.seqno n) ∨
      ((∀ b ∈ ls.db, ¬ (b.src = s ∧ b.dst = d)) ∧ a.seqno = n))) ∨ (¬ (a.src = s ∧ a.dst = d) ∧ a ∈ ls.db) := by
  cases h with
  | newer pre b post e h1 h2 h3 =>
    dsimp only at ha
    have hb : b ∈ ls.db := by rw [e]; simp
    rw [mem_mid] at ha
    rcases ha with rfl | ha
    · exact Or.inl ⟨rfl, rfl, Or.inl ⟨b, hb, h1, h2, by dsimp only; omega⟩⟩
    · right
      have ha' : a ∈ ls.db := by rw [e, mem_mid]; exact Or.inr ha
      refine ⟨?_, ha'⟩
      rintro ⟨k1, k2⟩
      have hs := I.sorted
      rw [e] at hs
      unfold SortedDb at hs
      rw [List.pairwise_append, List.pairwise_cons] at hs
      rw [List.mem_append] at ha
      rcases ha with ha | ha
      · have := hs.2.2 a ha b (List.mem_cons_self ..)
        unfold lt at this; omega
      · have := hs.2.1.1 a ha
        unfold lt at this; omega
  | older b hb h1 h2 h3 =>
    dsimp only at ha
    by_cases hk : a.src = s ∧ a.dst = d
    · have := sorted_uniq I.sorted ha hb ⟨by omega, by omega⟩
      subst this
      exact Or.inl ⟨hk.1, hk.2, Or.inl ⟨a, hb, h1, h2, by omega⟩⟩
    · exact Or.inr ⟨hk, ha⟩
  | fresh pre post e h =>
    dsimp only at ha
    rw [mem_mid] at ha
    rcases ha with rfl | ha
    · exact Or.inl ⟨rfl, rfl, Or.inr ⟨h, rfl⟩⟩
    · rw [← e] at ha
      exact Or.inr ⟨h a ha, ha⟩

/-- The sequence number heard about a link, if the operation is such an announcement. -/
def Op.heard (s d : Nat) : Op → Option Nat
  | .recv _ m _ => if m.src = s ∧ m.dst = d then some m.seqno else none
  | _ => none

theorem step_entry {ls ls' : Ls} (I : Inv ls) {o : Op} (ho : o.ok ls.self) (e : step ls o = .ok ls') {a : Adj} (ha : a ∈ ls'.db)
    (hs : a.src ≠ ls.self) :
    (∃ b ∈ ls.db, b.src = a.src ∧ b.dst = a.dst ∧ a.seqno = (match o.heard a.src a.dst with | none => b.seqno | some n => max b.seqno n)) ∨
    ((∀ b ∈ ls.db, ¬ (b.src = a.src ∧ b.dst = a.dst)) ∧ o.heard a.src a.dst = some a.seqno) := by
  cases o with
  | recv fd m now =>
    have e := Outcome.ok.inj e
    subst e
    obtain ⟨_, h1, _⟩ := recv_spec I fd m now ho
    rw [h1] at ha
    rcases link_mem I (addLink_spec I m.seqno now ho).1 ha with ⟨k1, k2, h⟩ | ⟨hk, ha⟩
    · have : (Op.recv fd m now).heard a.src a.dst = some m.seqno := by simp [Op.heard, k1, k2]
      rw [this]
      rcases h with ⟨b, hb, h1, h2, h3⟩ | ⟨h1, h2⟩
      · exact Or.inl ⟨b, hb, by omega, by omega, h3⟩
      · refine Or.inr ⟨fun b hb hh => h1 b hb ⟨by omega, by omega⟩, by rw [h2]⟩
    · have : (Op.recv fd m now).heard a.src a.dst = none := by
        simp only [Op.heard]
        rw [if_neg (fun hh => hk ⟨hh.1.symm, hh.2.symm⟩)]
      rw [this]
      exact Or.inl ⟨a, ha, rfl, rfl, rfl⟩
  | dtAdd addr fd now =>
    have e := Outcome.ok.inj e
    subst e
    obtain ⟨_, h1, _⟩ := dtAdd_spec I addr fd now ho
    rw [h1] at ha
    rcases link_mem I (addLink_spec I 0 now (Ne.symm ho)).1 ha with ⟨k1, _⟩ | ⟨_, ha⟩
    · exact absurd k1 hs
    · exact Or.inl ⟨a, ha, rfl, rfl, rfl⟩
  | dtDel addr fd =>
    obtain ⟨I1, e1, e2, _⟩ := delNb_spec I addr fd
    obtain ⟨r, e', I2, _, _, e3, h⟩ := delLink_spec I1 (delNb ls addr fd).1.self addr
    unfold step dtDel at e
    simp only [e', bind_ok', Outcome.pure_eq] at e
    have e := Outcome.ok.inj e
    subst e
    rw [e1] at h
    refine Or.inl ⟨a, ?_, rfl, rfl, rfl⟩
    rcases h with ⟨_, pre, b, post, h1, _, _, h2⟩ | ⟨_, h1, _⟩
    · rw [h2] at ha
      rw [h1, mem_mid]; exact Or.inr ha
    · rw [h1, e1] at ha; exact ha
  | mgmtAdd addr fd =>
    have e := Outcome.ok.inj e
    subst e
    exact Or.inl ⟨a, ha, rfl, rfl, rfl⟩
  | mgmtDel addr fd =>
    have e := Outcome.ok.inj e
    subst e
    obtain ⟨_, e1, _⟩ := delNb_spec I addr fd
    refine Or.inl ⟨a, ?_, rfl, rfl, rfl⟩
    rw [← e1]; exact ha
  | tick now =>
    obtain ⟨ls1, e1, _, h1, _⟩ := tick_spec I now
    change tick ls now = _ at e
    rw [e1] at e
    have e := Outcome.ok.inj e
    subst e
    rw [h1] at ha
    obtain ⟨b, hb, hab⟩ := List.mem_filterMap.1 ha
    have hsame := aged_same hab
    unfold aged at hab
    split at hab
    · cases hab
    · rw [if_neg (by rw [hsame.2]; exact hs)] at hab
      cases hab
      exact Or.inl ⟨a, hb, rfl, rfl, rfl⟩

/-- While an entry stays in the database its sequence number does not go down. -/
theorem step_knows {ls ls' : Ls} (I : Inv ls) {o : Op} (ho : o.ok ls.self) (e : step ls o = .ok ls') {m : Lsa} (hm : m.src ≠ ls.self)
    (hk : Knows ls m) (hstay : ∃ a ∈ ls'.db, a.src = m.src ∧ a.dst = m.dst) : Knows ls' m := by
  obtain ⟨a, ha, h1, h2⟩ := hstay
  obtain ⟨b, hb, k1, k2, k3⟩ := hk
  refine ⟨a, ha, h1, h2, ?_⟩
  rcases step_entry I ho e ha (by rw [h1]; exact hm) with ⟨c, hc, c1, c2, c3⟩ | ⟨hno, _⟩
  · have : c = b := sorted_uniq I.sorted hc hb ⟨by omega, by omega⟩
    subst this
    rw [c3]
    split
    · exact k3
    · exact Nat.le_trans k3 (Nat.le_max_left ..)
  · exact absurd ⟨by omega, by omega⟩ (hno b hb)

theorem run_knows : ∀ (os : List Op) (ls ls' : Ls), Inv ls → (∀ o ∈ os, o.ok ls.self) → run ls os = .ok ls' → ∀ m : Lsa, m.src ≠ ls.self →
    Knows ls m → (∀ k ≤ os.length, ∀ ls1, run ls (os.take k) = .ok ls1 → ∃ a ∈ ls1.db, a.src = m.src ∧ a.dst = m.dst) → Knows ls' m
  | [], ls, ls', _, _, e, m, _, hk, _ => by
    have e := Outcome.ok.inj e
    subst e; exact hk
  | o :: os, ls, ls', I, ho, e, m, hm, hk, hst => by
    obtain ⟨ls1, e1, I1, s1⟩ := step_spec I o (ho o (List.mem_cons_self ..))
    rw [run, e1, bind_ok'] at e
    refine run_knows os ls1 ls' I1 (fun o' h' => by rw [s1]; exact ho o' (List.mem_cons_of_mem _ h')) e m (by rw [s1]; exact hm) ?_ ?_
    · refine step_knows I (ho o (List.mem_cons_self ..)) e1 hm hk ?_
      refine hst 1 (by simp) ls1 ?_
      rw [List.take_succ_cons, List.take_zero, run, e1, bind_ok']; rfl
    · intro k hkl ls2 e2
      refine hst (k + 1) (by simpa using hkl) ls2 ?_
      rw [List.take_succ_cons, run, e1, bind_ok', e2]

/-! ### Networks -/

/-- A network of routing components: their states, and the announcements on their way (to which node, arriving on which of its flows). -/
structure Net where
  node : Nat → Ls
  wire : List (Nat × Int × Lsa)

/-- What `node u` wrote in a step, put on the wire. `peer u f` is the other end of the management flow `f` of `u`. -/
def put (peer : Nat → Int → Nat × Int) (u : Nat) (old new : Ls) : List (Nat × Int × Lsa) :=
  (new.sent.drop old.sent.length).map (fun x => ((peer u x.1).1, (peer u x.1).2, x.2))

def update (f : Nat → Ls) (u : Nat) (x : Ls) (v : Nat) : Ls := if v = u then x else f v

/-- The announcement at position `i` of the wire arrives. -/
inductive Deliver (peer : Nat → Int → Nat × Int) : Net → Net → Prop where
  | mk (n : Net) (w1 w2 : List (Nat × Int × Lsa)) (u : Nat) (fd : Int) (m : Lsa) (now : Int) : n.wire = w1 ++ (u, fd, m) :: w2 →
      Deliver peer n { node := update n.node u (recv (n.node u) fd m now),
                       wire := w1 ++ w2 ++ put peer u (n.node u) (recv (n.node u) fd m now) }

/-- A sequence of deliveries. -/
inductive Deliveries (peer : Nat → Int → Nat × Int) : Nat → Net → Net → Prop where
  | none (n : Net) : Deliveries peer 0 n n
  | more {k : Nat} {n n1 n2 : Net} : Deliver peer n n1 → Deliveries peer k n1 n2 → Deliveries peer (k + 1) n n2

theorem put_recv (peer : Nat → Int → Nat × Int) (u : Nat) {ls : Ls} (I : Inv ls) (fd : Int) (m : Lsa) (now : Int) (h : m.src ≠ m.dst) :
    put peer u ls (recv ls fd m now) = (if (addLink ls m.src m.dst m.seqno now).2 = 0 then forward ls.nbs m fd else []).map
      (fun x => ((peer u x.1).1, (peer u x.1).2, x.2)) := by
  unfold put
  rw [(recv_spec I fd m now h).2.2.2.2, List.drop_left]

theorem countP_lt {α : Type} {p q : α → Bool} : ∀ {l : List α}, (∀ x ∈ l, q x = true → p x = true) → (∃ x ∈ l, p x = true ∧ q x = false) →
    l.countP q < l.countP p
  | [], _, ⟨x, hx, _⟩ => by cases hx
  | a :: l, h, ⟨x, hx, hp, hq⟩ => by
    rw [List.countP_cons, List.countP_cons]
    have hle : l.countP q ≤ l.countP p := List.countP_mono_left (fun x hx => h x (List.mem_cons_of_mem _ hx))
    rcases List.mem_cons.1 hx with rfl | hx
    · rw [hp, hq]; simp; omega
    · have := countP_lt (l := l) (fun x hx => h x (List.mem_cons_of_mem _ hx)) ⟨x, hx, hp, hq⟩
      have ha := h a (List.mem_cons_self ..)
      by_cases hqa : q a = true
      · rw [hqa, ha hqa]; simp; omega
      · simp only [hqa]; simp; omega

/-- The invariant of a flood. -/
structure Flood (N D : Nat) (M : List Lsa) (n : Net) : Prop where
  inv : ∀ u, Inv (n.node u)
  deg : ∀ u, (n.node u).nbs.length ≤ D
  wire : ∀ x ∈ n.wire, x.1 < N ∧ x.2.2 ∈ M
  noself : ∀ m ∈ M, m.src ≠ m.dst

open Classical in
/-- The pairs of a node and an announcement new to it. -/
noncomputable def unknown (N : Nat) (M : List Lsa) (node : Nat → Ls) : Nat :=
  ((List.range N).flatMap (fun u => M.map (fun m => (u, m)))).countP (fun x => ¬ Knows (node x.1) x.2)

theorem unknown_le (N : Nat) (M : List Lsa) (n : Nat → Ls) : unknown N M n ≤ N * M.length := by
  unfold unknown
  refine Nat.le_trans List.countP_le_length ?_
  rw [List.length_flatMap]
  simp

theorem deliver_flood {peer : Nat → Int → Nat × Int} {N D : Nat} {M : List Lsa} (hp : ∀ u f, (peer u f).1 < N) {n n' : Net}
    (F : Flood N D M n) (h : Deliver peer n n') :
    Flood N D M n' ∧ D * unknown N M n'.node + n'.wire.length < D * unknown N M n.node + n.wire.length := by
  classical
  cases h with
  | mk w1 w2 u fd m now e =>
    have hx := F.wire (u, fd, m) (by rw [e]; simp)
    have hm := F.noself m hx.2
    obtain ⟨hI, hdb, hnb, hself, hsent⟩ := recv_spec (F.inv u) fd m now hm
    have hL := (addLink_spec (F.inv u) m.seqno now hm).1
    have hput := put_recv peer u (F.inv u) fd m now hm
    have hfl : (forward (n.node u).nbs m fd).length ≤ D := by
      unfold forward
      rw [List.length_map]
      exact Nat.le_trans (List.length_filter_le ..) (F.deg u)
    refine ⟨⟨?_, ?_, ?_, F.noself⟩, ?_⟩
    · intro v
      simp only [update]
      split
      · exact hI
      · exact F.inv v
    · intro v
      simp only [update]
      split
      · rw [hnb]; exact F.deg u
      · exact F.deg v
    · intro x hxm
      dsimp only at hxm
      rw [hput] at hxm
      rcases List.mem_append.1 hxm with hxm | hxm
      · exact F.wire x (by rw [e, mem_mid]; exact Or.inr hxm)
      · rw [List.mem_map] at hxm
        obtain ⟨y, hy, rfl⟩ := hxm
        refine ⟨hp _ _, ?_⟩
        split at hy
        · unfold forward at hy
          obtain ⟨nb, _, rfl⟩ := List.mem_map.1 hy
          exact hx.2
        · cases hy
    · have hmono : ∀ v m', Knows (n.node v) m' → Knows (update n.node u (recv (n.node u) fd m now) v) m' := by
        intro v m' hk
        simp only [update]
        split
        · rename_i hv
          subst hv
          have := link_mono hL hk
          unfold Knows at this ⊢
          rw [hdb]; exact this
        · exact hk
      have hwl : n.wire.length = w1.length + w2.length + 1 := by rw [e]; simp; omega
      dsimp only
      rw [hput]
      by_cases hr : (addLink (n.node u) m.src m.dst m.seqno now).2 = 0
      · have hunk : unknown N M (update n.node u (recv (n.node u) fd m now)) < unknown N M n.node := by
          unfold unknown
          apply countP_lt
          · intro x _ hq
            simp only [decide_eq_true_eq] at hq ⊢
            exact fun hk => hq (hmono _ _ hk)
          · refine ⟨(u, m), ?_, ?_, ?_⟩
            · rw [List.mem_flatMap]
              exact ⟨u, List.mem_range.2 hx.1, List.mem_map.2 ⟨m, hx.2, rfl⟩⟩
            · simp only [decide_eq_true_eq]
              exact (link_ret (F.inv u) hL).1 hr
            · simp only [decide_eq_false_iff_not, not_not]
              have := link_knows hL
              simp only [update, if_true]
              unfold Knows at this ⊢
              rw [hdb]; exact this
        have h1 : D * (unknown N M (update n.node u (recv (n.node u) fd m now)) + 1) ≤ D * unknown N M n.node := Nat.mul_le_mul_left _ hunk
        rw [Nat.mul_add, Nat.mul_one] at h1
        rw [if_pos hr]
        rw [List.length_append, List.length_append, List.length_map, hwl]
        omega
      · have hunk : unknown N M (update n.node u (recv (n.node u) fd m now)) ≤ unknown N M n.node := by
          unfold unknown
          apply List.countP_mono_left
          intro x _ hq
          simp only [decide_eq_true_eq] at hq ⊢
          exact fun hk => hq (hmono _ _ hk)
        have h1 := Nat.mul_le_mul_left D hunk
        rw [if_neg hr]
        rw [List.length_append, List.length_append, List.map_nil, List.length_nil, hwl]
        omega

theorem deliveries_bound {peer : Nat → Int → Nat × Int} {N D : Nat} {M : List Lsa} (hp : ∀ u f, (peer u f).1 < N) {k : Nat} {n n' : Net}
    (h : Deliveries peer k n n') (F : Flood N D M n) : k + n'.wire.length ≤ D * unknown N M n.node + n.wire.length := by
  induction h with
  | none n => omega
  | more hd _ ih =>
    obtain ⟨F1, h1⟩ := deliver_flood hp F hd
    have := ih F1
    omega

end Ouro.Lsdb
