import Verif.Model.Lsdb
import Verif.Spec.Lsdb
import Verif.Proof.GraphHistory

namespace Ouro.Lsdb

open Ouro.Graph (Graph Rep updateEdge delEdge updateEdge_rep delEdge_rep rep_create bind_ok')

/-- The order of the database. -/
def lt (a b : Adj) : Prop := a.dst < b.dst ∨ (a.dst = b.dst ∧ a.src < b.src)

def SortedDb (db : List Adj) : Prop := db.Pairwise lt

/-- `a` and `x` are about the same link. -/
def same (a x : Adj) : Prop := a.dst = x.dst ∧ a.src = x.src

theorem pairwise_replace {pre post : List Adj} {a b : Adj} (h : SortedDb (pre ++ a :: post)) (hs : same a b) :
    SortedDb (pre ++ b :: post) := by
  unfold SortedDb at *
  rw [List.pairwise_append, List.pairwise_cons] at *
  obtain ⟨h1, ⟨h2, h3⟩, h4⟩ := h
  obtain ⟨e1, e2⟩ := hs
  refine ⟨h1, ⟨fun x hx => ?_, h3⟩, fun x hx y hy => ?_⟩
  · have := h2 x hx
    unfold lt at *; omega
  · rcases List.mem_cons.1 hy with rfl | hy
    · have := h4 x hx a (List.mem_cons_self ..)
      unfold lt at *; omega
    · exact h4 x hx y (List.mem_cons_of_mem _ hy)

/-- The two outcomes of the search. -/
inductive AddRes (x : Adj) (db : List Adj) : List Adj × Int × Bool → Prop where
  | newer (pre : List Adj) (a : Adj) (post : List Adj) : db = pre ++ a :: post → same a x → a.seqno < x.seqno →
      AddRes x db (pre ++ { a with stamp := x.stamp, seqno := x.seqno } :: post, 0, false)
  | older (a : Adj) : a ∈ db → same a x → x.seqno ≤ a.seqno → AddRes x db (db, -1, false)
  | fresh (pre post : List Adj) : db = pre ++ post → (∀ a ∈ db, ¬ same a x) → SortedDb (pre ++ x :: post) →
      AddRes x db (pre ++ x :: post, 0, true)

theorem addAdj_spec (x : Adj) : ∀ (db : List Adj), SortedDb db → AddRes x db (addAdj x db)
  | [], _ => by
    have := AddRes.fresh (x := x) (db := []) [] [] rfl (by simp) (List.pairwise_singleton ..)
    simpa [addAdj] using this
  | a :: l, hs => by
    unfold SortedDb at hs
    rw [List.pairwise_cons] at hs
    unfold addAdj
    by_cases h1 : a.dst = x.dst ∧ a.src = x.src
    · rw [if_pos h1]
      by_cases h2 : a.seqno < x.seqno
      · rw [if_pos h2]
        exact .newer [] a l rfl h1 h2
      · rw [if_neg h2]
        exact .older a (List.mem_cons_self ..) h1 (by omega)
    · rw [if_neg h1]
      by_cases h2 : a.dst > x.dst ∨ (a.dst = x.dst ∧ a.src > x.src)
      · rw [if_pos h2]
        refine .fresh [] (a :: l) rfl ?_ ?_
        · intro b hb
          rcases List.mem_cons.1 hb with rfl | hb
          · exact h1
          · have := hs.1 b hb
            unfold lt same at *; omega
        · unfold SortedDb
          rw [List.nil_append, List.pairwise_cons, List.pairwise_cons]
          refine ⟨?_, hs⟩
          intro b hb
          rcases List.mem_cons.1 hb with rfl | hb
          · unfold lt; omega
          · have := hs.1 b hb
            unfold lt at *; omega
      · rw [if_neg h2]
        have ih := addAdj_spec x l hs.2
        generalize addAdj x l = r at ih
        cases ih with
        | newer pre b post e hsame hlt =>
          subst e
          exact .newer (a :: pre) b post rfl hsame hlt
        | older b hb hsame hle => exact .older b (List.mem_cons_of_mem _ hb) hsame hle
        | fresh pre post e hn hsd =>
          subst e
          refine .fresh (a :: pre) post rfl ?_ ?_
          · intro b hb
            rcases List.mem_cons.1 hb with rfl | hb
            · exact h1
            · exact hn b hb
          · unfold SortedDb
            rw [List.cons_append, List.pairwise_cons]
            refine ⟨?_, hsd⟩
            intro b hb
            rw [List.mem_append, List.mem_cons] at hb
            rcases hb with hb | rfl | hb
            · exact hs.1 b (List.mem_append_left _ hb)
            · unfold lt; omega
            · exact hs.1 b (List.mem_append_right _ hb)

theorem sorted_uniq {db : List Adj} (h : SortedDb db) {a b : Adj} (ha : a ∈ db) (hb : b ∈ db) (hs : same a b) : a = b := by
  obtain ⟨i, hi, rfl⟩ := List.getElem_of_mem ha
  obtain ⟨j, hj, rfl⟩ := List.getElem_of_mem hb
  have hp := List.pairwise_iff_getElem.1 h
  obtain ⟨h1, h2⟩ := hs
  rcases Nat.lt_trichotomy i j with hij | hij | hij
  · have := hp i j hi hj hij; unfold lt at this; omega
  · subst hij; rfl
  · have := hp j i hj hi hij; unfold lt at this; omega

/-! ### The counts -/

/-- The announcement `x` is about the link between `a` and `b`. -/
def about (a b : Nat) (x : Adj) : Bool := (a = x.src ∧ b = x.dst) ∨ (a = x.dst ∧ b = x.src)

/-- The number of announcements of the link between `a` and `b`. -/
def cnt (db : List Adj) (a b : Nat) : Nat := db.countP (about a b)

theorem cnt_up (pre post : List Adj) (x : Adj) :
    cnt (pre ++ x :: post) = Spec.Routing.step (cnt (pre ++ post)) (.up x.src x.dst) := by
  funext a b
  simp only [cnt, Spec.Routing.step, List.countP_append, List.countP_cons]
  simp only [about, decide_eq_true_eq]
  split <;> omega

theorem cnt_down (pre post : List Adj) (x : Adj) :
    cnt (pre ++ post) = Spec.Routing.step (cnt (pre ++ x :: post)) (.down x.src x.dst) := by
  funext a b
  simp only [cnt, Spec.Routing.step, List.countP_append, List.countP_cons]
  simp only [about, decide_eq_true_eq]
  split <;> omega

theorem cnt_same (pre post : List Adj) {x y : Adj} (h : same x y) : cnt (pre ++ x :: post) = cnt (pre ++ y :: post) := by
  funext a b
  unfold cnt
  rw [List.countP_append, List.countP_append, List.countP_cons, List.countP_cons]
  have : about a b x = about a b y := by unfold about; rw [h.1, h.2]
  rw [this]

theorem cnt_pos (pre post : List Adj) (x : Adj) : 0 < cnt (pre ++ x :: post) x.src x.dst := by
  unfold cnt
  rw [List.countP_pos_iff]
  exact ⟨x, by simp, by simp [about]⟩

/-- What holds of the state at any time. -/
structure Inv (ls : Ls) : Prop where
  sorted : SortedDb ls.db
  rep : Rep ls.graph (cnt ls.db)
  noself : ∀ a ∈ ls.db, a.src ≠ a.dst
  dbLen : ls.db.length ≤ ls.dbLen
  nbsLen : ls.nbs.length = ls.nbsLen

theorem inv_init (self : Nat) : Inv (init self) := by
  refine ⟨List.Pairwise.nil, ?_, by simp [init], by simp [init], rfl⟩
  have : cnt (init self).db = fun _ _ => 0 := by funext a b; rfl
  rw [this]; exact rep_create

/-- What `addLink` does to the database. -/
inductive LinkRes (ls : Ls) (s d n : Nat) (now : Int) : Ls × Int → Prop where
  | newer (pre : List Adj) (a : Adj) (post : List Adj) : ls.db = pre ++ a :: post → a.src = s → a.dst = d → a.seqno < n →
      LinkRes ls s d n now ({ ls with db := pre ++ ⟨d, s, n, now⟩ :: post }, 0)
  | older (a : Adj) : a ∈ ls.db → a.src = s → a.dst = d → n ≤ a.seqno → LinkRes ls s d n now (ls, -1)
  | fresh (pre post : List Adj) : ls.db = pre ++ post → (∀ a ∈ ls.db, ¬ (a.src = s ∧ a.dst = d)) →
      LinkRes ls s d n now ({ ls with db := pre ++ ⟨d, s, n, now⟩ :: post, dbLen := ls.dbLen + 1, graph := updateEdge ls.graph s d,
                                      dirty := ls.dirty + 1 }, 0)

theorem addLink_spec {ls : Ls} (I : Inv ls) {s d : Nat} (n : Nat) (now : Int) (hsd : s ≠ d) :
    LinkRes ls s d n now (addLink ls s d n now) ∧ Inv (addLink ls s d n now).1 := by
  have h := addAdj_spec { dst := d, src := s, seqno := n, stamp := now } ls.db I.sorted
  unfold addLink
  dsimp only
  generalize addAdj { dst := d, src := s, seqno := n, stamp := now } ls.db = r at h
  cases h with
  | newer pre a post e hs hlt =>
    rw [if_neg (by simp)]
    have ha : ({ a with stamp := now, seqno := n } : Adj) = ⟨d, s, n, now⟩ := by
      obtain ⟨h1, h2⟩ := hs
      dsimp only at h1 h2
      rw [h1, h2]
    dsimp only
    rw [ha]
    refine ⟨.newer pre a post e hs.2 hs.1 hlt, ?_⟩
    have hs' : same a ⟨d, s, n, now⟩ := hs
    refine ⟨pairwise_replace (e ▸ I.sorted) hs', ?_, ?_, ?_, I.nbsLen⟩
    · dsimp only; rw [← cnt_same pre post hs', ← e]; exact I.rep
    · intro b hb
      dsimp only at hb
      rw [List.mem_append, List.mem_cons] at hb
      rcases hb with hb | rfl | hb
      · exact I.noself b (by rw [e]; exact List.mem_append_left _ hb)
      · exact hsd
      · exact I.noself b (by rw [e]; simp [hb])
    · have := I.dbLen
      rw [e] at this
      simpa using this
  | older a ha hs hle =>
    rw [if_neg (by simp)]
    exact ⟨.older a ha hs.2 hs.1 hle, I⟩
  | fresh pre post e hn hsd' =>
    rw [if_pos rfl]
    refine ⟨.fresh pre post e (fun a ha h => hn a ha ⟨h.2, h.1⟩), ?_⟩
    refine ⟨hsd', ?_, ?_, ?_, I.nbsLen⟩
    · dsimp only
      rw [cnt_up, ← e]
      exact updateEdge_rep I.rep hsd
    · intro b hb
      dsimp only at hb
      rw [List.mem_append, List.mem_cons] at hb
      rcases hb with hb | rfl | hb
      · exact I.noself b (by rw [e]; exact List.mem_append_left _ hb)
      · exact hsd
      · exact I.noself b (by rw [e]; simp [hb])
    · have := I.dbLen
      rw [e] at this
      simp at this ⊢; omega

theorem eraseP_split {db : List Adj} {p : Adj → Bool} (h : db.any p = true) : ∃ pre a post, db = pre ++ a :: post ∧ p a ∧ (∀ b ∈ pre, ¬ p b) ∧
    db.eraseP p = pre ++ post := by
  obtain ⟨a, l1, l2, h1, h2, h3, h4⟩ := List.exists_of_eraseP (p := p) (List.any_eq_true.1 h).choose_spec.1 (List.any_eq_true.1 h).choose_spec.2
  exact ⟨l1, a, l2, h3, h2, h1, h4⟩

theorem sorted_erase {pre post : List Adj} {a : Adj} (h : SortedDb (pre ++ a :: post)) : SortedDb (pre ++ post) :=
  List.Pairwise.sublist (List.Sublist.append (List.Sublist.refl pre) (List.sublist_cons_self a post)) h

theorem inv_erase {ls : Ls} (I : Inv ls) {pre post : List Adj} {a : Adj} (e : ls.db = pre ++ a :: post) :
    ∃ g, delEdge ls.graph a.src a.dst = .ok (g, 0) ∧ Rep g (cnt (pre ++ post)) := by
  have hne := I.noself a (by rw [e]; simp)
  obtain ⟨g, e1, R⟩ := delEdge_rep I.rep hne
  refine ⟨g, ?_, ?_⟩
  · rw [e1, if_pos (by rw [e]; exact cnt_pos pre post a)]
  · rw [cnt_down pre post a, ← e]; exact R

theorem delLink_spec {ls : Ls} (I : Inv ls) (s d : Nat) :
    ∃ r, delLink ls s d = .ok r ∧ Inv r.1 ∧ r.1.sent = ls.sent ∧ r.1.nbs = ls.nbs ∧ r.1.self = ls.self ∧
      ((r.2 = 0 ∧ ∃ pre a post, ls.db = pre ++ a :: post ∧ a.src = s ∧ a.dst = d ∧ r.1.db = pre ++ post) ∨
       (r.2 = -EPERM ∧ r.1 = ls ∧ ∀ a ∈ ls.db, ¬ (a.src = s ∧ a.dst = d))) := by
  unfold delLink
  by_cases h : ls.db.any (fun a => a.dst = d ∧ a.src = s) = true
  · rw [if_pos h]
    obtain ⟨pre, a, post, e, hp, _, he⟩ := eraseP_split h
    simp only [decide_eq_true_eq] at hp
    obtain ⟨rfl, rfl⟩ := hp
    obtain ⟨g, e1, R⟩ := inv_erase I e
    rw [e1, bind_ok']
    refine ⟨_, rfl, ⟨?_, ?_, ?_, ?_, I.nbsLen⟩, rfl, rfl, rfl, Or.inl ⟨rfl, pre, a, post, e, rfl, rfl, he⟩⟩
    · dsimp only; rw [he]; exact sorted_erase (e ▸ I.sorted)
    · dsimp only; rw [he]; exact R
    · intro b hb
      dsimp only at hb
      rw [he, List.mem_append] at hb
      refine I.noself b ?_
      rw [e]
      rcases hb with hb | hb
      · exact List.mem_append_left _ hb
      · simp [hb]
    · have := I.dbLen
      dsimp only
      rw [he]
      rw [e] at this
      simp at this ⊢; omega
  · rw [if_neg h]
    refine ⟨_, rfl, I, rfl, rfl, rfl, Or.inr ⟨rfl, rfl, ?_⟩⟩
    intro a ha hk
    apply h
    rw [List.any_eq_true]
    exact ⟨a, ha, by simp [hk.1, hk.2]⟩

/-- What a round of `lsupdate` does with an entry. -/
def aged (self : Nat) (now : Int) (a : Adj) : Option Adj :=
  if now - a.stamp > timeo then none
  else if a.src = self then some { a with seqno := (a.seqno + 1) % 2 ^ 64, stamp := now }
  else some a

theorem aged_same {self : Nat} {now : Int} {a b : Adj} (h : aged self now a = some b) : same a b := by
  unfold aged at h
  split at h
  · cases h
  · split at h <;> cases h <;> exact ⟨rfl, rfl⟩

/-- The announcements of a round of `lsupdate`. -/
def refreshed (self : Nat) (nbs : List Nb) (now : Int) (a : Adj) : List (Int × Lsa) :=
  if now - a.stamp > timeo then []
  else if a.src = self then sendLsm nbs { dst := a.dst, src := a.src, seqno := (a.seqno + 1) % 2 ^ 64 }
  else []

theorem tickLoop_spec (self : Nat) (nbs : List Nb) (now : Int) : ∀ (l K : List Adj) (g : Graph),
    Rep g (cnt (K ++ l)) → (∀ a ∈ l, a.src ≠ a.dst) →
    ∃ g', tickLoop self nbs now l g = .ok (l.filterMap (aged self now), g', l.flatMap (refreshed self nbs now)) ∧
      Rep g' (cnt (K ++ l.filterMap (aged self now)))
  | [], K, g, R, _ => ⟨g, rfl, R⟩
  | a :: l, K, g, R, h => by
    have hl := fun b hb => h b (List.mem_cons_of_mem _ hb)
    rw [tickLoop, List.filterMap_cons, List.flatMap_cons]
    by_cases h1 : now - a.stamp > timeo
    · rw [if_pos h1]
      obtain ⟨g1, e1, R1⟩ := delEdge_rep R (h a (List.mem_cons_self ..))
      rw [← cnt_down K l a] at R1
      obtain ⟨g', e, R'⟩ := tickLoop_spec self nbs now l K g1 R1 hl
      refine ⟨g', ?_, ?_⟩
      · rw [e1, bind_ok']
        simp only [e, aged, refreshed, if_pos h1, List.nil_append]
      · simp only [aged, if_pos h1]; exact R'
    · rw [if_neg h1]
      by_cases h2 : a.src = self
      · rw [if_pos h2]
        have hs : same a { a with seqno := (a.seqno + 1) % 2 ^ 64, stamp := now } := ⟨rfl, rfl⟩
        have R0 := R
        rw [cnt_same K l hs] at R
        obtain ⟨g', e, R'⟩ := tickLoop_spec self nbs now l (K ++ [{ a with seqno := (a.seqno + 1) % 2 ^ 64, stamp := now }]) g
          (by rw [List.append_assoc]; exact R) hl
        refine ⟨g', ?_, ?_⟩
        · rw [e]
          simp only [bind_ok', aged, refreshed, if_neg h1, if_pos h2]
          rfl
        · simp only [aged, if_neg h1, if_pos h2]
          rw [List.append_assoc] at R'
          exact R'
      · rw [if_neg h2]
        obtain ⟨g', e, R'⟩ := tickLoop_spec self nbs now l (K ++ [a]) g (by rw [List.append_assoc]; exact R) hl
        refine ⟨g', ?_, ?_⟩
        · rw [e]
          simp only [bind_ok', aged, refreshed, if_neg h1, if_neg h2, List.nil_append]
          rfl
        · simp only [aged, if_neg h1, if_neg h2]
          rw [List.append_assoc] at R'
          exact R'

theorem sorted_aged {self : Nat} {now : Int} : ∀ {db : List Adj}, SortedDb db → SortedDb (db.filterMap (aged self now)) := by
  intro db h
  unfold SortedDb at *
  rw [List.pairwise_filterMap]
  refine h.imp ?_
  intro a b hab a' ha' b' hb'
  have h1 := aged_same ha'
  have h2 := aged_same hb'
  unfold lt same at *
  omega

theorem tick_spec {ls : Ls} (I : Inv ls) (now : Int) :
    ∃ ls', tick ls now = .ok ls' ∧ Inv ls' ∧ ls'.db = ls.db.filterMap (aged ls.self now) ∧ ls'.nbs = ls.nbs ∧ ls'.self = ls.self ∧
      ls'.sent = ls.sent ++ ls.db.flatMap (refreshed ls.self ls.nbs now) := by
  obtain ⟨g', e, R⟩ := tickLoop_spec ls.self ls.nbs now ls.db [] ls.graph I.rep I.noself
  unfold tick
  rw [e, bind_ok']
  refine ⟨_, rfl, ⟨sorted_aged I.sorted, R, ?_, ?_, I.nbsLen⟩, rfl, rfl, rfl, rfl⟩
  · intro b hb
    obtain ⟨a, ha, hab⟩ := List.mem_filterMap.1 hb
    have := aged_same hab
    have := I.noself a ha
    unfold same at *
    omega
  · have := I.dbLen
    have := List.length_filterMap_le (aged ls.self now) ls.db
    dsimp only
    omega

theorem addNbLoop_length (x : Nb) : ∀ l : List Nb, (addNbLoop x l).1.length = if (addNbLoop x l).2 = 0 then l.length + 1 else l.length
  | [] => by simp [addNbLoop]
  | el :: l => by
    unfold addNbLoop
    split
    · simp [EPERM]
    · split
      · simp
      · rw [List.length_cons, addNbLoop_length x l]
        simp only [List.length_cons]
        split <;> rfl

theorem inv_nbs {ls : Ls} (I : Inv ls) (nbs : List Nb) (n : Nat) (h : nbs.length = n) (sent : List (Int × Lsa)) :
    Inv { ls with nbs := nbs, nbsLen := n, sent := sent } := ⟨I.sorted, I.rep, I.noself, I.dbLen, h⟩

theorem addNb_spec {ls : Ls} (I : Inv ls) (x : Nb) : Inv (addNb ls x).1 ∧ (addNb ls x).1.db = ls.db ∧ (addNb ls x).1.self = ls.self ∧
    (addNb ls x).1.sent = ls.sent ∧ (addNb ls x).1.graph = ls.graph := by
  refine ⟨?_, rfl, rfl, rfl, rfl⟩
  refine ⟨I.sorted, I.rep, I.noself, I.dbLen, ?_⟩
  unfold addNb
  dsimp only
  rw [addNbLoop_length, I.nbsLen]

theorem delNb_spec {ls : Ls} (I : Inv ls) (addr : Nat) (fd : Int) : Inv (delNb ls addr fd).1 ∧ (delNb ls addr fd).1.db = ls.db ∧
    (delNb ls addr fd).1.self = ls.self ∧ (delNb ls addr fd).1.sent = ls.sent := by
  unfold delNb
  by_cases h : ls.nbs.any (fun nb => nb.addr = addr ∧ nb.fd = fd) = true
  · rw [if_pos h]
    refine ⟨⟨I.sorted, I.rep, I.noself, I.dbLen, ?_⟩, rfl, rfl, rfl⟩
    obtain ⟨x, hx, hp⟩ := List.any_eq_true.1 h
    dsimp only
    rw [List.length_eraseP_of_mem hx hp, I.nbsLen]
  · rw [if_neg h]; exact ⟨I, rfl, rfl, rfl⟩

/-- Operations about links from a node to itself are left out. -/
def Op.ok (self : Nat) : Op → Prop
  | .recv _ m _ => m.src ≠ m.dst
  | .dtAdd addr _ _ => addr ≠ self
  | _ => True

instance (self : Nat) : DecidablePred (Op.ok self) := fun o => by cases o <;> unfold Op.ok <;> infer_instance

theorem recv_spec {ls : Ls} (I : Inv ls) (fd : Int) (m : Lsa) (now : Int) (h : m.src ≠ m.dst) :
    Inv (recv ls fd m now) ∧ (recv ls fd m now).db = (addLink ls m.src m.dst m.seqno now).1.db ∧ (recv ls fd m now).nbs = ls.nbs ∧
    (recv ls fd m now).self = ls.self ∧
    (recv ls fd m now).sent = ls.sent ++ (if (addLink ls m.src m.dst m.seqno now).2 = 0 then forward ls.nbs m fd else []) := by
  obtain ⟨hr, I'⟩ := addLink_spec I m.seqno now h
  unfold recv
  dsimp only
  generalize addLink ls m.src m.dst m.seqno now = r at hr I'
  cases hr with
  | newer => exact ⟨⟨I'.sorted, I'.rep, I'.noself, I'.dbLen, I'.nbsLen⟩, rfl, rfl, rfl, rfl⟩
  | older => exact ⟨I, rfl, rfl, rfl, by simp⟩
  | fresh => exact ⟨⟨I'.sorted, I'.rep, I'.noself, I'.dbLen, I'.nbsLen⟩, rfl, rfl, rfl, rfl⟩

theorem dtAdd_spec {ls : Ls} (I : Inv ls) (addr : Nat) (fd now : Int) (h : addr ≠ ls.self) :
    Inv (dtAdd ls addr fd now) ∧ (dtAdd ls addr fd now).db = (addLink ls ls.self addr 0 now).1.db ∧
    (dtAdd ls addr fd now).self = ls.self ∧
    (dtAdd ls addr fd now).sent = ls.sent ++ sendLsm ls.nbs { dst := addr, src := ls.self, seqno := 0 } := by
  unfold dtAdd
  dsimp only
  have I1 : Inv { ls with sent := ls.sent ++ sendLsm ls.nbs { dst := addr, src := ls.self, seqno := 0 } } :=
    ⟨I.sorted, I.rep, I.noself, I.dbLen, I.nbsLen⟩
  obtain ⟨I2, e1, e2, e3, _⟩ := addNb_spec I1 { addr := addr, fd := fd, mgmt := false }
  obtain ⟨hr, I3⟩ := addLink_spec I2 (s := ls.self) (d := addr) 0 now (Ne.symm h)
  refine ⟨I3, ?_, ?_, ?_⟩
  · unfold addLink addNb
    dsimp only
    split <;> rfl
  · unfold addLink addNb
    dsimp only
    split <;> rfl
  · unfold addLink addNb
    dsimp only
    split <;> rfl

theorem step_spec {ls : Ls} (I : Inv ls) (o : Op) (h : o.ok ls.self) : ∃ ls', step ls o = .ok ls' ∧ Inv ls' ∧ ls'.self = ls.self := by
  cases o with
  | recv fd m now =>
    obtain ⟨h1, _, _, h2, _⟩ := recv_spec I fd m now h
    exact ⟨_, rfl, h1, h2⟩
  | dtAdd addr fd now =>
    obtain ⟨h1, _, h2, _⟩ := dtAdd_spec I addr fd now h
    exact ⟨_, rfl, h1, h2⟩
  | dtDel addr fd =>
    obtain ⟨I1, _, e2, _⟩ := delNb_spec I addr fd
    obtain ⟨r, e, I2, _, _, e3, _⟩ := delLink_spec I1 (delNb ls addr fd).1.self addr
    refine ⟨r.1, ?_, I2, by rw [e3, e2]⟩
    unfold step dtDel
    simp only [e, bind_ok', Outcome.pure_eq]
  | mgmtAdd addr fd =>
    obtain ⟨I1, _, e2, _⟩ := addNb_spec I { addr := addr, fd := fd, mgmt := true }
    exact ⟨_, rfl, ⟨I1.sorted, I1.rep, I1.noself, I1.dbLen, I1.nbsLen⟩, e2⟩
  | mgmtDel addr fd =>
    obtain ⟨I1, _, e2, _⟩ := delNb_spec I addr fd
    exact ⟨_, rfl, I1, e2⟩
  | tick now =>
    obtain ⟨ls', e, I1, _, _, e2, _⟩ := tick_spec I now
    exact ⟨ls', e, I1, e2⟩

theorem run_spec : ∀ (os : List Op) (ls : Ls), Inv ls → (∀ o ∈ os, o.ok ls.self) → ∃ ls', run ls os = .ok ls' ∧ Inv ls' ∧ ls'.self = ls.self
  | [], ls, I, _ => ⟨ls, rfl, I, rfl⟩
  | o :: os, ls, I, h => by
    obtain ⟨ls1, e1, I1, s1⟩ := step_spec I o (h o (List.mem_cons_self ..))
    obtain ⟨ls2, e2, I2, s2⟩ := run_spec os ls1 I1 (fun o' ho => by rw [s1]; exact h o' (List.mem_cons_of_mem _ ho))
    refine ⟨ls2, ?_, I2, by rw [s2, s1]⟩
    rw [run, e1, bind_ok', e2]

theorem run_append : ∀ (os os' : List Op) (ls : Ls), run ls (os ++ os') = run ls os >>= fun ls => run ls os'
  | [], os', ls => rfl
  | o :: os, os', ls => by
    rw [List.cons_append, run, run]
    cases h : step ls o with
    | ub => rfl
    | ok ls1 => simp only [bind_ok']; exact run_append os os' ls1

theorem inv_mirrors {ls : Ls} (I : Inv ls) : Spec.Lsdb.Mirrors (fun a b => ∃ x ∈ ls.db, x.src = a ∧ x.dst = b)
    (fun a b k => ∃ v ∈ ls.graph.verts, v.addr = a ∧ ⟨b, k⟩ ∈ v.edges) := by
  have hpos : ∀ a b, 0 < cnt ls.db a b ↔ (∃ x ∈ ls.db, x.src = a ∧ x.dst = b) ∨ (∃ x ∈ ls.db, x.src = b ∧ x.dst = a) := by
    intro a b
    unfold cnt
    rw [List.countP_pos_iff]
    simp only [about, decide_eq_true_eq]
    constructor
    · rintro ⟨x, hx, ⟨h1, h2⟩ | ⟨h1, h2⟩⟩
      · exact Or.inl ⟨x, hx, h1.symm, h2.symm⟩
      · exact Or.inr ⟨x, hx, h2.symm, h1.symm⟩
    · rintro (⟨x, hx, h1, h2⟩ | ⟨x, hx, h1, h2⟩)
      · exact ⟨x, hx, Or.inl ⟨h1.symm, h2.symm⟩⟩
      · exact ⟨x, hx, Or.inr ⟨h2.symm, h1.symm⟩⟩
  have hone : ∀ s d, ls.db.countP (fun x => (s = x.src ∧ d = x.dst)) ≤ 1 ∧
      (0 < ls.db.countP (fun x => (s = x.src ∧ d = x.dst)) ↔ ∃ x ∈ ls.db, x.src = s ∧ x.dst = d) := by
    intro s d
    constructor
    · by_contra hgt
      rw [List.countP_eq_length_filter] at hgt
      have hsub : (ls.db.filter (fun x => decide (s = x.src ∧ d = x.dst))).Pairwise lt := List.Pairwise.sublist List.filter_sublist I.sorted
      generalize hf : ls.db.filter (fun x => decide (s = x.src ∧ d = x.dst)) = f at *
      match f, hgt, hsub, hf with
      | [], hgt, _, _ => simp at hgt
      | [_], hgt, _, _ => simp at hgt
      | x :: y :: f, _, hsub, hf =>
        have hx : x ∈ ls.db.filter (fun x => decide (s = x.src ∧ d = x.dst)) := by rw [hf]; simp
        have hy : y ∈ ls.db.filter (fun x => decide (s = x.src ∧ d = x.dst)) := by rw [hf]; simp
        have h1 := (List.mem_filter.1 hx).2
        have h2 := (List.mem_filter.1 hy).2
        simp only [decide_eq_true_eq] at h1 h2
        have := (List.pairwise_cons.1 hsub).1 y (List.mem_cons_self ..)
        unfold lt at this
        omega
    · rw [List.countP_pos_iff]
      simp only [decide_eq_true_eq]
      constructor
      · rintro ⟨x, hx, h1, h2⟩; exact ⟨x, hx, h1.symm, h2.symm⟩
      · rintro ⟨x, hx, h1, h2⟩; exact ⟨x, hx, h1.symm, h2.symm⟩
  have hsum : ∀ a b, a ≠ b → cnt ls.db a b = ls.db.countP (fun x => (a = x.src ∧ b = x.dst)) + ls.db.countP (fun x => (b = x.src ∧ a = x.dst)) := by
    intro a b hab
    unfold cnt
    generalize ls.db = db
    induction db with
    | nil => rfl
    | cons x l ih =>
      rw [List.countP_cons, List.countP_cons, List.countP_cons, ih]
      simp only [about, decide_eq_true_eq]
      split <;> split <;> split <;> omega
  have edge : ∀ a b k, (∃ v ∈ ls.graph.verts, v.addr = a ∧ ⟨b, k⟩ ∈ v.edges) ↔ k = cnt ls.db a b ∧ 0 < cnt ls.db a b := I.rep.edges
  have hirr := I.rep.irr
  refine ⟨?_, ?_, ?_⟩
  · intro a b
    rw [← hpos]
    constructor
    · rintro ⟨k, hk⟩; exact ((edge a b k).1 hk).2
    · intro h; exact ⟨_, (edge a b _).2 ⟨rfl, h⟩⟩
  · intro a b
    rw [edge]
    by_cases hab : a = b
    · subst hab
      rw [hirr]
      constructor
      · rintro ⟨h, _⟩; cases h
      · rintro ⟨⟨x, hx, h1, h2⟩, _⟩
        exact absurd (h1.trans h2.symm) (I.noself x hx)
    · rw [hsum a b hab]
      have h1 := hone a b
      have h2 := hone b a
      constructor
      · rintro ⟨h, _⟩
        exact ⟨h1.2.1 (by omega), h2.2.1 (by omega)⟩
      · rintro ⟨k1, k2⟩
        have := h1.2.2 k1
        have := h2.2.2 k2
        omega
  · intro a b k hk
    obtain ⟨h, hp⟩ := (edge a b k).1 hk
    by_cases hab : a = b
    · subst hab; rw [hirr] at hp; omega
    · rw [hsum a b hab] at h hp
      have h1 := (hone a b).1
      have h2 := (hone b a).1
      omega

end Ouro.Lsdb
