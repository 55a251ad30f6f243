import Mathlib.Tactic.Tauto
import Verif.Model.LinkedList
import Verif.Spec.Sequence

/-!
# C08 — linked list primitives implement sequences
-/

namespace Ouro.LinkedList

open Spec.Sequence

/-- The ring with head `hd` in heap `h` holds `l`. -/
abbrev Rep (h : Heap) (hd : Nat) (l : List Nat) : Prop := Represents h.nxt h.prv hd l

theorem linked_append (nxt prv : Nat → Nat) (a : List Nat) (x : Nat) (b : List Nat) :
    Linked nxt prv (a ++ x :: b) ↔ Linked nxt prv (a ++ [x]) ∧ Linked nxt prv (x :: b) := by
  induction a with
  | nil => simp [Linked]
  | cons y a ih =>
    cases a with
    | nil =>
      cases b with
      | nil => simp [Linked]
      | cons z b => simp [Linked]; constructor <;> (intro h; simp_all)
    | cons z a =>
      simp only [List.cons_append, Linked] at ih ⊢
      rw [ih]
      constructor
      · rintro ⟨h1, h2, h3, h4⟩; exact ⟨⟨h1, h2, h3⟩, h4⟩
      · rintro ⟨⟨h1, h2, h3⟩, h4⟩; exact ⟨h1, h2, h3, h4⟩

theorem linked_congr {nxt prv nxt' prv' : Nat → Nat} (l : List Nat) (h1 : ∀ z ∈ l.dropLast, nxt' z = nxt z)
    (h2 : ∀ z ∈ l.tail, prv' z = prv z) (h : Linked nxt prv l) : Linked nxt' prv' l := by
  induction l with
  | nil => trivial
  | cons x l ih =>
    cases l with
    | nil => trivial
    | cons y l =>
      simp only [Linked] at h ⊢
      obtain ⟨a, b, c⟩ := h
      refine ⟨?_, ?_, ih ?_ ?_ c⟩
      · rw [h1 x (by simp)]; exact a
      · rw [h2 y (by simp)]; exact b
      · intro z hz; exact h1 z (by simp only [List.dropLast_cons_cons, List.mem_cons]; exact Or.inr hz)
      · intro z hz; exact h2 z (by simp only [List.tail_cons] at hz ⊢; exact List.mem_cons_of_mem _ hz)

/-- decomposition of a ring at a position -/
theorem rep_split {h : Heap} {hd : Nat} {l1 l2 : List Nat} {p y : Nat} (hr : Rep h hd (l1 ++ l2))
    (hp : Before hd l1 p) (hy : Behind hd l2 y) :
    ∃ A B, hd :: l1 = A ++ [p] ∧ l2 ++ [hd] = y :: B ∧ Linked h.nxt h.prv (A ++ [p]) ∧ h.nxt p = y ∧ h.prv y = p ∧
      Linked h.nxt h.prv (y :: B) ∧ p ∉ A ∧ y ∉ B ∧ p ∉ l2 ∧ y ∉ l1 ∧
      (∀ z ∈ (A ++ [p]).tail, z ≠ y) := by
  obtain ⟨hn, hl⟩ := hr
  obtain ⟨A, hA⟩ := List.getLast?_eq_some_iff.mp hp
  cases hB : l2 ++ [hd] with
  | nil => simp at hB
  | cons y' B =>
    unfold Behind at hy
    rw [hB] at hy
    simp at hy
    subst hy
    have e : hd :: (l1 ++ l2) ++ [hd] = A ++ p :: y' :: B := by
      have : hd :: (l1 ++ l2) ++ [hd] = (hd :: l1) ++ (l2 ++ [hd]) := by simp
      rw [this, hA, hB]; simp
    rw [e, linked_append] at hl
    obtain ⟨k1, k2⟩ := hl
    simp only [Linked] at k2
    have hn2 : (A ++ [p] ++ l2).Nodup := by rw [← hA]; simpa using hn
    have hn3 := List.nodup_append.mp hn2
    have hn4 := List.nodup_append.mp hn3.1
    have hyB : y' ∉ B := by
      cases l2 with
      | nil => simp at hB; simp [hB.2]
      | cons z l2 =>
        simp only [List.cons_append, List.cons.injEq] at hB
        obtain ⟨rfl, rfl⟩ := hB
        intro hm
        rcases List.mem_append.mp hm with hm | hm
        · exact (List.nodup_cons.mp hn3.2.1).1 hm
        · simp at hm
          exact hn3.2.2 hd (by rw [← hA]; simp) z (by simp) hm.symm
    have hl1 : y' ∉ l1 := by
      cases l2 with
      | nil =>
        simp at hB
        rw [← hB.1]
        intro hm
        exact (List.nodup_cons.mp hn).1 (by simp [hm])
      | cons z l2 =>
        simp only [List.cons_append, List.cons.injEq] at hB
        obtain ⟨rfl, rfl⟩ := hB
        intro hm
        exact hn3.2.2 z (by rw [← hA]; simp [hm]) z (by simp) rfl
    refine ⟨A, B, hA, rfl, k1, k2.1, k2.2.1, k2.2.2, ?_, hyB, ?_, hl1, ?_⟩
    · intro hm; exact hn4.2.2 p hm p (by simp) rfl
    · intro hm; exact hn3.2.2 p (by simp) p hm rfl
    · intro z hz e
      rw [← hA] at hz
      simp only [List.tail_cons] at hz
      exact hl1 (e ▸ hz)

theorem dropLast_cons_of_append {y : Nat} {B l2 : List Nat} {hd : Nat} (h : l2 ++ [hd] = y :: B) : (y :: B).dropLast = l2 := by
  rw [← h, List.dropLast_concat]

theorem nodup_insert {hd n : Nat} {l1 l2 : List Nat} (hn : (hd :: (l1 ++ l2)).Nodup) (hnew : n ∉ hd :: (l1 ++ l2)) :
    (hd :: (l1 ++ n :: l2)).Nodup := by
  have : (hd :: (l1 ++ n :: l2)).Perm (n :: hd :: (l1 ++ l2)) := by
    refine (List.Perm.cons hd (List.perm_middle)).trans (List.Perm.swap _ _ _)
  exact this.nodup_iff.mpr (List.nodup_cons.mpr ⟨hnew, hn⟩)

theorem rep_addList {h : Heap} {hd n : Nat} {l1 l2 : List Nat} {p y : Nat} (hr : Rep h hd (l1 ++ l2))
    (hp : Before hd l1 p) (hy : Behind hd l2 y) (hnew : n ∉ hd :: (l1 ++ l2)) :
    Rep (addList h n p y) hd (l1 ++ n :: l2) := by
  obtain ⟨A, B, e1, e2, k1, k2, k3, k4, k5, k6, k7, k8, k9⟩ := rep_split hr hp hy
  refine ⟨nodup_insert hr.1 hnew, ?_⟩
  have e : hd :: (l1 ++ n :: l2) ++ [hd] = A ++ p :: (n :: y :: B) := by
    have : hd :: (l1 ++ n :: l2) ++ [hd] = (hd :: l1) ++ n :: (l2 ++ [hd]) := by simp
    rw [this, e1, e2]; simp
  have hnA : n ∉ A ++ [p] := by rw [← e1]; intro hm; apply hnew; simp only [List.mem_cons, List.mem_append] at hm ⊢; tauto
  have hnB : n ∉ y :: B := by
    rw [← e2]; intro hm; apply hnew; simp only [List.mem_cons, List.mem_append, List.not_mem_nil, or_false] at hm ⊢; tauto
  have hpn : p ≠ n := fun e => hnA (by simp [e])
  have hyn : y ≠ n := fun e => hnB (by simp [e])
  rw [e, linked_append]
  constructor
  · refine linked_congr _ ?_ ?_ k1
    · intro z hz
      rw [List.dropLast_concat] at hz
      have h1 : z ≠ p := fun e => k5 (e ▸ hz)
      have h2 : z ≠ n := fun e => hnA (by rw [← e]; simp [hz])
      simp [addList, setNxt, setPrv, h1, h2]
    · intro z hz
      have h1 : z ≠ y := k9 z hz
      have h2 : z ≠ n := fun e => hnA (by rw [← e]; exact List.mem_of_mem_tail hz)
      simp [addList, setNxt, setPrv, h1, h2]
  · simp only [Linked]
    refine ⟨by simp [addList, setNxt, setPrv], by simp [addList, setNxt, setPrv],
      by simp [addList, setNxt, setPrv, hpn.symm], by simp [addList, setNxt, setPrv, hyn], ?_⟩
    refine linked_congr _ ?_ ?_ k4
    · intro z hz
      rw [dropLast_cons_of_append e2] at hz
      have h1 : z ≠ p := fun e => k7 (e ▸ hz)
      have h2 : z ≠ n := fun e => hnew (by rw [← e]; simp [hz])
      simp [addList, setNxt, setPrv, h1, h2]
    · intro z hz
      simp only [List.tail_cons] at hz
      have h1 : z ≠ y := fun e => k6 (e ▸ hz)
      have h2 : z ≠ n := fun e => hnB (by rw [← e]; simp [hz])
      simp [addList, setNxt, setPrv, h1, h2]

/-- every position has a node in front and one behind -/
theorem exists_behind (hd : Nat) (l2 : List Nat) : ∃ y, Behind hd l2 y := by
  cases l2 with
  | nil => exact ⟨hd, rfl⟩
  | cons z l2 => exact ⟨z, rfl⟩

theorem exists_before (hd : Nat) (l1 : List Nat) : ∃ p, Before hd l1 p := by
  cases e : (hd :: l1).getLast? with
  | none => simp at e
  | some p => exact ⟨p, e⟩

/-- C08. `list_add(n, p)` puts `n` directly after `p`, which may be the head or any node of the list. -/
theorem C08_list_add (h : Heap) (hd n p : Nat) (l1 l2 : List Nat) (hr : Rep h hd (l1 ++ l2)) (hp : Before hd l1 p)
    (hnew : n ∉ hd :: (l1 ++ l2)) : Rep (listAdd h n p) hd (l1 ++ n :: l2) := by
  obtain ⟨y, hy⟩ := exists_behind hd l2
  obtain ⟨_, _, _, _, _, k2, _⟩ := rep_split hr hp hy
  have := rep_addList hr hp hy hnew
  unfold listAdd
  rw [k2]; exact this

/-- C08. `list_add_tail(n, y)` puts `n` directly before `y`, which may be the head (append at the end) or any node. -/
theorem C08_list_add_tail (h : Heap) (hd n y : Nat) (l1 l2 : List Nat) (hr : Rep h hd (l1 ++ l2)) (hy : Behind hd l2 y)
    (hnew : n ∉ hd :: (l1 ++ l2)) : Rep (listAddTail h n y) hd (l1 ++ n :: l2) := by
  obtain ⟨p, hp⟩ := exists_before hd l1
  obtain ⟨_, _, _, _, _, _, k3, _⟩ := rep_split hr hp hy
  have := rep_addList hr hp hy hnew
  unfold listAddTail
  rw [k3]; exact this

theorem rep_delList {h : Heap} {hd e : Nat} {l1 l2 : List Nat} (hr : Rep h hd (l1 ++ e :: l2)) :
    Rep (delList h (h.prv e) (h.nxt e)) hd (l1 ++ l2) ∧ Before hd l1 (h.prv e) ∧ Behind hd l2 (h.nxt e) := by
  obtain ⟨p, hp⟩ := exists_before hd l1
  obtain ⟨y, hy⟩ := exists_behind hd l2
  have hp' : Before hd (l1 ++ [e]) e := by
    unfold Before
    rw [show hd :: (l1 ++ [e]) = (hd :: l1) ++ [e] by simp, List.getLast?_concat]
  have hr' : Rep h hd ((l1 ++ [e]) ++ l2) := by simpa using hr
  obtain ⟨A, B, e1, e2, k1, k2, k3, k4, k5, k6, k7, k8, k9⟩ := rep_split hr (l2 := e :: l2) hp rfl
  obtain ⟨A', B', e1', e2', k1', k2', k3', k4', k5', k6', k7', k8', k9'⟩ := rep_split hr' hp' hy
  rw [k3, k2']
  refine ⟨?_, hp, hy⟩
  have hn : (e :: hd :: (l1 ++ l2)).Nodup := by
    have hpm : (hd :: (l1 ++ e :: l2)).Perm (e :: hd :: (l1 ++ l2)) :=
      (List.Perm.cons hd (List.perm_middle)).trans (List.Perm.swap _ _ _)
    exact hpm.nodup_iff.mp hr.1
  refine ⟨(List.nodup_cons.mp hn).2, ?_⟩
  have e3 : hd :: (l1 ++ l2) ++ [hd] = A ++ p :: y :: B' := by
    have : hd :: (l1 ++ l2) ++ [hd] = (hd :: l1) ++ (l2 ++ [hd]) := by simp
    rw [this, e1, e2']; simp
  rw [e3, linked_append]
  constructor
  · refine linked_congr _ ?_ ?_ k1
    · intro z hz
      rw [List.dropLast_concat] at hz
      have h1 : z ≠ p := fun e => k5 (e ▸ hz)
      simp [delList, setNxt, setPrv, h1]
    · intro z hz
      rw [← e1] at hz
      simp only [List.tail_cons] at hz
      have h1 : z ≠ y := fun e => k8' (by rw [← e]; simp [hz])
      simp [delList, setNxt, setPrv, h1]
  · simp only [Linked]
    refine ⟨by simp [delList, setNxt, setPrv], by simp [delList, setNxt, setPrv], ?_⟩
    refine linked_congr _ ?_ ?_ k4'
    · intro z hz
      rw [dropLast_cons_of_append e2'] at hz
      have h1 : z ≠ p := fun e => k7 (by rw [← e]; simp [hz])
      simp [delList, setNxt, setPrv, h1]
    · intro z hz
      simp only [List.tail_cons] at hz
      have h1 : z ≠ y := fun e => k6' (e ▸ hz)
      simp [delList, setNxt, setPrv, h1]

/-- a ring is unaffected by changes of the pointers of other nodes -/
theorem rep_frame {h h' : Heap} {hd : Nat} {l : List Nat} (hr : Rep h hd l)
    (hf : ∀ z ∈ hd :: l, h'.nxt z = h.nxt z ∧ h'.prv z = h.prv z) : Rep h' hd l := by
  refine ⟨hr.1, linked_congr _ ?_ ?_ hr.2⟩
  · intro z hz
    rw [List.dropLast_concat] at hz
    exact (hf z hz).1
  · intro z hz
    simp only [List.cons_append, List.tail_cons, List.mem_append, List.mem_singleton] at hz
    exact (hf z (by rcases hz with h | h <;> simp [h])).2

/-- C08. `list_del(e)` removes exactly `e`, keeps the order of the rest, and leaves `e` as an empty ring of its own. -/
theorem C08_list_del (h : Heap) (hd e : Nat) (l1 l2 : List Nat) (hr : Rep h hd (l1 ++ e :: l2)) :
    Rep (listDel h e) hd (l1 ++ l2) ∧ Rep (listDel h e) e [] := by
  have hn : (e :: hd :: (l1 ++ l2)).Nodup := by
    have hpm : (hd :: (l1 ++ e :: l2)).Perm (e :: hd :: (l1 ++ l2)) :=
      (List.Perm.cons hd (List.perm_middle)).trans (List.Perm.swap _ _ _)
    exact hpm.nodup_iff.mp hr.1
  constructor
  · refine rep_frame (rep_delList hr).1 ?_
    intro z hz
    have : z ≠ e := fun e' => (List.nodup_cons.mp hn).1 (e' ▸ hz)
    simp [listDel, setNxt, setPrv, this]
  · refine ⟨by simp, ?_⟩
    simp [Linked, listDel, setNxt, setPrv]

/-- C08. `list_move(n, p)` takes `n` out of its list and puts it directly after `p` in the same list (`m1 ++ m2` is the list
without `n`). -/
theorem C08_list_move_within (h : Heap) (hd n p : Nat) (l1 l2 m1 m2 : List Nat) (hr : Rep h hd (l1 ++ n :: l2))
    (hm : l1 ++ l2 = m1 ++ m2) (hp : Before hd m1 p) : Rep (listMove h n p) hd (m1 ++ n :: m2) := by
  have hn : (n :: hd :: (l1 ++ l2)).Nodup := by
    have hpm : (hd :: (l1 ++ n :: l2)).Perm (n :: hd :: (l1 ++ l2)) :=
      (List.Perm.cons hd (List.perm_middle)).trans (List.Perm.swap _ _ _)
    exact hpm.nodup_iff.mp hr.1
  have h1 := (rep_delList hr).1
  rw [hm] at h1 hn
  exact C08_list_add _ hd n p m1 m2 h1 hp (List.nodup_cons.mp hn).1

theorem delList_frame {h : Heap} {hd e : Nat} {l1 l2 : List Nat} (hr : Rep h hd (l1 ++ e :: l2)) (z : Nat)
    (hz : z ∉ hd :: (l1 ++ e :: l2)) :
    (delList h (h.prv e) (h.nxt e)).nxt z = h.nxt z ∧ (delList h (h.prv e) (h.nxt e)).prv z = h.prv z := by
  obtain ⟨_, hb, hh⟩ := rep_delList hr
  have h1 : h.prv e ∈ hd :: l1 := by
    obtain ⟨A, hA⟩ := List.getLast?_eq_some_iff.mp hb
    rw [hA]; simp
  have h2 : h.nxt e ∈ l2 ++ [hd] := List.mem_of_mem_head? hh
  have h3 : z ≠ h.prv e := by
    intro e'; apply hz; rw [e']
    simp only [List.mem_cons, List.mem_append] at h1 ⊢; tauto
  have h4 : z ≠ h.nxt e := by
    intro e'; apply hz; rw [e']
    simp only [List.mem_cons, List.mem_append, List.not_mem_nil, or_false] at h2 ⊢; tauto
  simp [delList, setNxt, setPrv, h3, h4]

/-- C08. `list_move(n, p)` between two disjoint lists: the first loses exactly `n`, the second gains it directly after `p`. -/
theorem C08_list_move_across (h : Heap) (hd hd' n p : Nat) (l1 l2 m1 m2 : List Nat) (hr : Rep h hd (l1 ++ n :: l2))
    (hr' : Rep h hd' (m1 ++ m2)) (hp : Before hd' m1 p)
    (hdis : ∀ z ∈ hd' :: (m1 ++ m2), z ∉ hd :: (l1 ++ n :: l2)) :
    Rep (listMove h n p) hd (l1 ++ l2) ∧ Rep (listMove h n p) hd' (m1 ++ n :: m2) := by
  have hn : (n :: hd :: (l1 ++ l2)).Nodup := by
    have hpm : (hd :: (l1 ++ n :: l2)).Perm (n :: hd :: (l1 ++ l2)) :=
      (List.Perm.cons hd (List.perm_middle)).trans (List.Perm.swap _ _ _)
    exact hpm.nodup_iff.mp hr.1
  have h1 := (rep_delList hr).1
  have h2 : Rep (delList h (h.prv n) (h.nxt n)) hd' (m1 ++ m2) := rep_frame hr' (fun z hz => delList_frame hr z (hdis z hz))
  obtain ⟨y, hy⟩ := exists_behind hd' m2
  obtain ⟨A, B, e1, e2, _, k2, _⟩ := rep_split h2 hp hy
  have hnew : n ∉ hd' :: (m1 ++ m2) := fun hm => hdis n hm (by simp)
  refine ⟨rep_frame h1 ?_, C08_list_add _ hd' n p m1 m2 h2 hp hnew⟩
  intro z hz
  have hzl : z ∈ hd :: (l1 ++ n :: l2) := by simp only [List.mem_cons, List.mem_append] at hz ⊢; tauto
  have hp1 : p ∈ hd' :: (m1 ++ m2) := by
    have : p ∈ hd' :: m1 := by rw [e1]; simp
    simp only [List.mem_cons, List.mem_append] at this ⊢; tauto
  have hy1 : y ∈ hd' :: (m1 ++ m2) := by
    have : y ∈ m2 ++ [hd'] := by rw [e2]; simp
    simp only [List.mem_cons, List.mem_append, List.not_mem_nil, or_false] at this ⊢; tauto
  have g1 : z ≠ p := fun e => hdis p hp1 (e ▸ hzl)
  have g2 : z ≠ y := fun e => hdis y hy1 (e ▸ hzl)
  have g3 : z ≠ n := fun e => (List.nodup_cons.mp hn).1 (e ▸ hz)
  unfold listMove
  simp only [k2]
  simp [addList, setNxt, setPrv, g1, g2, g3]

/-- C08. `list_is_empty` tells exactly whether the list is empty. -/
theorem C08_list_is_empty (h : Heap) (hd : Nat) (l : List Nat) (hr : Rep h hd l) : listIsEmpty h hd = true ↔ l = [] := by
  unfold listIsEmpty
  rw [beq_iff_eq]
  obtain ⟨hn, hl⟩ := hr
  cases l with
  | nil => simp [Linked] at hl; simp [hl.1]
  | cons x l =>
    have h1 : h.nxt hd = x := hl.1
    have h2 : x ≠ hd := by intro e; subst e; simp at hn
    simp [h1, h2]

/-- C08. `list_head_init` makes an empty list. -/
theorem C08_list_head_init (h : Heap) (hd : Nat) : Rep (headInit h hd) hd [] := by
  refine ⟨by simp, ?_⟩
  simp [Linked, headInit, setNxt, setPrv]

/-- C08. No primitive disturbs a list all of whose nodes are different from the nodes of the lists involved. -/
theorem C08_other_lists_untouched (h : Heap) (hd n p y e : Nat) (l1 l2 : List Nat) (hd' : Nat) (l' : List Nat)
    (hr' : Rep h hd' l') (hdis : ∀ z ∈ hd' :: l', z ∉ hd :: (l1 ++ e :: l2) ∧ z ∉ hd :: (l1 ++ l2) ∧ z ≠ n) :
    (Rep h hd (l1 ++ l2) → Before hd l1 p → Rep (listAdd h n p) hd' l') ∧
    (Rep h hd (l1 ++ l2) → Behind hd l2 y → Rep (listAddTail h n y) hd' l') ∧
    (Rep h hd (l1 ++ e :: l2) → Rep (listDel h e) hd' l') := by
  have add : ∀ p y, Rep h hd (l1 ++ l2) → Before hd l1 p → Behind hd l2 y → Rep (addList h n p y) hd' l' := by
    intro p y hr hp hy
    obtain ⟨A, B, e1, e2, _⟩ := rep_split hr hp hy
    refine rep_frame hr' ?_
    intro z hz
    obtain ⟨_, d2, d3⟩ := hdis z hz
    have g1 : z ≠ p := by
      intro e; apply d2; rw [e]
      have : p ∈ hd :: l1 := by rw [e1]; simp
      simp only [List.mem_cons, List.mem_append] at this ⊢; tauto
    have g2 : z ≠ y := by
      intro e; apply d2; rw [e]
      have : y ∈ l2 ++ [hd] := by rw [e2]; simp
      simp only [List.mem_cons, List.mem_append, List.not_mem_nil, or_false] at this ⊢; tauto
    simp [addList, setNxt, setPrv, g1, g2, d3]
  refine ⟨?_, ?_, ?_⟩
  · intro hr hp
    obtain ⟨y, hy⟩ := exists_behind hd l2
    obtain ⟨_, _, _, _, _, k2, _⟩ := rep_split hr hp hy
    unfold listAdd; rw [k2]; exact add p y hr hp hy
  · intro hr hy
    obtain ⟨p, hp⟩ := exists_before hd l1
    obtain ⟨_, _, _, _, _, _, k3, _⟩ := rep_split hr hp hy
    unfold listAddTail; rw [k3]; exact add p y hr hp hy
  · intro hr
    refine rep_frame hr' ?_
    intro z hz
    obtain ⟨d1, _, _⟩ := hdis z hz
    have hze : z ≠ e := fun e' => d1 (by rw [e']; simp)
    have := delList_frame hr z d1
    unfold listDel
    simp only [setNxt, setPrv, if_neg hze]
    exact this

/-- Non-vacuity: a ring 0 → 1 → 2 built by the primitives themselves; adding in the middle, removing, moving. -/
example : let h0 : Heap := headInit ⟨fun _ => 0, fun _ => 0⟩ 0
    Rep (listAddTail (listAddTail h0 1 0) 2 0) 0 [1, 2] ∧ Before 0 [1] 1 ∧ Behind 0 [2] 2 ∧ 7 ∉ [0, 1, 2] := by
  intro h0
  have a : Rep h0 0 [] := C08_list_head_init _ 0
  have b : Rep (listAddTail h0 1 0) 0 [1] := C08_list_add_tail h0 0 1 0 [] [] a rfl (by decide)
  have c : Rep (listAddTail (listAddTail h0 1 0) 2 0) 0 [1, 2] := C08_list_add_tail _ 0 2 0 [1] [] (by simpa using b) rfl (by decide)
  exact ⟨c, rfl, rfl, by decide⟩

end Ouro.LinkedList
