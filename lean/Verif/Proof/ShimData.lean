import Verif.Model.ShimData
import Verif.Spec.ShimData

/-! # Proofs about the registry and directory of shim IPCPs -/

namespace Ouro.ShimData

open Spec.ShimData

set_option linter.unusedSectionVars false

variable {H : Type} [DecidableEq H]

/-! ## Registry and directory -/

/-- What the specification is told about a step: additions that returned 0, and deletions. -/
def evOf : Op H × Out → List (Ev H)
  | (.regAdd h _, .ret 0) => [.registered h]
  | (.regDel h, _) => [.unregistered h]
  | (.dirAdd h a _, .ret 0) => [.known h a]
  | (.dirDel h a, _) => [.forgotten h a]
  | _ => []

/-- The log of a history, latest first. -/
def evs (log : List (Op H × Out)) : List (Ev H) := log.reverse.flatMap evOf

theorem evs_snoc (log : List (Op H × Out)) (x : Op H × Out) : evs (log ++ [x]) = evOf x ++ evs log := by
  simp [evs]

/-- The registry and the directory hold what the log says. -/
structure TabOk (s : State H) (l : List (Ev H)) : Prop where
  regNodup : s.reg.Nodup
  reg : ∀ h, h ∈ s.reg ↔ Registered h l
  dirNodup : s.dir.Nodup
  dir : ∀ h a, (h, a) ∈ s.dir ↔ Known h a l

theorem regFind_iff (s : State H) (h : H) : regFind s h = true ↔ h ∈ s.reg := by
  simp [regFind]

theorem dirFind_iff (s : State H) (h : H) (a : Nat) : dirFind s h a = true ↔ (h, a) ∈ s.dir := by
  simp only [dirFind, List.any_eq_true, decide_eq_true_eq]
  constructor
  · rintro ⟨⟨x, b⟩, h1, rfl, rfl⟩; exact h1
  · intro h1; exact ⟨_, h1, rfl, rfl⟩

/-- Steps that leave the registry and the directory alone. -/
theorem TabOk.same {s t : State H} {l : List (Ev H)} (h : TabOk s l) (h1 : t.reg = s.reg) (h2 : t.dir = s.dir) : TabOk t l := by
  refine ⟨?_, ?_, ?_, ?_⟩
  · rw [h1]; exact h.regNodup
  · rw [h1]; exact h.reg
  · rw [h2]; exact h.dirNodup
  · rw [h2]; exact h.dir

theorem erase_pair (l : List (H × Nat)) (h : H) (a : Nat) : l.eraseP (fun e => e.2 = a ∧ e.1 = h) = l.erase (h, a) := by
  rw [List.erase_eq_eraseP']
  congr 1
  funext e
  obtain ⟨x, b⟩ := e
  simp only [beq_eq_decide, Prod.mk.injEq, decide_eq_decide]
  tauto

theorem erase_name (l : List H) (h : H) : l.eraseP (fun x => x = h) = l.erase h := by
  rw [List.erase_eq_eraseP']
  congr 1

theorem same_tables {s t : State H} {op : Op H} {o : Out} (h : step s op = .ok (t, o)) :
    (t.reg = s.reg ∧ t.dir = s.dir) ∨ (∃ x m, op = .regAdd x m) ∨ (∃ x, op = .regDel x) ∨ (∃ x a m, op = .dirAdd x a m) ∨
      ∃ x a, op = .dirDel x a := by
  cases op with
  | regAdd x m => exact .inr (.inl ⟨x, m, rfl⟩)
  | regDel x => exact .inr (.inr (.inl ⟨x, rfl⟩))
  | dirAdd x a m => exact .inr (.inr (.inr (.inl ⟨x, a, m, rfl⟩)))
  | dirDel x a => exact .inr (.inr (.inr (.inr ⟨x, a, rfl⟩)))
  | regHas x => simp only [step, Outcome.ok.injEq, Prod.mk.injEq] at h; rw [← h.1]; exact .inl ⟨rfl, rfl⟩
  | dirHas x => simp only [step, Outcome.ok.injEq, Prod.mk.injEq] at h; rw [← h.1]; exact .inl ⟨rfl, rfl⟩
  | dirGet x => simp only [step, Outcome.ok.injEq, Prod.mk.injEq] at h; rw [← h.1]; exact .inl ⟨rfl, rfl⟩
  | queryCreate x m =>
    simp only [step, queryCreate] at h
    left; split at h <;> (try split at h) <;> cases h <;> exact ⟨rfl, rfl⟩
  | waitStart q =>
    simp only [step, waitStart] at h
    left; repeat' split at h
    all_goals first | (cases h; done) | (cases h; exact ⟨rfl, rfl⟩)
  | waitWake q b =>
    simp only [step, waitWake] at h
    left; repeat' split at h
    all_goals first | (cases h; done) | (cases h; exact ⟨rfl, rfl⟩)
  | waitCancel q =>
    simp only [step, waitCancel] at h
    left; repeat' split at h
    all_goals first | (cases h; done) | (cases h; exact ⟨rfl, rfl⟩)
  | respond x =>
    simp only [step, respond] at h
    left; repeat' split at h
    all_goals first | (cases h; done) | (cases h; exact ⟨rfl, rfl⟩)
  | respondWake =>
    simp only [step, respondWake] at h
    left; repeat' split at h
    all_goals first | (cases h; done) | (cases h; exact ⟨rfl, rfl⟩)
  | queryDestroy q =>
    simp only [step, queryDestroy] at h
    left; repeat' split at h
    all_goals first | (cases h; done) | (cases h; exact ⟨rfl, rfl⟩)
  | destroyWake =>
    simp only [step, destroyWake] at h
    left; repeat' split at h
    all_goals first | (cases h; done) | (cases h; exact ⟨rfl, rfl⟩)

theorem evOf_other {op : Op H} {o : Out} (h1 : ∀ x m, op ≠ .regAdd x m) (h2 : ∀ x, op ≠ .regDel x) (h3 : ∀ x a m, op ≠ .dirAdd x a m)
    (h4 : ∀ x a, op ≠ .dirDel x a) : evOf (op, o) = [] := by
  cases op <;> simp_all [evOf]

theorem tabOk_step {s t : State H} {op : Op H} {o : Out} {l : List (Ev H)} (hs : TabOk s l) (h : step s op = .ok (t, o)) :
    TabOk t (evOf (op, o) ++ l) := by
  obtain ⟨rn, rg, dn, dr⟩ := hs
  cases op with
  | regAdd x m =>
    simp only [step, regAdd] at h
    by_cases hx : x ∈ s.reg
    · rw [if_pos ((regFind_iff s x).mpr hx)] at h
      cases h
      refine ⟨rn, fun y => ?_, dn, dr⟩
      simp only [evOf, List.cons_append, List.nil_append, Registered]
      rw [rg y]
      constructor
      · exact .inr
      · rintro (rfl | h)
        · exact (rg _).mp hx
        · exact h
    · rw [if_neg (by rw [regFind_iff]; exact hx)] at h
      cases m with
      | false => cases h; exact ⟨rn, rg, dn, dr⟩
      | true =>
        simp only [Bool.not_true, Bool.false_eq_true, if_false] at h
        cases h
        refine ⟨List.nodup_cons.mpr ⟨hx, rn⟩, fun y => ?_, dn, dr⟩
        simp only [evOf, List.cons_append, List.nil_append, Registered, List.mem_cons]
        rw [rg y, eq_comm]
  | regDel x =>
    simp only [step, regDel] at h
    have ht : t = { s with reg := s.reg.erase x } := by
      by_cases hx : x ∈ s.reg
      · rw [if_pos ((regFind_iff s x).mpr hx)] at h
        cases h; rw [erase_name]
      · rw [if_neg (by rw [regFind_iff]; exact hx)] at h
        cases h; rw [List.erase_of_not_mem hx]
    subst ht
    refine ⟨rn.erase _, fun y => ?_, dn, dr⟩
    simp only [evOf, List.cons_append, List.nil_append, Registered]
    rw [rn.mem_erase_iff, rg y, ne_comm]
  | dirAdd x a m =>
    simp only [step, dirAdd] at h
    by_cases hx : (x, a) ∈ s.dir
    · rw [if_pos ((dirFind_iff s x a).mpr hx)] at h
      cases h
      exact ⟨rn, rg, dn, dr⟩
    · rw [if_neg (by rw [dirFind_iff]; exact hx)] at h
      cases m with
      | false => cases h; exact ⟨rn, rg, dn, dr⟩
      | true =>
        simp only [Bool.not_true, Bool.false_eq_true, if_false] at h
        cases h
        refine ⟨rn, rg, List.nodup_cons.mpr ⟨hx, dn⟩, fun y b => ?_⟩
        simp only [evOf, List.cons_append, List.nil_append, Known, List.mem_cons, Prod.mk.injEq]
        rw [dr y b, eq_comm (a := y), eq_comm (a := b)]
  | dirDel x a =>
    simp only [step, dirDel] at h
    have ht : t = { s with dir := s.dir.erase (x, a) } := by
      by_cases hx : (x, a) ∈ s.dir
      · rw [if_pos ((dirFind_iff s x a).mpr hx)] at h
        cases h; rw [erase_pair]
      · rw [if_neg (by rw [dirFind_iff]; exact hx)] at h
        cases h; rw [List.erase_of_not_mem hx]
    subst ht
    refine ⟨rn, rg, dn.erase _, fun y b => ?_⟩
    simp only [evOf, List.cons_append, List.nil_append, Known]
    rw [dn.mem_erase_iff, dr y b, ne_eq, Prod.mk.injEq, eq_comm (a := y), eq_comm (a := b)]
  | _ =>
    rcases same_tables h with ⟨h1, h2⟩ | ⟨_, _, h1⟩ | ⟨_, h1⟩ | ⟨_, _, _, h1⟩ | ⟨_, _, h1⟩
    · exact TabOk.same ⟨rn, rg, dn, dr⟩ h1 h2
    all_goals cases h1

/-! ## Queries -/

/-- What the specification is told about the queries. -/
def qevOf : Op H × Out → List QEv
  | (.respond _, .answers q) => [.answered q]
  | (.queryDestroy q, .done) => [.destroyed q]
  | (.queryDestroy q, .sleeps) => [.destroyed q]
  | (.waitWake q _, .ret r) => [.waited q r]
  | _ => []

/-- The log of a history, latest first. -/
def qevs (log : List (Op H × Out)) : List QEv := log.reverse.flatMap qevOf

/-- What holds of one query. -/
structure QOk (s : State H) (q : Nat) (e : Query H) : Prop where
  old : q < s.next
  init : e.state = .init → e.waiter = none ∧ e.dead = false
  pending : e.state = .pending → e.waiter.isSome ∨ e.dead
  response : e.state = .response → e.dead = true ∨ (e.waiter = some true ∧ ∃ w, s.holder = some (.responder q w))
  destroy : e.state = .destroy → e.dead = true ∨ (e.waiter = some true ∧ ∃ w, s.holder = some (.destroyer q w))
  done : e.state = .done → e.waiter = none ∧ e.dead = false
  dead : e.dead = true → e.waiter = none

/-- The invariant of the queries. -/
structure QInv (s : State H) : Prop where
  ok : ∀ q e, s.qs q = some e → QOk s q e
  listNodup : s.list.Nodup
  listed : ∀ q ∈ s.list, ∃ e, s.qs q = some e
  /-- a sleeping responder waits for a query in the list that was answered; if the waiter is through, it has been woken -/
  responder : ∀ q w, s.holder = some (.responder q w) → ∃ e, s.qs q = some e ∧ q ∈ s.list ∧ (e.state = .response ∨ (e.state = .done ∧ w = true))
  destroyer : ∀ q w, s.holder = some (.destroyer q w) → ∃ e, s.qs q = some e ∧ q ∉ s.list ∧ (e.state = .destroy ∨ (e.state = .done ∧ w = true))

theorem QOk.transfer {s t : State H} {p : Nat} {e : Query H} (h : QOk s p e) (hn : s.next ≤ t.next)
    (h1 : ∀ w, s.holder = some (.responder p w) → ∃ w', t.holder = some (.responder p w'))
    (h2 : ∀ w, s.holder = some (.destroyer p w) → ∃ w', t.holder = some (.destroyer p w')) : QOk t p e := by
  refine ⟨lt_of_lt_of_le h.old hn, h.init, h.pending, ?_, ?_, h.done, h.dead⟩
  · intro he
    rcases h.response he with h3 | ⟨h3, w, h4⟩
    · exact .inl h3
    · exact .inr ⟨h3, h1 w h4⟩
  · intro he
    rcases h.destroy he with h3 | ⟨h3, w, h4⟩
    · exact .inl h3
    · exact .inr ⟨h3, h2 w h4⟩

theorem upd_same (f : Nat → Option (Query H)) (q : Nat) (v : Option (Query H)) : upd f q v q = v := by simp [upd]

theorem upd_ne (f : Nat → Option (Query H)) {q p : Nat} (v : Option (Query H)) (h : p ≠ q) : upd f q v p = f p := by simp [upd, h]

theorem wakeHolder_responder {h : Option Holder} {q p : Nat} {w : Bool} :
    wakeHolder h q = some (.responder p w) ↔ ∃ w', h = some (.responder p w') ∧ w = (w' || decide (p = q)) := by
  cases h with
  | none => simp [wakeHolder]
  | some h =>
    cases h with
    | responder x y =>
      by_cases hx : x = q
      · subst hx; simp only [wakeHolder, if_true]
        constructor
        · intro h; cases h; exact ⟨_, rfl, by simp⟩
        · rintro ⟨w', h, rfl⟩; cases h; simp
      · simp only [wakeHolder, if_neg hx]
        constructor
        · intro h; cases h; exact ⟨_, rfl, by simp [hx]⟩
        · rintro ⟨w', h, rfl⟩; cases h; simp [hx]
    | destroyer x y => by_cases hx : x = q <;> simp [wakeHolder, hx]
    | stuck x => simp [wakeHolder]

theorem wakeHolder_destroyer {h : Option Holder} {q p : Nat} {w : Bool} :
    wakeHolder h q = some (.destroyer p w) ↔ ∃ w', h = some (.destroyer p w') ∧ w = (w' || decide (p = q)) := by
  cases h with
  | none => simp [wakeHolder]
  | some h =>
    cases h with
    | destroyer x y =>
      by_cases hx : x = q
      · subst hx; simp only [wakeHolder, if_true]
        constructor
        · intro h; cases h; exact ⟨_, rfl, by simp⟩
        · rintro ⟨w', h, rfl⟩; cases h; simp
      · simp only [wakeHolder, if_neg hx]
        constructor
        · intro h; cases h; exact ⟨_, rfl, by simp [hx]⟩
        · rintro ⟨w', h, rfl⟩; cases h; simp [hx]
    | responder x y => by_cases hx : x = q <;> simp [wakeHolder, hx]
    | stuck x => simp [wakeHolder]

theorem qinv_create : QInv (create : State H) := by
  refine ⟨?_, ?_, ?_, ?_, ?_⟩ <;> simp [create]

theorem QInv.same {s t : State H} (h : QInv s) (h1 : t.qs = s.qs) (h2 : t.list = s.list) (h3 : t.next = s.next) (h4 : t.holder = s.holder) :
    QInv t := by
  obtain ⟨a, b, c, d, e⟩ := h
  refine ⟨?_, ?_, ?_, ?_, ?_⟩
  · intro q x hq
    rw [h1] at hq
    exact (a q x hq).transfer (by rw [h3]) (fun w hw => ⟨w, by rw [h4]; exact hw⟩) (fun w hw => ⟨w, by rw [h4]; exact hw⟩)
  · rw [h2]; exact b
  · rw [h1, h2]; exact c
  · rw [h1, h2, h4]; exact d
  · rw [h1, h2, h4]; exact e

theorem findQuery_some {s : State H} {h : H} {q : Nat} {e : Query H} (hf : findQuery s h = some (q, e)) :
    q ∈ s.list ∧ s.qs q = some e ∧ e.hash = h := by
  unfold findQuery at hf
  split at hf
  · cases hf
  · rename_i p hp
    rw [Option.map_eq_some_iff] at hf
    obtain ⟨x, h1, h2⟩ := hf
    cases h2
    refine ⟨List.mem_of_find?_eq_some hp, h1, ?_⟩
    have := List.find?_some hp
    rw [h1] at this
    simpa using this

/-- Every step keeps the invariant. -/
theorem qinv_step {s t : State H} {op : Op H} {o : Out} (hs : QInv s) (h : step s op = .ok (t, o)) : QInv t := by
  have hs0 := hs
  obtain ⟨ok, ln, ls, rs, ds⟩ := hs
  cases op with
  | regAdd x m =>
    simp only [step, regAdd] at h
    cases h
    refine hs0.same ?_ ?_ ?_ ?_ <;> (repeat' split) <;> rfl
  | regDel x =>
    simp only [step, regDel] at h
    cases h
    refine hs0.same ?_ ?_ ?_ ?_ <;> (repeat' split) <;> rfl
  | dirAdd x a m =>
    simp only [step, dirAdd] at h
    cases h
    refine hs0.same ?_ ?_ ?_ ?_ <;> (repeat' split) <;> rfl
  | dirDel x a =>
    simp only [step, dirDel] at h
    cases h
    refine hs0.same ?_ ?_ ?_ ?_ <;> (repeat' split) <;> rfl
  | regHas x => cases h; exact hs0
  | dirHas x => cases h; exact hs0
  | dirGet x => cases h; exact hs0
  | queryCreate x m =>
    simp only [step, queryCreate] at h
    split at h
    · cases h; exact hs0
    split at h
    · cases h; exact hs0
    · rename_i hh
      cases h
      have hfresh : s.qs s.next = none := by
        cases hq : s.qs s.next with
        | none => rfl
        | some e => exact absurd (ok _ _ hq).old (lt_irrefl _)
      have hnl : s.next ∉ s.list := by
        intro hm
        obtain ⟨e, he⟩ := ls _ hm
        rw [hfresh] at he; cases he
      refine ⟨?_, List.nodup_cons.mpr ⟨hnl, ln⟩, ?_, ?_, ?_⟩
      · intro q e hq
        by_cases hqn : q = s.next
        · subst hqn
          dsimp only at hq; rw [upd_same] at hq
          cases hq
          exact ⟨Nat.lt_succ_self _, by simp, by simp, by simp, by simp, by simp, by simp⟩
        · dsimp only at hq; rw [upd_ne _ _ hqn] at hq
          exact (ok q e hq).transfer (Nat.le_succ _) (fun w hw => ⟨w, hw⟩) (fun w hw => ⟨w, hw⟩)
      · intro q hq
        rcases List.mem_cons.mp hq with rfl | hq
        · exact ⟨_, upd_same _ _ _⟩
        · obtain ⟨e, he⟩ := ls q hq
          refine ⟨e, ?_⟩
          dsimp only
          rw [upd_ne]
          · exact he
          · rintro rfl; exact hnl hq
      · intro q w hw
        exact absurd (by rw [show s.holder = _ from hw]; rfl) hh
      · intro q w hw
        exact absurd (by rw [show s.holder = _ from hw]; rfl) hh
  | waitStart q =>
    simp only [step, waitStart] at h
    split at h
    · cases h
    rename_i e he
    split at h
    · cases h; exact hs0
    split at h
    · cases h; exact hs0
    · rename_i hd hst
      cases h
      have hst : e.state = .init := by simpa using hst
      refine ⟨?_, ln, ?_, ?_, ?_⟩
      · intro p x hp
        by_cases hpq : p = q
        · subst hpq
          dsimp only at hp; rw [upd_same] at hp
          cases hp
          exact ⟨(ok _ _ he).old, by simp, by simp, by simp, by simp, by simp, by simpa using hd⟩
        · dsimp only at hp; rw [upd_ne _ _ hpq] at hp
          exact (ok p x hp).transfer (le_refl _) (fun w hw => ⟨w, hw⟩) (fun w hw => ⟨w, hw⟩)
      · intro p hp
        by_cases hpq : p = q
        · subst hpq; exact ⟨_, upd_same _ _ _⟩
        · obtain ⟨x, hx⟩ := ls p hp; exact ⟨x, by dsimp only; rw [upd_ne _ _ hpq]; exact hx⟩
      · intro p w hw
        obtain ⟨x, h1, h2, h3⟩ := rs p w hw
        have hpq : p ≠ q := by
          rintro rfl; rw [he] at h1; cases h1; rw [hst] at h3; simp at h3
        exact ⟨x, by dsimp only; rw [upd_ne _ _ hpq]; exact h1, h2, h3⟩
      · intro p w hw
        obtain ⟨x, h1, h2, h3⟩ := ds p w hw
        have hpq : p ≠ q := by
          rintro rfl; rw [he] at h1; cases h1; rw [hst] at h3; simp at h3
        exact ⟨x, by dsimp only; rw [upd_ne _ _ hpq]; exact h1, h2, h3⟩
  | waitWake q b =>
    simp only [step, waitWake] at h
    split at h
    · cases h
    rename_i e he
    split at h
    · cases h; exact hs0
    rename_i hw
    push Not at hw
    split at h
    · rename_i hp
      cases h
      refine ⟨?_, ln, ?_, ?_, ?_⟩
      · intro p x hpx
        by_cases hpq : p = q
        · subst hpq
          dsimp only at hpx; rw [upd_same] at hpx
          cases hpx
          exact ⟨(ok _ _ he).old, by simp [hp.1], by simp, by simp [hp.1], by simp [hp.1], by simp [hp.1], by simpa using hw.2⟩
        · dsimp only at hpx; rw [upd_ne _ _ hpq] at hpx
          exact (ok p x hpx).transfer (le_refl _) (fun w hw => ⟨w, hw⟩) (fun w hw => ⟨w, hw⟩)
      · intro p hpm
        by_cases hpq : p = q
        · subst hpq; exact ⟨_, upd_same _ _ _⟩
        · obtain ⟨x, hx⟩ := ls p hpm; exact ⟨x, by dsimp only; rw [upd_ne _ _ hpq]; exact hx⟩
      · intro p w hw
        obtain ⟨x, h1, h2, h3⟩ := rs p w hw
        have hpq : p ≠ q := by
          rintro rfl; rw [he] at h1; cases h1; rw [hp.1] at h3; simp at h3
        exact ⟨x, by dsimp only; rw [upd_ne _ _ hpq]; exact h1, h2, h3⟩
      · intro p w hw
        obtain ⟨x, h1, h2, h3⟩ := ds p w hw
        have hpq : p ≠ q := by
          rintro rfl; rw [he] at h1; cases h1; rw [hp.1] at h3; simp at h3
        exact ⟨x, by dsimp only; rw [upd_ne _ _ hpq]; exact h1, h2, h3⟩
    · cases h
      refine ⟨?_, ln, ?_, ?_, ?_⟩
      · intro p x hpx
        by_cases hpq : p = q
        · subst hpq
          dsimp only at hpx; rw [upd_same] at hpx
          cases hpx
          exact ⟨(ok _ _ he).old, by simp, by simp, by simp, by simp, by simpa using hw.2, by simp⟩
        · dsimp only at hpx; rw [upd_ne _ _ hpq] at hpx
          refine (ok p x hpx).transfer (le_refl _) (fun w hw => ?_) (fun w hw => ?_)
          · exact ⟨_, wakeHolder_responder.mpr ⟨w, hw, rfl⟩⟩
          · exact ⟨_, wakeHolder_destroyer.mpr ⟨w, hw, rfl⟩⟩
      · intro p hpm
        by_cases hpq : p = q
        · subst hpq; exact ⟨_, upd_same _ _ _⟩
        · obtain ⟨x, hx⟩ := ls p hpm; exact ⟨x, by dsimp only; rw [upd_ne _ _ hpq]; exact hx⟩
      · intro p w hw
        obtain ⟨w', hw', rfl⟩ := wakeHolder_responder.mp hw
        obtain ⟨x, h1, h2, h3⟩ := rs p w' hw'
        by_cases hpq : p = q
        · subst hpq
          exact ⟨_, upd_same _ _ _, h2, .inr ⟨rfl, by simp⟩⟩
        · refine ⟨x, by dsimp only; rw [upd_ne _ _ hpq]; exact h1, h2, ?_⟩
          simpa [hpq] using h3
      · intro p w hw
        obtain ⟨w', hw', rfl⟩ := wakeHolder_destroyer.mp hw
        obtain ⟨x, h1, h2, h3⟩ := ds p w' hw'
        by_cases hpq : p = q
        · subst hpq
          exact ⟨_, upd_same _ _ _, h2, .inr ⟨rfl, by simp⟩⟩
        · refine ⟨x, by dsimp only; rw [upd_ne _ _ hpq]; exact h1, h2, ?_⟩
          simpa [hpq] using h3
  | waitCancel q =>
    simp only [step, waitCancel] at h
    split at h
    · cases h
    rename_i e he
    split at h
    · cases h; exact hs0
    rename_i hw
    push Not at hw
    cases h
    have hoe := ok _ _ he
    have hst : e.state ≠ .init ∧ e.state ≠ .done := by
      refine ⟨fun h => ?_, fun h => ?_⟩
      · exact hw.1 (hoe.init h).1
      · exact hw.1 (hoe.done h).1
    refine ⟨?_, ln, ?_, ?_, ?_⟩
    · intro p x hp
      by_cases hpq : p = q
      · subst hpq
        dsimp only at hp; rw [upd_same] at hp
        cases hp
        exact ⟨hoe.old, fun h => absurd h hst.1, by simp, by simp, by simp, fun h => absurd h hst.2, by simp⟩
      · dsimp only at hp; rw [upd_ne _ _ hpq] at hp
        exact (ok p x hp).transfer (le_refl _) (fun w hw => ⟨w, hw⟩) (fun w hw => ⟨w, hw⟩)
    · intro p hp
      by_cases hpq : p = q
      · subst hpq; exact ⟨_, upd_same _ _ _⟩
      · obtain ⟨x, hx⟩ := ls p hp; exact ⟨x, by dsimp only; rw [upd_ne _ _ hpq]; exact hx⟩
    · intro p w hw
      obtain ⟨x, h1, h2, h3⟩ := rs p w hw
      by_cases hpq : p = q
      · subst hpq
        rw [he] at h1; cases h1
        exact ⟨_, upd_same _ _ _, h2, h3⟩
      · exact ⟨x, by dsimp only; rw [upd_ne _ _ hpq]; exact h1, h2, h3⟩
    · intro p w hw
      obtain ⟨x, h1, h2, h3⟩ := ds p w hw
      by_cases hpq : p = q
      · subst hpq
        rw [he] at h1; cases h1
        exact ⟨_, upd_same _ _ _, h2, h3⟩
      · exact ⟨x, by dsimp only; rw [upd_ne _ _ hpq]; exact h1, h2, h3⟩
  | respond x =>
    simp only [step, respond] at h
    split at h
    · cases h; exact hs0
    rename_i hh
    have hn : s.holder = none := by simpa using hh
    split at h
    · cases h; exact hs0
    rename_i q e hf
    obtain ⟨hql, he, _⟩ := findQuery_some hf
    split at h
    · cases h
      refine ⟨?_, ln, ls, by simp, by simp⟩
      intro p y hp
      exact (ok p y hp).transfer (le_refl _) (fun w hw => by rw [hn] at hw; cases hw) (fun w hw => by rw [hn] at hw; cases hw)
    rename_i hd
    split at h
    · cases h; exact hs0
    · rename_i hst
      have hst : e.state = .pending := by simpa using hst
      cases h
      have hoe := ok _ _ he
      have hwt : e.waiter.isSome := by
        rcases hoe.pending hst with h | h
        · exact h
        · exact absurd h hd
      refine ⟨?_, ln, ?_, ?_, by simp⟩
      · intro p y hp
        by_cases hpq : p = q
        · subst hpq
          dsimp only at hp; rw [upd_same] at hp
          cases hp
          refine ⟨hoe.old, by simp, by simp, fun _ => .inr ⟨?_, false, rfl⟩, by simp, by simp, fun h => absurd h hd⟩
          obtain ⟨b, hb⟩ := Option.isSome_iff_exists.mp hwt
          simp [hb]
        · dsimp only at hp; rw [upd_ne _ _ hpq] at hp
          exact (ok p y hp).transfer (le_refl _) (fun w hw => by rw [hn] at hw; cases hw) (fun w hw => by rw [hn] at hw; cases hw)
      · intro p hp
        by_cases hpq : p = q
        · subst hpq; exact ⟨_, upd_same _ _ _⟩
        · obtain ⟨y, hy⟩ := ls p hp; exact ⟨y, by dsimp only; rw [upd_ne _ _ hpq]; exact hy⟩
      · intro p w hw
        cases hw
        exact ⟨_, upd_same _ _ _, hql, .inl rfl⟩
  | respondWake =>
    simp only [step, respondWake] at h
    split at h
    · rename_i q w hho
      split at h
      · cases h
      rename_i e he
      split at h
      · cases h; exact hs0
      rename_i hd
      obtain ⟨e', he', hm, hst⟩ := rs q w hho
      rw [he] at he'; cases he'
      split at h
      · rename_i hr
        cases h
        refine ⟨?_, ln, ls, ?_, by simp⟩
        · intro p y hp
          refine (ok p y hp).transfer (le_refl _) (fun w hw => ?_) (fun w hw => by rw [hho] at hw; cases hw)
          rw [hho] at hw; cases hw; exact ⟨_, rfl⟩
        · intro p w hw
          cases hw
          exact ⟨e, he, hm, .inl hr⟩
      · rename_i hr
        cases h
        refine ⟨?_, ln, ls, by simp, by simp⟩
        intro p y hp
        have hy := ok p y hp
        refine ⟨hy.old, hy.init, hy.pending, ?_, ?_, hy.done, hy.dead⟩
        · intro hst
          rcases hy.response hst with h1 | ⟨_, w, h1⟩
          · exact .inl h1
          · rw [hho] at h1; cases h1
            rw [he] at hp; cases hp
            exact absurd hst hr
        · intro hst
          rcases hy.destroy hst with h1 | ⟨_, w, h1⟩
          · exact .inl h1
          · rw [hho] at h1; cases h1
    · cases h; exact hs0
  | queryDestroy q =>
    simp only [step, queryDestroy] at h
    split at h
    · cases h
    rename_i e he
    have hoe := ok _ _ he
    split at h
    · cases h; exact hs0
    rename_i hh
    have hn : s.holder = none := by simpa using hh
    have lne := ln.erase q
    have hno : ∀ {p : Nat} {y : Query H} {t : State H}, s.qs p = some y → s.next ≤ t.next → QOk t p y := fun hp hle =>
      (ok _ _ hp).transfer hle (fun w hw => by rw [hn] at hw; cases hw) (fun w hw => by rw [hn] at hw; cases hw)
    have hle : ∀ p ∈ s.list.erase q, p ≠ q ∧ p ∈ s.list := fun p hp => by
      rw [ln.mem_erase_iff] at hp; exact hp
    split at h
    · cases h
      refine ⟨fun p y hp => hno hp (le_refl _), lne, fun p hp => ls p (hle p hp).2, by simp, by simp⟩
    rename_i hd
    split at h
    · cases h
      refine ⟨?_, lne, ?_, by simp [hn], by simp [hn]⟩
      · intro p y hp
        by_cases hpq : p = q
        · subst hpq; dsimp only at hp; rw [upd_same] at hp; cases hp
        · dsimp only at hp; rw [upd_ne _ _ hpq] at hp; exact hno hp (le_refl _)
      · intro p hp
        obtain ⟨h1, h2⟩ := hle p hp
        dsimp only; rw [upd_ne _ _ h1]; exact ls p h2
    · rename_i hst
      cases h
      have hwt : e.waiter.isSome := by
        rcases hoe.pending hst with h | h
        · exact h
        · exact absurd h hd
      refine ⟨?_, lne, ?_, by simp, ?_⟩
      · intro p y hp
        by_cases hpq : p = q
        · subst hpq; dsimp only at hp; rw [upd_same] at hp; cases hp
          refine ⟨hoe.old, by simp, by simp, by simp, fun _ => .inr ⟨?_, false, rfl⟩, by simp, fun h => absurd h hd⟩
          obtain ⟨b, hb⟩ := Option.isSome_iff_exists.mp hwt
          simp [hb]
        · dsimp only at hp; rw [upd_ne _ _ hpq] at hp; exact hno hp (le_refl _)
      · intro p hp
        obtain ⟨h1, h2⟩ := hle p hp
        dsimp only; rw [upd_ne _ _ h1]; exact ls p h2
      · intro p w hw
        cases hw
        exact ⟨_, upd_same _ _ _, fun hm => (hle _ hm).1 rfl, .inl rfl⟩
    · rename_i hst
      rcases hoe.response hst with h1 | ⟨_, w, h1⟩
      · exact absurd h1 hd
      · rw [hn] at h1; cases h1
    · cases h
      refine ⟨?_, lne, ?_, by simp [hn], by simp [hn]⟩
      · intro p y hp
        by_cases hpq : p = q
        · subst hpq; dsimp only at hp; rw [upd_same] at hp; cases hp
        · dsimp only at hp; rw [upd_ne _ _ hpq] at hp; exact hno hp (le_refl _)
      · intro p hp
        obtain ⟨h1, h2⟩ := hle p hp
        dsimp only; rw [upd_ne _ _ h1]; exact ls p h2
    · rename_i hst
      rcases hoe.destroy hst with h1 | ⟨_, w, h1⟩
      · exact absurd h1 hd
      · rw [hn] at h1; cases h1
  | destroyWake =>
    simp only [step, destroyWake] at h
    split at h
    · rename_i q w hho
      split at h
      · cases h
      rename_i e he
      split at h
      · cases h; exact hs0
      rename_i hd
      obtain ⟨e', he', hm, hst⟩ := ds q w hho
      rw [he] at he'; cases he'
      split at h
      · rename_i hr
        cases h
        refine ⟨?_, ln, ls, by simp, ?_⟩
        · intro p y hp
          refine (ok p y hp).transfer (le_refl _) (fun w hw => by rw [hho] at hw; cases hw) (fun w hw => ?_)
          rw [hho] at hw; cases hw; exact ⟨_, rfl⟩
        · intro p w hw
          cases hw
          rcases hst with h1 | ⟨h1, _⟩
          · exact ⟨e, he, hm, .inl h1⟩
          · exact absurd h1 hr
      · cases h
        refine ⟨?_, ln, ?_, by simp, by simp⟩
        · intro p y hp
          by_cases hpq : p = q
          · subst hpq; dsimp only at hp; rw [upd_same] at hp; cases hp
          · dsimp only at hp; rw [upd_ne _ _ hpq] at hp
            exact (ok p y hp).transfer (le_refl _) (fun w hw => by rw [hho] at hw; cases hw)
              (fun w hw => by rw [hho] at hw; cases hw; exact absurd rfl hpq)
        · intro p hp
          have : p ≠ q := fun h => hm (h ▸ hp)
          dsimp only; rw [upd_ne _ _ this]; exact ls p hp
    · cases h; exact hs0

/-! ## Histories -/

/-- `s` is reached by a history with this log. -/
def Reached (s : State H) (log : List (Op H × Out)) : Prop := ∃ ops, run create ops = .ok (s, log)

theorem run_snoc {s : State H} {ops : List (Op H)} {op : Op H} {t : State H} {log : List (Op H × Out)}
    (h : run s (ops ++ [op]) = .ok (t, log)) :
    ∃ u l o, run s ops = .ok (u, l) ∧ step u op = .ok (t, o) ∧ log = l ++ [(op, o)] := by
  induction ops generalizing s log with
  | nil =>
    simp only [List.nil_append, run] at h
    cases hst : step s op with
    | ub => rw [hst] at h; cases h
    | ok r => rw [hst] at h; cases h; exact ⟨s, [], r.2, rfl, hst, rfl⟩
  | cons x ops ih =>
    simp only [List.cons_append, run] at h
    cases hst : step s x with
    | ub => rw [hst] at h; cases h
    | ok r =>
      rw [hst] at h
      simp only [Outcome.bind_ok] at h
      cases hr : run r.1 (ops ++ [op]) with
      | ub => rw [hr] at h; cases h
      | ok r2 =>
        rw [hr] at h
        cases h
        obtain ⟨u, l, o, h1, h2, h3⟩ := ih hr
        refine ⟨u, (x, r.2) :: l, o, ?_, h2, by rw [h3]; rfl⟩
        simp [run, hst, h1]

theorem reached_induction {P : State H → List (Op H × Out) → Prop} (h0 : P create [])
    (hstep : ∀ s log op t o, Reached s log → P s log → step s op = .ok (t, o) → P t (log ++ [(op, o)])) :
    ∀ s log, Reached s log → P s log := by
  rintro s log ⟨ops, h⟩
  induction ops using List.reverseRecOn generalizing s log with
  | nil => cases h; exact h0
  | append_singleton ops op ih =>
    obtain ⟨u, l, o, h1, h2, rfl⟩ := run_snoc h
    exact hstep u l op s o ⟨ops, h1⟩ (ih u l h1) h2

theorem reached_qinv {s : State H} {log : List (Op H × Out)} (h : Reached s log) : QInv s :=
  reached_induction (P := fun s _ => QInv s) qinv_create (fun _ _ _ _ _ _ hp hs => qinv_step hp hs) s log h

theorem reached_tab {s : State H} {log : List (Op H × Out)} (h : Reached s log) : TabOk s (evs log) := by
  refine reached_induction (P := fun s log => TabOk s (evs log)) ?_ ?_ s log h
  · refine ⟨?_, ?_, ?_, ?_⟩ <;> simp [create, evs, Registered, Known]
  · intro s log op t o _ hp hs
    rw [evs_snoc]; exact tabOk_step hp hs

end Ouro.ShimData
