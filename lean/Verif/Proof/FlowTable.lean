import Verif.Spec.FlowTable
import Verif.Proof.Tac

/-!
# The flow descriptors of a process: proofs
-/

namespace Ouro.FlowTable

theorem upd_same {α} (f : Nat → α) (i : Nat) (a : α) : upd f i a i = a := by simp [upd]
theorem upd_ne {α} (f : Nat → α) {i j : Nat} (a : α) (h : j ≠ i) : upd f i a j = f j := by simp [upd, h]

/-- What the library keeps for a deallocation, from the ledger. -/
def enc (fd i : Nat) : Stage → Dealloc
  | .checked => ⟨fd, false, none⟩
  | .flushed => ⟨fd, true, none⟩
  | .ready => ⟨fd, true, some (some i)⟩

/-- The library's state agrees with the ledger. -/
structure R (s : St) (L : Ledger) : Prop where
  used : s.used.Perm (L.live.map Prod.fst)
  nodup : (L.live.map Prod.fst).Nodup
  nodup2 : (L.live.map Prod.snd).Nodup
  range : ∀ p ∈ L.live, InRange p.1 ∧ p.2 < 10240
  slot : ∀ fd id, (fd, id) ∈ L.live → ∃ h, h ≠ Handle.stale ∧ s.slots fd = ⟨some id, .opened, .opened, .opened, h, true⟩
  free : ∀ fd, fd ∉ L.live.map Prod.fst → s.slots fd = clear
  ids : ∀ fd id, (fd, id) ∈ L.live → s.ids id = ⟨some (fd : Int), .allocated⟩
  unas : ∀ id, id ∉ L.live.map Prod.snd → (s.ids id).st = .init ∨ (s.ids id).st = .pending
  wait : ∀ t id, L.waits t = some id → id < 10240 ∧ (s.ids id).st ≠ .init
  known : ∀ id ∈ L.known, id ∉ L.live.map Prod.snd → (s.ids id).fd = some (-1)
  waits : s.waits = L.waits
  calls : ∀ t, L.calls t = none → s.calls t = none
  calls2 : ∀ t fd st, L.calls t = some (fd, st) → ∃ i, (fd, i) ∈ L.live ∧ s.calls t = some (enc fd i st)
  apart : ∀ t u fd st st', L.calls t = some (fd, st) → L.calls u = some (fd, st') → t = u
  hung : s.hung = false

theorem flowAt_none {L : Ledger} {fd : Nat} : L.flowAt fd = none ↔ fd ∉ L.live.map Prod.fst := by
  unfold Ledger.flowAt
  simp only [Option.map_eq_none_iff, List.find?_eq_none, List.mem_map, not_exists, not_and]
  constructor
  · intro h p hp e; exact h p hp (by simpa using e)
  · intro h p hp e; exact h p hp (by simpa using e)

theorem flowAt_some {L : Ledger} {fd id : Nat} (hn : (L.live.map Prod.fst).Nodup) :
    L.flowAt fd = some id ↔ (fd, id) ∈ L.live := by
  unfold Ledger.flowAt
  generalize L.live = l at hn
  induction l with
  | nil => simp
  | cons p l ih =>
    obtain ⟨a, b⟩ := p
    simp only [List.map_cons, List.nodup_cons] at hn
    by_cases h : a = fd
    · subst h
      simp only [List.find?_cons, beq_self_eq_true, Option.map_some, Option.some.injEq, List.mem_cons,
        Prod.mk.injEq, true_and]
      constructor
      · intro e; exact Or.inl e.symm
      · rintro (e | e)
        · exact e.symm
        · exact absurd (List.mem_map.mpr ⟨_, e, rfl⟩) hn.1
    · have hb : (a == fd) = false := by simpa using h
      simp only [List.find?_cons, hb, ih hn.2, List.mem_cons, Prod.mk.injEq]
      constructor
      · exact Or.inr
      · rintro (e | e)
        · exact absurd e.1.symm h
        · exact e

theorem fdFor_none {L : Ledger} {id : Nat} : L.fdFor id = none ↔ id ∉ L.live.map Prod.snd := by
  unfold Ledger.fdFor
  simp only [Option.map_eq_none_iff, List.find?_eq_none, List.mem_map, not_exists, not_and]
  constructor
  · intro h p hp e; exact h p hp (by simpa using e)
  · intro h p hp e; exact h p hp (by simpa using e)

theorem fdFor_some {L : Ledger} {fd id : Nat} (h : L.fdFor id = some fd) : (fd, id) ∈ L.live := by
  unfold Ledger.fdFor at h
  simp only [Option.map_eq_some_iff] at h
  obtain ⟨⟨a, b⟩, h1, h2⟩ := h
  have := List.mem_of_find?_eq_some h1
  have hb := List.find?_some h1
  simp only [beq_iff_eq] at hb h2
  subst hb; subst h2; exact this

theorem find_congr {α} {p q : α → Bool} {l : List α} (h : ∀ a ∈ l, p a = q a) : l.find? p = l.find? q := by
  induction l with
  | nil => rfl
  | cons a l ih =>
    rw [List.find?_cons, List.find?_cons, h a (by simp), ih (fun b hb => h b (by simp [hb]))]

theorem lowest_eq {s : St} {L : Ledger} (h : s.used.Perm (L.live.map Prod.fst)) : lowest s.used = L.free := by
  unfold lowest Ledger.free
  have e : List.range 4096 = List.range' 0 64 ++ List.range' 64 4032 := by
    rw [List.range_eq_range', ← List.range'_append (n := 4032) (m := 64) (s := 0) (step := 1)]
  rw [e, List.find?_append]
  have h0 : (List.range' 0 64).find? (fun fd => decide (InRange fd ∧ fd ∉ L.live.map Prod.fst)) = none := by
    rw [List.find?_eq_none]
    intro x hx
    simp only [List.mem_range'_1] at hx
    have hnr : ¬ InRange x := fun hr => by have := hr.1; omega
    simp [hnr]
  rw [h0, Option.none_or]
  refine find_congr ?_
  intro fd hfd
  simp only [RES_FDS, MAX_FLOWS, List.mem_range'_1] at hfd
  have hr : InRange fd := ⟨by omega, by omega⟩
  by_cases hm : fd ∈ L.live.map Prod.fst
  · have := h.mem_iff.mpr hm
    simp [hm, this]
  · have : fd ∉ s.used := fun hx => hm (h.mem_iff.mp hx)
    simp only [hr, hm, not_false_eq_true, and_self, decide_true, Bool.not_eq_eq_eq_not, Bool.not_true,
      List.contains_eq_mem, decide_eq_false_iff_not]
    exact this

theorem free_some {L : Ledger} {fd : Nat} (h : L.free = some fd) :
    InRange fd ∧ fd ∉ L.live.map Prod.fst ∧ ∀ e, InRange e → e < fd → e ∈ L.live.map Prod.fst := by
  unfold Ledger.free at h
  rw [List.find?_range_eq_some] at h
  obtain ⟨h1, h2, h3⟩ := h
  simp only [decide_eq_true_eq] at h1
  refine ⟨h1.1, h1.2, ?_⟩
  intro e he hlt
  have := h3 e hlt
  simp only [Bool.not_eq_true', decide_eq_false_iff_not, not_and, not_not] at this
  exact this he

theorem free_none {L : Ledger} (h : L.free = none) : ∀ e, InRange e → e ∈ L.live.map Prod.fst := by
  unfold Ledger.free at h
  rw [List.find?_eq_none] at h
  intro e he
  have := h e (List.mem_range.mpr he.2)
  simp only [decide_eq_true_eq, not_and, not_not] at this
  exact this he

theorem opened_sim {s : St} {L : Ledger} (h : R s L) {id : Nat} {rel : Bool} (hf : Fresh L id) :
    ∃ s', opened s id rel .none = .ok (s', (L.add id).2) ∧ R s' (L.add id).1 := by
  unfold opened flowInit Ledger.add
  rw [lowest_eq h.used]
  rcases hfree : L.free with _ | fd
  · exact ⟨s, rfl, h⟩
  · obtain ⟨hr, hnl, _⟩ := free_some hfree
    have hclr : s.slots fd = clear := h.free fd hnl
    have hid : ¬ SYS_MAX_FLOWS ≤ id := by have := hf.1; unfold SYS_MAX_FLOWS; omega
    have hst : (s.ids id).st ≠ .destroy := by rcases h.unas id hf.2 with e | e <;> rw [e] <;> decide
    have hfr : (s.slots fd).frcti = .null := by rw [hclr]; rfl
    simp only [ne_eq, not_true_eq_false, if_false, hfr, hid]
    refine ⟨_, rfl, ?_⟩
    have hasg : assign (s.ids id) fd = ⟨some (fd : Int), .allocated⟩ := by simp [assign, hst]
    rw [hasg]
    have hne : ∀ e i, (e, i) ∈ L.live → e ≠ fd ∧ i ≠ id := by
      intro e i hm
      refine ⟨?_, ?_⟩
      · rintro rfl; exact hnl (List.mem_map.mpr ⟨_, hm, rfl⟩)
      · rintro rfl; exact hf.2 (List.mem_map.mpr ⟨_, hm, rfl⟩)
    constructor
    case used => exact h.used.cons fd
    case nodup => simpa using ⟨by simpa using hnl, by simpa using h.nodup⟩
    case nodup2 => simpa using ⟨by simpa using hf.2, by simpa using h.nodup2⟩
    case range =>
      intro p hp
      rcases List.mem_cons.mp hp with rfl | hp
      · exact ⟨hr, hf.1⟩
      · exact h.range p hp
    case slot =>
      intro e i hm
      rcases List.mem_cons.mp hm with e1 | hm
      · simp only [Prod.mk.injEq] at e1
        obtain ⟨rfl, rfl⟩ := e1
        refine ⟨if rel then .opened else .null, ?_, ?_⟩
        · cases rel <;> decide
        · simp [upd]
      · obtain ⟨x, hx, hs⟩ := h.slot e i hm
        exact ⟨x, hx, by show upd s.slots fd _ e = _; rw [upd_ne _ _ (hne e i hm).1]; exact hs⟩
    case free =>
      intro e he
      simp only [List.map_cons, List.mem_cons, not_or] at he
      show upd s.slots fd _ e = clear
      rw [upd_ne _ _ he.1]; exact h.free e he.2
    case ids =>
      intro e i hm
      rcases List.mem_cons.mp hm with e1 | hm
      · simp only [Prod.mk.injEq] at e1
        obtain ⟨rfl, rfl⟩ := e1
        exact upd_same _ _ _
      · show upd s.ids id _ i = _
        rw [upd_ne _ _ (hne e i hm).2]; exact h.ids e i hm
    case unas =>
      intro i hi
      simp only [List.map_cons, List.mem_cons, not_or] at hi
      show (upd s.ids id _ i).st = _ ∨ (upd s.ids id _ i).st = _
      rw [upd_ne _ _ hi.1]; exact h.unas i hi.2
    case wait =>
      intro t i hw
      refine ⟨(h.wait t i hw).1, ?_⟩
      show (upd s.ids id _ i).st ≠ _
      by_cases e : i = id
      · subst e; rw [upd_same]; simp
      · rw [upd_ne _ _ e]; exact (h.wait t i hw).2
    case known =>
      intro i hk hi
      simp only [List.map_cons, List.mem_cons, not_or] at hi
      show (upd s.ids id _ i).fd = _
      rw [upd_ne _ _ hi.1]
      rcases List.mem_cons.mp hk with e | hk
      · exact absurd e hi.1
      · exact h.known i hk hi.2
    case waits => exact h.waits
    case calls => exact h.calls
    case calls2 =>
      intro t e st hc
      obtain ⟨i, h1, h2⟩ := h.calls2 t e st hc
      exact ⟨i, List.mem_cons_of_mem _ h1, h2⟩
    case apart => exact h.apart
    case hung => exact h.hung

theorem granted_eq (c : Api) (r : Reply) :
    granted (decide (c = .accept ∨ c = .alloc)) r = (replyDes (takesKey c) r).map Prod.fst := by
  have hk : decide (c = .accept ∨ c = .alloc) = takesKey c := by cases c <;> decide
  rw [hk]
  cases r with
  | lost => rfl
  | garbage => rfl
  | noResult => rfl
  | result r flow key =>
    rcases flow with _ | ⟨id, rel, enc⟩
    · by_cases h : r < 0 <;> simp [granted, replyDes, h, Except.map, EBADF]
    · by_cases h : r < 0
      · have h' : ¬ 0 ≤ r := by omega
        cases enc <;> cases key <;> simp [granted, replyDes, h, h', Except.map]
      · have h' : 0 ≤ r := by omega
        cases enc <;> cases key <;> cases hk : takesKey c <;> simp [granted, replyDes, h, h', Except.map, ECRYPT]

theorem filter_fst {l : List (Nat × Nat)} {fd : Nat} :
    (l.filter (fun p => p.1 ≠ fd)).map Prod.fst = (l.map Prod.fst).filter (fun x => x ≠ fd) := by
  induction l with
  | nil => rfl
  | cons p l ih =>
    by_cases h : p.1 = fd
    · simp [h] at ih ⊢; exact ih
    · simp [h] at ih ⊢; exact ih

theorem map_inj {f : Nat × Nat → Nat} {l : List (Nat × Nat)} (h : (l.map f).Nodup) {a b : Nat × Nat}
    (ha : a ∈ l) (hb : b ∈ l) (e : f a = f b) : a = b := by
  induction l with
  | nil => cases ha
  | cons x l ih =>
    simp only [List.map_cons, List.nodup_cons] at h
    rcases List.mem_cons.mp ha with ea | ha' <;> rcases List.mem_cons.mp hb with eb | hb'
    · rw [ea, eb]
    · exact absurd (List.mem_map.mpr ⟨b, hb', by rw [← e, ea]⟩) h.1
    · exact absurd (List.mem_map.mpr ⟨a, ha', by rw [e, eb]⟩) h.1
    · exact ih h.2 ha' hb'

/-- Finalising a live flow removes it from the ledger. -/
theorem flowFini_sim {s : St} {L : Ledger} (h : R s L) {fd id : Nat} (hm : (fd, id) ∈ L.live)
    (hw : ∀ u, L.waits u ≠ some id) (hc : ∀ u st, L.calls u ≠ some (fd, st)) :
    ∃ s', flowFini s fd = .ok s' ∧ R s' { L with live := L.live.filter (fun p => p.1 ≠ fd) } := by
  obtain ⟨x, hx, hs⟩ := h.slot fd id hm
  have hi := h.ids fd id hm
  unfold flowFini
  simp only [hs, hi, hx, if_false, reduceCtorEq, or_self]
  refine ⟨_, rfl, ?_⟩
  have huniq : ∀ e i, (e, i) ∈ L.live → e ≠ fd → i ≠ id := by
    intro e i hei hne he
    subst he
    have h1 := map_inj h.nodup2 hei hm rfl
    simp only [Prod.mk.injEq, and_true] at h1
    exact hne h1
  have huniq2 : ∀ i, (fd, i) ∈ L.live → i = id := by
    intro i hei
    have h1 := map_inj h.nodup hei hm rfl
    simpa using h1
  have hmem : ∀ e i, (e, i) ∈ L.live.filter (fun p => p.1 ≠ fd) ↔ (e, i) ∈ L.live ∧ e ≠ fd := by
    intro e i; simp [List.mem_filter]
  have hidout : ∀ i, i ∉ (L.live.filter (fun p => p.1 ≠ fd)).map Prod.snd → i = id ∨ i ∉ L.live.map Prod.snd := by
    intro i hi'
    by_cases e : i = id
    · exact Or.inl e
    · right
      intro hmm
      obtain ⟨⟨a, b⟩, hab, rfl⟩ := List.mem_map.mp hmm
      refine hi' (List.mem_map.mpr ⟨(a, b), (hmem a b).mpr ⟨hab, ?_⟩, rfl⟩)
      rintro rfl
      exact e (huniq2 b hab)
  constructor
  case used =>
    show (s.used.erase fd).Perm _
    rw [filter_fst]
    have hnd : s.used.Nodup := h.used.nodup_iff.mpr h.nodup
    rw [hnd.erase_eq_filter]
    have := h.used.filter (fun x => x != fd)
    refine this.trans (List.Perm.of_eq (List.filter_congr ?_))
    intro x _
    by_cases e : x = fd <;> simp [e]
  case nodup => rw [filter_fst]; exact h.nodup.filter _
  case nodup2 => exact h.nodup2.sublist (List.Sublist.map _ List.filter_sublist)
  case range => intro p hp; exact h.range p (List.mem_filter.mp hp).1
  case slot =>
    intro e i hei
    obtain ⟨h1, h2⟩ := (hmem e i).mp hei
    obtain ⟨y, hy, hs'⟩ := h.slot e i h1
    exact ⟨y, hy, by show upd s.slots fd clear e = _; rw [upd_ne _ _ h2]; exact hs'⟩
  case free =>
    intro e he
    show upd s.slots fd clear e = clear
    by_cases hefd : e = fd
    · subst hefd; exact upd_same _ _ _
    · rw [upd_ne _ _ hefd]
      refine h.free e ?_
      intro hmm
      rw [filter_fst] at he
      exact he (List.mem_filter.mpr ⟨hmm, by simpa using hefd⟩)
  case ids =>
    intro e i hei
    obtain ⟨h1, h2⟩ := (hmem e i).mp hei
    show upd s.ids id _ i = _
    rw [upd_ne _ _ (huniq e i h1 h2)]; exact h.ids e i h1
  case unas =>
    intro i hi'
    show (upd s.ids id _ i).st = _ ∨ (upd s.ids id _ i).st = _
    by_cases e : i = id
    · subst e; rw [upd_same]; exact Or.inl rfl
    · rw [upd_ne _ _ e]
      exact h.unas i ((hidout i hi').resolve_left e)
  case wait =>
    intro t i ht
    have hne : i ≠ id := by rintro rfl; exact hw t ht
    refine ⟨(h.wait t i ht).1, ?_⟩
    show (upd s.ids id _ i).st ≠ _
    rw [upd_ne _ _ hne]; exact (h.wait t i ht).2
  case known =>
    intro i hk hi'
    show (upd s.ids id _ i).fd = _
    by_cases e : i = id
    · subst e; rw [upd_same]
    · rw [upd_ne _ _ e]
      exact h.known i hk ((hidout i hi').resolve_left e)
  case waits => exact h.waits
  case calls => exact h.calls
  case calls2 =>
    intro t e st hce
    obtain ⟨i, h1, h2⟩ := h.calls2 t e st hce
    refine ⟨i, (hmem e i).mpr ⟨h1, ?_⟩, h2⟩
    rintro rfl; exact hc t st hce
  case apart => exact h.apart
  case hung => exact h.hung

theorem setCall {s : St} {L : Ledger} (h : R s L) {t fd i : Nat} {st : Stage} (hm : (fd, i) ∈ L.live)
    (hother : ∀ u st', u ≠ t → L.calls u ≠ some (fd, st')) :
    R { s with calls := upd s.calls t (some (enc fd i st)) } { L with calls := put L.calls t (some (fd, st)) } := by
  constructor
  case used => exact h.used
  case nodup => exact h.nodup
  case nodup2 => exact h.nodup2
  case range => exact h.range
  case slot => exact h.slot
  case free => exact h.free
  case ids => exact h.ids
  case unas => exact h.unas
  case wait => exact h.wait
  case known => exact h.known
  case waits => exact h.waits
  case calls =>
    intro u hu
    simp only [put] at hu
    by_cases e : u = t
    · simp [e] at hu
    · simp only [e, if_false] at hu
      show upd s.calls t _ u = none
      rw [upd_ne _ _ e]; exact h.calls u hu
  case calls2 =>
    intro u fd' st' hu
    simp only [put] at hu
    by_cases e : u = t
    · subst e
      simp only [if_true, Option.some.injEq, Prod.mk.injEq] at hu
      obtain ⟨rfl, rfl⟩ := hu
      exact ⟨i, hm, upd_same _ _ _⟩
    · simp only [e, if_false] at hu
      obtain ⟨j, h1, h2⟩ := h.calls2 u fd' st' hu
      exact ⟨j, h1, by show upd s.calls t _ u = _; rw [upd_ne _ _ e]; exact h2⟩
  case apart =>
    intro u v fd' st1 st2 hu hv
    simp only [put] at hu hv
    by_cases eu : u = t <;> by_cases ev : v = t
    · rw [eu, ev]
    · simp only [eu, ev, if_true, if_false, Option.some.injEq, Prod.mk.injEq] at hu hv
      rw [← hu.1] at hv
      exact absurd hv (hother v st2 ev)
    · simp only [eu, ev, if_true, if_false, Option.some.injEq, Prod.mk.injEq] at hu hv
      rw [← hv.1] at hu
      exact absurd hu (hother u st1 eu)
    · simp only [eu, ev, if_false] at hu hv
      exact h.apart u v fd' st1 st2 hu hv
  case hung => exact h.hung

theorem dropCall {s : St} {L : Ledger} (h : R s L) (t : Nat) :
    R { s with calls := upd s.calls t none } { L with calls := put L.calls t none } := by
  constructor
  case used => exact h.used
  case nodup => exact h.nodup
  case nodup2 => exact h.nodup2
  case range => exact h.range
  case slot => exact h.slot
  case free => exact h.free
  case ids => exact h.ids
  case unas => exact h.unas
  case wait => exact h.wait
  case known => exact h.known
  case waits => exact h.waits
  case calls =>
    intro u hu
    simp only [put] at hu
    show upd s.calls t _ u = none
    by_cases e : u = t
    · subst e; exact upd_same _ _ _
    · simp only [e, if_false] at hu
      rw [upd_ne _ _ e]; exact h.calls u hu
  case calls2 =>
    intro u fd' st' hu
    simp only [put] at hu
    by_cases e : u = t
    · simp [e] at hu
    · simp only [e, if_false] at hu
      obtain ⟨j, h1, h2⟩ := h.calls2 u fd' st' hu
      exact ⟨j, h1, by show upd s.calls t _ u = _; rw [upd_ne _ _ e]; exact h2⟩
  case apart =>
    intro u v fd' st1 st2 hu hv
    simp only [put] at hu hv
    by_cases eu : u = t
    · simp [eu] at hu
    · by_cases ev : v = t
      · simp [ev] at hv
      · simp only [eu, ev, if_false] at hu hv
        exact h.apart u v fd' st1 st2 hu hv
  case hung => exact h.hung

theorem step_sim {s : St} {L : Ledger} (h : R s L) (op : Op) (hp : Proper L op) :
    ∃ s', step s op = .ok (s', (L.step op).2) ∧ R s' (L.step op).1 := by
  cases op with
  | «open» c r f =>
    obtain ⟨rfl, hp⟩ := hp
    have hg := granted_eq c r
    simp only [step, Ledger.step]
    rcases hr : replyDes (takesKey c) r with e | ⟨id, rel⟩
    · rw [hr] at hg
      simp only [Except.map] at hg
      rw [hg]
      exact ⟨s, rfl, h⟩
    · rw [hr] at hg
      simp only [Except.map] at hg
      rw [hg]
      exact opened_sim h (hp id hg)
  | np1 id f =>
    obtain ⟨rfl, hp⟩ := hp
    simp only [step, Ledger.step]
    exact opened_sim h hp
  | check t ipcp fd =>
    obtain ⟨h1, h2, h3⟩ := hp
    simp only [step, Ledger.step]
    by_cases hb : fd < 0 ∨ 10240 ≤ fd
    · rw [if_pos hb, if_pos (show fd < 0 ∨ (SYS_MAX_FLOWS : Int) ≤ fd from hb)]
      exact ⟨s, rfl, h⟩
    · rw [if_neg hb, if_neg (show ¬ (fd < 0 ∨ (SYS_MAX_FLOWS : Int) ≤ fd) from hb),
        if_neg (show ¬ (MAX_FLOWS : Int) ≤ fd by unfold MAX_FLOWS; omega)]
      rcases hfl : L.flowAt fd.toNat with _ | id
      · rw [h.free _ (flowAt_none.mp hfl)]
        exact ⟨s, rfl, h⟩
      · have hm := (flowAt_some h.nodup).mp hfl
        obtain ⟨x, _, hs⟩ := h.slot _ _ hm
        rw [hs]
        refine ⟨_, rfl, ?_⟩
        have := setCall h (t := t) (st := if ipcp then .ready else .checked) hm (fun u st' _ => h2 u st')
        cases ipcp <;> exact this
  | flush t =>
    simp only [step, Ledger.step]
    rcases hc : L.calls t with _ | ⟨fd, st⟩
    · rw [h.calls t hc]; exact ⟨s, rfl, h⟩
    · obtain ⟨i, hm, hsc⟩ := h.calls2 t fd st hc
      rw [hsc]
      cases st with
      | checked =>
        obtain ⟨x, _, hs⟩ := h.slot _ _ hm
        refine ⟨{ s with calls := upd s.calls t (some (enc fd i .flushed)) }, ?_, ?_⟩
        · simp [enc, hs]
        · exact setCall h hm (fun u st' hu he => hu (h.apart u t fd st' .checked he hc))
      | flushed => exact ⟨s, rfl, h⟩
      | ready => exact ⟨s, rfl, h⟩
  | send t =>
    simp only [step, Ledger.step]
    rcases hc : L.calls t with _ | ⟨fd, st⟩
    · rw [h.calls t hc]; exact ⟨s, rfl, h⟩
    · obtain ⟨i, hm, hsc⟩ := h.calls2 t fd st hc
      rw [hsc]
      have hfl := (flowAt_some (fd := fd) (id := i) h.nodup).mpr hm
      obtain ⟨x, _, hs⟩ := h.slot _ _ hm
      have hset := setCall h (t := t) (st := .ready) hm (fun u st' hu he => hu (h.apart u t fd st' st he hc))
      cases st with
      | checked => exact ⟨s, rfl, h⟩
      | flushed =>
        refine ⟨{ s with calls := upd s.calls t (some (enc fd i .ready)) }, ?_, hset⟩
        simp [enc, hs, hfl]
      | ready =>
        refine ⟨s, ?_, ?_⟩
        · simp [enc, hfl]
        · have hu1 : put L.calls t (some (fd, .ready)) = L.calls := by
            funext u; unfold put; split
            · rename_i e; rw [e, hc]
            · rfl
          simp only [hu1]; exact h
  | done t r =>
    simp only [step, Ledger.step]
    rcases hc : L.calls t with _ | ⟨fd, st⟩
    · rw [h.calls t hc]; exact ⟨s, rfl, h⟩
    · obtain ⟨i, hm, hsc⟩ := h.calls2 t fd st hc
      rw [hsc]
      cases st with
      | checked => exact ⟨s, rfl, h⟩
      | flushed => exact ⟨s, rfl, h⟩
      | ready =>
        cases r with
        | none => exact ⟨_, rfl, dropCall h t⟩
        | some r =>
          have hw : ∀ u, L.waits u ≠ some i := by
            rcases hp with hp | hp
            · cases hp
            · exact hp fd .ready i hc hm
          obtain ⟨s', hs', hR⟩ := flowFini_sim (dropCall h t) (fd := fd) (id := i) hm hw (by
            intro u st' hu
            simp only [put] at hu
            by_cases e : u = t
            · simp [e] at hu
            · simp only [e, if_false] at hu
              exact e (h.apart u t fd st' .ready hu hc))
          refine ⟨s', ?_, hR⟩
          simp [enc, hs']
  | use fd =>
    simp only [step, Ledger.step]
    by_cases hb : fd < 0 ∨ 4096 ≤ fd
    · rw [if_pos hb, if_pos (show fd < 0 ∨ (MAX_FLOWS : Int) ≤ fd from hb)]
      exact ⟨s, rfl, h⟩
    · rw [if_neg hb, if_neg (show ¬ (fd < 0 ∨ (MAX_FLOWS : Int) ≤ fd) from hb)]
      rcases hfl : L.flowAt fd.toNat with _ | id
      · rw [h.free _ (flowAt_none.mp hfl)]
        exact ⟨s, rfl, h⟩
      · obtain ⟨x, _, hs⟩ := h.slot _ _ ((flowAt_some h.nodup).mp hfl)
        rw [hs]
        exact ⟨s, rfl, h⟩
  | fdOf id =>
    simp only [step, Ledger.step]
    rw [if_neg (by have := hp.1; unfold SYS_MAX_FLOWS; omega)]
    rcases hfd : L.fdFor id with _ | fd
    · have := h.known id hp.2 (fdFor_none.mp hfd)
      simp only [fdOut, this]
      exact ⟨s, rfl, h⟩
    · rw [h.ids fd id (fdFor_some hfd)]
      exact ⟨s, rfl, h⟩
  | await t id =>
    simp only [step, Ledger.step]
    rw [if_neg (by have := hp.1; unfold SYS_MAX_FLOWS; omega)]
    rcases hfd : L.fdFor id with _ | fd
    · have hn := fdFor_none.mp hfd
      have hput : ∀ (w : Nat → Option Nat), upd w t (some id) = put w t (some id) := fun w => rfl
      have hkey : R { s with ids := upd s.ids id { s.ids id with st := .pending }, waits := upd s.waits t (some id) }
          { L with waits := put L.waits t (some id) } := by
        constructor
        case used => exact h.used
        case nodup => exact h.nodup
        case nodup2 => exact h.nodup2
        case range => exact h.range
        case slot => exact h.slot
        case free => exact h.free
        case ids =>
          intro e i hei
          show upd s.ids id _ i = _
          have hne : i ≠ id := by rintro rfl; exact hn (List.mem_map.mpr ⟨_, hei, rfl⟩)
          rw [upd_ne _ _ hne]; exact h.ids e i hei
        case unas =>
          intro i hi
          show (upd s.ids id _ i).st = _ ∨ (upd s.ids id _ i).st = _
          by_cases e : i = id
          · subst e; rw [upd_same]; exact Or.inr rfl
          · rw [upd_ne _ _ e]; exact h.unas i hi
        case wait =>
          intro u i hu
          simp only [put] at hu
          show _ ∧ (upd s.ids id _ i).st ≠ _
          by_cases e : i = id
          · subst e; rw [upd_same]; exact ⟨hp.1, by simp⟩
          · rw [upd_ne _ _ e]
            by_cases eu : u = t
            · simp only [eu, if_true, Option.some.injEq] at hu
              exact absurd hu.symm e
            · simp only [eu, if_false] at hu
              exact h.wait u i hu
        case known =>
          intro i hk hi
          show (upd s.ids id _ i).fd = _
          by_cases e : i = id
          · subst e; rw [upd_same]; exact h.known i hk hi
          · rw [upd_ne _ _ e]; exact h.known i hk hi
        case waits => show upd s.waits t _ = put L.waits t _; rw [h.waits]; rfl
        case calls => exact h.calls
        case calls2 => exact h.calls2
        case apart => exact h.apart
        case hung => exact h.hung
      rcases h.unas id hn with e | e
      · simp only [e]
        exact ⟨_, rfl, hkey⟩
      · simp only [e]
        refine ⟨_, rfl, ?_⟩
        have hids : upd s.ids id { s.ids id with st := .pending } = s.ids := by
          funext j; unfold upd; split
          · rename_i ej; subst ej; rw [← e]
          · rfl
        rw [hids] at hkey; exact hkey
    · rw [h.ids fd id (fdFor_some hfd)]
      exact ⟨s, rfl, h⟩
  | wake t =>
    simp only [step, Ledger.step]
    rw [h.waits]
    rcases hw : L.waits t with _ | id
    · exact ⟨s, rfl, h⟩
    · simp only []
      rcases hfd : L.fdFor id with _ | fd
      · have hn := fdFor_none.mp hfd
        have : (s.ids id).st = .pending := (h.unas id hn).resolve_left (h.wait t id hw).2
        rw [this]
        exact ⟨s, rfl, h⟩
      · rw [h.ids fd id (fdFor_some hfd)]
        refine ⟨_, rfl, ?_⟩
        constructor
        case used => exact h.used
        case nodup => exact h.nodup
        case nodup2 => exact h.nodup2
        case range => exact h.range
        case slot => exact h.slot
        case free => exact h.free
        case ids => exact h.ids
        case unas => exact h.unas
        case wait =>
          intro u i hu
          simp only [put] at hu
          by_cases eu : u = t
          · simp [eu] at hu
          · simp only [eu, if_false] at hu; exact h.wait u i hu
        case known => exact h.known
        case waits => rfl
        case calls => exact h.calls
        case calls2 => exact h.calls2
        case apart => exact h.apart
        case hung => exact h.hung

theorem start_R : R start Ledger.empty := by
  constructor
  case used => exact List.Perm.nil
  case nodup => exact List.nodup_nil
  case nodup2 => exact List.nodup_nil
  case range => intro p hp; cases hp
  case slot => intro _ _ hp; cases hp
  case free => intro _ _; rfl
  case ids => intro _ _ hp; cases hp
  case unas => intro _ _; exact Or.inl rfl
  case wait => intro _ _ hp; cases hp
  case known => intro _ hp; cases hp
  case waits => rfl
  case calls => intro _ _; rfl
  case calls2 => intro _ _ _ hp; cases hp
  case apart => intro _ _ _ _ _ hp; cases hp
  case hung => rfl

theorem run_sim {s : St} {L : Ledger} (h : R s L) (ops : List Op) (hp : ProperAll L ops) :
    ∃ s', run s ops = .ok (s', L.outs ops) ∧ R s' (L.run ops) := by
  induction ops generalizing s L with
  | nil => exact ⟨s, rfl, h⟩
  | cons op ops ih =>
    obtain ⟨s1, h1, hR⟩ := step_sim h op hp.1
    obtain ⟨s2, h2, hR2⟩ := ih hR hp.2
    refine ⟨s2, ?_, hR2⟩
    simp only [run, h1, h2, Ledger.outs]

theorem quiet_R {s : St} {L : Ledger} (h : R s L) :
    R { s with calls := fun _ => none, waits := fun _ => none }
      { L with calls := fun _ => none, waits := fun _ => none } := by
  constructor
  case used => exact h.used
  case nodup => exact h.nodup
  case nodup2 => exact h.nodup2
  case range => exact h.range
  case slot => exact h.slot
  case free => exact h.free
  case ids => exact h.ids
  case unas => exact h.unas
  case wait => intro _ _ hw; cases hw
  case known => exact h.known
  case waits => rfl
  case calls => intro _ _; rfl
  case calls2 => intro _ _ _ hc; cases hc
  case apart => intro _ _ _ _ _ hc; cases hc
  case hung => exact h.hung

theorem exitLoop_ok {s : St} {L : Ledger} (h : R s L) (hw : ∀ t, L.waits t = none) (hc : ∀ t, L.calls t = none)
    (l : List Nat) :
    ∃ s', exitLoop s l = .ok s' ∧ R s' { L with live := L.live.filter (fun p => p.1 ∉ l) } := by
  induction l generalizing s L with
  | nil =>
    refine ⟨s, rfl, ?_⟩
    have : L.live.filter (fun p => decide (p.1 ∉ ([] : List Nat))) = L.live := by simp
    rw [this]; exact h
  | cons fd l ih =>
    unfold exitLoop
    rw [h.hung]
    simp only [Bool.false_eq_true, if_false]
    rcases hfl : L.flowAt fd with _ | id
    · have hn := flowAt_none.mp hfl
      rw [h.free _ hn, if_pos (show clear.id = none from rfl)]
      obtain ⟨s', h1, h2⟩ := ih h hw hc
      refine ⟨s', h1, ?_⟩
      have : L.live.filter (fun p => decide (p.1 ∉ fd :: l)) = L.live.filter (fun p => decide (p.1 ∉ l)) := by
        refine List.filter_congr ?_
        intro p hp
        have : p.1 ≠ fd := fun e => hn (List.mem_map.mpr ⟨p, hp, e⟩)
        simp [this]
      rw [this]; exact h2
    · have hm := (flowAt_some h.nodup).mp hfl
      obtain ⟨x, hx, hs⟩ := h.slot _ _ hm
      rw [hs]
      simp only [reduceCtorEq, if_false, ne_eq, not_true_eq_false]
      obtain ⟨s1, h1, hR⟩ := flowFini_sim h hm (fun u => by rw [hw u]; simp) (fun u st => by rw [hc u]; simp)
      rw [h1]
      obtain ⟨s2, h2, hR2⟩ := ih hR hw hc
      refine ⟨s2, h2, ?_⟩
      have : L.live.filter (fun p => decide (p.1 ∉ fd :: l))
          = (L.live.filter (fun p => decide (p.1 ≠ fd))).filter (fun p => decide (p.1 ∉ l)) := by
        rw [List.filter_filter]
        refine List.filter_congr ?_
        intro p _
        by_cases e1 : p.1 = fd <;> by_cases e2 : p.1 ∈ l <;> simp [e1, e2]
      rw [this]; exact hR2

theorem empty_of_R {s : St} {L : Ledger} (h : R s L) (hl : L.live = []) : Empty s := by
  refine ⟨?_, ?_, h.hung⟩
  · have := h.used; rw [hl] at this; exact this.eq_nil
  · intro fd; exact h.free fd (by simp [hl])

theorem upd_comm {α} (f : Nat → α) {i j : Nat} (a b : α) (h : i ≠ j) : upd (upd f j b) i a = upd (upd f i a) j b := by
  funext k; unfold upd
  by_cases h1 : k = i <;> by_cases h2 : k = j <;> simp [h1, h2]
  · omega
  · intro e; exact absurd e h
  · intro e; exact absurd e.symm h

theorem flowFini_upd (s : St) {fd i : Nat} (b : Slot) (h : i ≠ fd) :
    flowFini { s with slots := upd s.slots fd b } i = match flowFini s i with
      | .ub => .ub
      | .ok s' => .ok { s' with slots := upd s'.slots fd b } := by
  unfold flowFini
  simp only [upd_ne _ _ h]
  split
  · rfl
  · split
    · split
      · rfl
      · split
        · rfl
        · split
          · rfl
          · simp only [upd_comm _ _ _ h]
    · split
      · rfl
      · split
        · rfl
        · simp only [upd_comm _ _ _ h]

theorem exitLoop_bad {s : St} {L : Ledger} (h : R s L) (hw : ∀ t, L.waits t = none) (hc : ∀ t, L.calls t = none)
    {fd : Nat} {b : Slot} (hb : b.id ≠ none) (hrx : b.rx ≠ .opened) (l : List Nat) (hl : fd ∈ l) :
    exitLoop { s with slots := upd s.slots fd b } l = .ub := by
  induction l generalizing s L with
  | nil => cases hl
  | cons i l ih =>
    unfold exitLoop
    rw [if_neg (show ¬ (({ s with slots := upd s.slots fd b } : St).hung = true) by simp [h.hung])]
    by_cases e : i = fd
    · subst e
      simp only [upd_same, hb, if_false, hrx, ne_eq, not_false_eq_true, if_true]
    · have hl' : fd ∈ l := by
        rcases List.mem_cons.mp hl with e' | e'
        · exact absurd e'.symm e
        · exact e'
      simp only [upd_ne _ _ e]
      rcases hfl : L.flowAt i with _ | id
      · rw [h.free _ (flowAt_none.mp hfl), if_pos (show clear.id = none from rfl)]
        exact ih h hw hc hl'
      · have hm := (flowAt_some h.nodup).mp hfl
        obtain ⟨x, hx, hs⟩ := h.slot _ _ hm
        rw [hs]
        simp only [reduceCtorEq, if_false, ne_eq, not_true_eq_false]
        obtain ⟨s1, h1, hR⟩ := flowFini_sim h hm (fun u => by rw [hw u]; simp) (fun u st => by rw [hc u]; simp)
        rw [flowFini_upd s b e, h1]
        exact ih hR hw hc hl'

theorem run_append (L : Ledger) (a b : List Op) : L.run (a ++ b) = (L.run a).run b := by
  simp [Ledger.run]

theorem ProperAll_append {L : Ledger} {a b : List Op} (h : ProperAll L (a ++ b)) :
    ProperAll L a ∧ ProperAll (L.run a) b := by
  induction a generalizing L with
  | nil => exact ⟨trivial, h⟩
  | cons op a ih =>
    obtain ⟨h1, h2⟩ := ih h.2
    exact ⟨⟨h.1, h1⟩, h2⟩

/-- A flow stays in the ledger when nobody deallocates its descriptor. -/
theorem keep {L : Ledger} {fd id : Nat} (ops : List Op) (hm : (fd, id) ∈ L.live)
    (hc : ∀ t st, L.calls t ≠ some (fd, st)) (hn : ∀ op ∈ ops, ∀ t b, op ≠ .check t b (fd : Int)) :
    (fd, id) ∈ (L.run ops).live := by
  induction ops generalizing L with
  | nil => exact hm
  | cons op ops ih =>
    have hput : ∀ t fd' st', fd' ≠ fd → ∀ u st, put L.calls t (some (fd', st')) u ≠ some (fd, st) := by
      intro t fd' st' hne u st
      unfold put; split
      · intro e; simp only [Option.some.injEq, Prod.mk.injEq] at e; exact hne e.1
      · exact hc u st
    have hputn : ∀ t, ∀ u st, put L.calls t none u ≠ some (fd, st) := by
      intro t u st
      unfold put; split
      · simp
      · exact hc u st
    have key : (fd, id) ∈ (L.step op).1.live ∧ ∀ t st, (L.step op).1.calls t ≠ some (fd, st) := by
      have hadd : ∀ i, (fd, id) ∈ (L.add i).1.live ∧ ∀ t st, (L.add i).1.calls t ≠ some (fd, st) := by
        intro i; unfold Ledger.add; split
        · exact ⟨hm, hc⟩
        · exact ⟨List.mem_cons_of_mem _ hm, hc⟩
      cases op with
      | «open» c r f =>
        simp only [Ledger.step]; split
        · exact ⟨hm, hc⟩
        · exact hadd _
      | np1 i f => simp only [Ledger.step]; exact hadd i
      | check t b fd' =>
        simp only [Ledger.step]; split
        · exact ⟨hm, hc⟩
        · rename_i hb
          split
          · exact ⟨hm, hc⟩
          · refine ⟨hm, hput t _ _ ?_⟩
            intro e
            exact hn (.check t b fd') (by simp) t b (by congr 1; omega)
      | flush t =>
        simp only [Ledger.step]; split
        · rename_i fd' he
          exact ⟨hm, hput t fd' _ (by rintro rfl; exact hc t _ he)⟩
        · exact ⟨hm, hc⟩
      | send t =>
        simp only [Ledger.step]; split
        · exact ⟨hm, hc⟩
        · rename_i fd' st' _ he
          exact ⟨hm, hput t fd' _ (by rintro rfl; exact hc t _ he)⟩
        · exact ⟨hm, hc⟩
      | done t r =>
        simp only [Ledger.step]; split
        · rename_i fd' he
          split
          · exact ⟨hm, hputn t⟩
          · refine ⟨List.mem_filter.mpr ⟨hm, ?_⟩, hputn t⟩
            simp only [ne_eq, decide_eq_true_eq]
            rintro rfl; exact hc t _ he
        · exact ⟨hm, hc⟩
      | use fd' => simp only [Ledger.step]; split <;> [skip; split] <;> exact ⟨hm, hc⟩
      | fdOf i => simp only [Ledger.step]; split <;> exact ⟨hm, hc⟩
      | await t i => simp only [Ledger.step]; split <;> exact ⟨hm, hc⟩
      | wake t => simp only [Ledger.step]; split <;> [skip; split] <;> exact ⟨hm, hc⟩
    exact ih key.1 key.2 (fun o ho => hn o (List.mem_cons_of_mem _ ho))

/-! ### A check of proper use, for concrete histories -/

/-- The thread of a step. -/
def thread : Op → Nat
  | .check t _ _ | .flush t | .send t | .done t _ | .await t _ | .wake t => t
  | _ => 0

/-- `Proper`, checked for threads below `n`. -/
def properB (n : Nat) (L : Ledger) (op : Op) : Bool :=
  decide (thread op < n) && match op with
  | .open c r f => decide (f = .none) && (match granted (decide (c = .accept ∨ c = .alloc)) r with
    | .error _ => true
    | .ok id => decide (id < 10240 ∧ id ∉ L.live.map Prod.snd))
  | .np1 id f => decide (f = .none) && decide (id < 10240 ∧ id ∉ L.live.map Prod.snd)
  | .check t _ fd => decide (L.calls t = none) &&
      (List.range n).all (fun u => decide ((L.calls u).map Prod.fst ≠ some fd.toNat)) && decide (fd < 4096 ∨ 10240 ≤ fd)
  | .done t r => decide (r = none) || (match L.calls t with
    | none => true
    | some (fd, _) => L.live.all (fun p => decide (p.1 ≠ fd) || (List.range n).all (fun u => decide (L.waits u ≠ some p.2))))
  | .fdOf id => decide (id < 10240 ∧ id ∈ L.known)
  | .await t id => decide (id < 10240 ∧ L.waits t = none)
  | _ => true

/-- `ProperAll`, checked. -/
def properAllB (n : Nat) : Ledger → List Op → Bool
  | _, [] => true
  | L, op :: ops => properB n L op && properAllB n (L.step op).1 ops

/-- No thread from `n` up is inside of the library. -/
def Below (n : Nat) (L : Ledger) : Prop := ∀ u, n ≤ u → L.calls u = none ∧ L.waits u = none

theorem put_below {α} {n t : Nat} {f : Nat → Option α} {a : Option α} (ht : t < n) (h : ∀ u, n ≤ u → f u = none) :
    ∀ u, n ≤ u → put f t a u = none := by
  intro u hu
  unfold put
  rw [if_neg (by omega)]
  exact h u hu

theorem add_below {n : Nat} {L : Ledger} (h : Below n L) (i : Nat) : Below n (L.add i).1 := by
  unfold Ledger.add; split <;> exact h

section
attribute [local irreducible] Ledger.free Ledger.add

theorem step_below {n : Nat} {L : Ledger} (h : Below n L) {op : Op} (ht : thread op < n) : Below n (L.step op).1 := by
  have hc : ∀ u, n ≤ u → L.calls u = none := fun u hu => (h u hu).1
  have hw : ∀ u, n ≤ u → L.waits u = none := fun u hu => (h u hu).2
  have hadd : ∀ i, Below n (L.add i).1 := by
    intro i; exact add_below h i
  cases op <;> simp only [thread] at ht <;> simp only [Ledger.step] <;> (repeat' split) <;>
    first
      | exact h
      | exact hadd _
      | exact fun u hu => ⟨put_below ht hc u hu, hw u hu⟩
      | exact fun u hu => ⟨hc u hu, put_below ht hw u hu⟩

end

theorem properB_sound {n : Nat} {L : Ledger} (hb : Below n L) {op : Op} (h : properB n L op = true) : Proper L op := by
  unfold properB at h
  rw [Bool.and_eq_true] at h
  obtain ⟨_, h⟩ := h
  cases op with
  | «open» c r f =>
    simp only [Bool.and_eq_true, decide_eq_true_eq] at h
    refine ⟨h.1, ?_⟩
    intro id hg
    have h2 := h.2
    rw [hg] at h2
    simpa [Fresh] using h2
  | np1 id f =>
    simp only [Bool.and_eq_true, decide_eq_true_eq] at h
    exact h
  | check t b fd =>
    simp only [Bool.and_eq_true, decide_eq_true_eq, List.all_eq_true, List.mem_range] at h
    refine ⟨h.1.1, ?_, h.2⟩
    intro u st hu
    by_cases hun : u < n
    · exact h.1.2 u hun (by rw [hu]; rfl)
    · rw [(hb u (by omega)).1] at hu; cases hu
  | flush t => trivial
  | send t => trivial
  | done t r =>
    simp only [Bool.or_eq_true, decide_eq_true_eq] at h
    rcases h with h | h
    · exact Or.inl h
    · right
      intro fd st id hc hm u hu
      rw [hc] at h
      simp only [List.all_eq_true, Bool.or_eq_true, decide_eq_true_eq, List.mem_range] at h
      rcases h (fd, id) hm with e | e
      · exact e rfl
      · by_cases hun : u < n
        · exact e u hun hu
        · rw [(hb u (by omega)).2] at hu; cases hu
  | use fd => trivial
  | fdOf id => simpa [Proper] using h
  | await t id => simpa [Proper] using h
  | wake t => trivial

theorem properAllB_sound {n : Nat} {L : Ledger} (hb : Below n L) {ops : List Op} (h : properAllB n L ops = true) :
    ProperAll L ops := by
  induction ops generalizing L with
  | nil => trivial
  | cons op ops ih =>
    unfold properAllB at h
    rw [Bool.and_eq_true] at h
    have ht : thread op < n := by
      have := h.1; unfold properB at this; rw [Bool.and_eq_true] at this; simpa using this.1
    exact ⟨properB_sound hb h.1, ih (step_below hb ht) h.2⟩

theorem empty_below (n : Nat) : Below n Ledger.empty := fun _ _ => ⟨rfl, rfl⟩

end Ouro.FlowTable
