import Verif.Spec.Connmgr
import Verif.Proof.Tac

namespace Ouro.Connmgr

theorem upd_same {α : Type} (f : Nat → α) (i : Nat) (x : α) : upd f i x i = x := by simp [upd]
theorem upd_ne {α : Type} (f : Nat → α) {i j : Nat} (x : α) (h : j ≠ i) : upd f i x j = f j := by simp [upd, h]

/-- The pending connections of a component. -/
def pend (s : State) (id : Nat) : List Conn := match s.comps id with
  | some c => c.pending
  | none => []

/-- The connections of a component. -/
def held (s : State) (id : Nat) : List Conn := match s.comps id with
  | some c => c.conns
  | none => []

theorem pend_upd {s : State} {id : Nat} {c : Comp} (s' : State) (h : s'.comps = upd s.comps id (some c)) (i : Nat) :
    pend s' i = if i = id then c.pending else pend s i := by
  unfold pend; rw [h]
  by_cases hi : i = id
  · subst hi; simp [upd_same]
  · rw [upd_ne _ _ hi]; simp [hi]

theorem held_upd {s : State} {id : Nat} {c : Comp} (s' : State) (h : s'.comps = upd s.comps id (some c)) (i : Nat) :
    held s' i = if i = id then c.conns else held s i := by
  unfold held; rw [h]
  by_cases hi : i = id
  · subst hi; simp [upd_same]
  · rw [upd_ne _ _ hi]; simp [hi]

theorem run_cons {s : State} {op : Op} {ops : List Op} {x : State × List (Op × Out)} (h : run s (op :: ops) = .ok x) :
    ∃ r, step s op = .ok r ∧ ∃ y, run r.1 ops = .ok y ∧ x = (y.1, (op, r.2) :: y.2) := by
  simp only [run] at h
  cases h1 : step s op with
  | ub => rw [h1] at h; cases h
  | ok r =>
    rw [h1] at h
    simp only [Outcome.bind_ok] at h
    cases h2 : run r.1 ops with
    | ub => rw [h2] at h; cases h
    | ok y =>
      rw [h2] at h
      simp only [Outcome.bind_ok, Outcome.pure_eq, Outcome.ok.injEq] at h
      exact ⟨r, rfl, y, h2, h.symm⟩

theorem run_snoc {s : State} (ops : List Op) (op : Op) {x : State × List (Op × Out)} (h : run s (ops ++ [op]) = .ok x) :
    ∃ y r, run s ops = .ok y ∧ step y.1 op = .ok r ∧ x = (r.1, y.2 ++ [(op, r.2)]) := by
  induction ops generalizing s x with
  | nil =>
    obtain ⟨r, h1, y, h2, rfl⟩ := run_cons h
    simp only [run] at h2; cases h2
    exact ⟨(s, []), r, rfl, h1, rfl⟩
  | cons o ops ih =>
    obtain ⟨r, h1, y, h2, rfl⟩ := run_cons h
    obtain ⟨z, r', h3, h4, h5⟩ := ih h2
    refine ⟨(z.1, (o, r.2) :: z.2), r', ?_, h4, ?_⟩
    · simp only [run, h1, Outcome.bind_ok, h3, Outcome.pure_eq]
    · rw [h5]; rfl

/-- Everything the code does to the lists, seen from one step. -/
def Eff (s : State) (r : State × Out) : Prop :=
    (∃ id x, r.2 = .accepted id x ∧ x.num = s.next ∧ r.1.next = s.next + 1 ∧ (∀ i, pend r.1 i = if i = id then x :: pend s id else pend s i) ∧ (∀ i, held r.1 i = held s i) ∧
      r.1.opening = s.opening ∧ r.1.closing = s.closing) ∨
    (∃ id x l, r.2 = .returned id x ∧ r.1.next = s.next ∧ pend s id = x :: l ∧ (∀ i, pend r.1 i = if i = id then l else pend s i) ∧ (∀ i, held r.1 i = if i = id then x :: held s id else held s i) ∧
      r.1.opening = s.opening ∧ r.1.closing = s.closing) ∨
    (∃ id x, r.2 = .opened id x ∧ x.num = s.next ∧ r.1.next = s.next + 1 ∧ (∀ i, pend r.1 i = pend s i) ∧ (∀ i, held r.1 i = held s i) ∧ r.1.opening = (id, x) :: s.opening ∧ r.1.closing = s.closing) ∨
    (∃ id x, r.2 = .inserted id x ∧ (id, x) ∈ s.opening ∧ r.1.next = s.next ∧ (∀ i, pend r.1 i = pend s i) ∧ (∀ i, held r.1 i = if i = id then x :: held s id else held s i) ∧
      r.1.opening = s.opening.erase (id, x) ∧ r.1.closing = s.closing) ∨
    (∃ id x, r.2 = .closed id x ∧ (id, x) ∈ s.closing ∧ r.1.next = s.next ∧ x ∈ held s id ∧ (∀ i, pend r.1 i = pend s i) ∧ (∀ i, held r.1 i = if i = id then (held s id).erase x else held s i) ∧
      r.1.opening = s.opening ∧ r.1.closing = s.closing.erase (id, x)) ∨
    ((∀ id x, r.2 ≠ .accepted id x ∧ r.2 ≠ .returned id x ∧ r.2 ≠ .opened id x ∧ r.2 ≠ .inserted id x ∧ r.2 ≠ .closed id x) ∧ r.1.next = s.next ∧
      (∀ i, pend r.1 i = pend s i) ∧ (∀ i, held r.1 i = held s i) ∧ r.1.opening = s.opening ∧ (r.1.closing = s.closing ∨ ∃ e, r.1.closing = e :: s.closing ∧ e.2 ∈ held s e.1))

theorem Eff.triv (s : State) (o : Out) (ho : ∀ id x, o ≠ .accepted id x ∧ o ≠ .returned id x ∧ o ≠ .opened id x ∧ o ≠ .inserted id x ∧ o ≠ .closed id x) : Eff s (s, o) :=
  Or.inr (Or.inr (Or.inr (Or.inr (Or.inr ⟨ho, rfl, fun _ => rfl, fun _ => rfl, rfl, .inl rfl⟩))))

theorem step_lists {s : State} {op : Op} {r : State × Out} (h : step s op = .ok r) : Eff s r := by
  cases op <;> simp only [step] at h
  case compInit id info =>
    split at h
    · rename_i hid
      cases h
      refine .inr (.inr (.inr (.inr (.inr ⟨by simp, rfl, ?_, ?_, rfl, .inl rfl⟩))))
      · intro i
        rw [pend_upd (s := s) (id := id) (c := ⟨info, [], []⟩) _ rfl]
        split
        · rename_i hi; subst hi
          have : s.comps i = none := by simpa using hid.2
          simp [pend, this]
        · rfl
      · intro i
        rw [held_upd (s := s) (id := id) (c := ⟨info, [], []⟩) _ rfl]
        split
        · rename_i hi; subst hi
          have : s.comps i = none := by simpa using hid.2
          simp [held, this]
        · rfl
    · cases h; exact Eff.triv s .no (by simp)
  case accept fd rcv sent =>
    split at h
    · cases h; exact Eff.triv s (.refused fd) (by simp)
    · rename_i id hid
      split at h
      · cases h; exact Eff.triv s (.refused fd) (by simp)
      · split at h
        · cases h
        · rename_i c hc
          cases h
          refine .inl ⟨id, ⟨s.next, fd, rcv, none⟩, rfl, rfl, rfl, ?_, ?_, rfl, rfl⟩
          · intro i
            rw [pend_upd (s := s) (id := id) (c := { c with pending := _ :: c.pending }) _ rfl]
            have : pend s id = c.pending := by simp [pend, hc]
            rw [this]
          · intro i
            rw [held_upd (s := s) (id := id) (c := { c with pending := _ :: c.pending }) _ rfl]
            split
            · rename_i hi; subst hi; simp [held, hc]
            · rfl
  case wait id =>
    split at h
    · cases h
    · rename_i c hc
      split at h
      · cases h; exact Eff.triv s .no (by simp)
      · rename_i x l hp
        cases h
        refine .inr (.inl ⟨id, x, l, rfl, rfl, by simp [pend, hc, hp], ?_, ?_, rfl, rfl⟩)
        · intro i
          rw [pend_upd (s := s) (id := id) (c := { c with pending := l, conns := x :: c.conns }) _ rfl]
        · intro i
          rw [held_upd (s := s) (id := id) (c := { c with pending := l, conns := x :: c.conns }) _ rfl]
          have : held s id = c.conns := by simp [held, hc]
          rw [this]
  case connect dst comp flow peer =>
    split at h
    · cases h; exact Eff.triv s (.ret (-1)) (by simp)
    · split at h
      · cases h
      · split at h
        · cases h; exact Eff.triv s (.ret (-1)) (by simp)
        · split at h
          · cases h; exact Eff.triv s (.refused _) (by simp)
          · split at h
            · cases h
              exact .inr (.inr (.inl ⟨_, _, rfl, rfl, rfl, fun _ => rfl, fun _ => rfl, rfl, rfl⟩))
            · cases h; exact Eff.triv s (.refused _) (by simp)
  case insert num =>
    split at h
    · cases h; exact Eff.triv s .no (by simp)
    · rename_i e he
      split at h
      · cases h
      · rename_i c hc
        cases h
        refine .inr (.inr (.inr (.inl ⟨e.1, e.2, rfl, List.mem_of_find?_eq_some he, rfl, ?_, ?_, rfl, rfl⟩)))
        · intro i
          rw [pend_upd (s := s) (id := e.1) (c := { c with conns := e.2 :: c.conns }) _ rfl]
          split
          · rename_i hi; subst hi; simp [pend, hc]
          · rfl
        · intro i
          rw [held_upd (s := s) (id := e.1) (c := { c with conns := e.2 :: c.conns }) _ rfl]
          have : held s e.1 = c.conns := by simp [held, hc]
          rw [this]
  case disconnect dst comp =>
    split at h
    · cases h; exact Eff.triv s (.ret (-1)) (by simp)
    · rename_i id hid
      split at h
      · cases h
      · rename_i c hc
        cases hs : scan dst c.conns with
        | ub => rw [hs] at h; cases h
        | ok o =>
          rw [hs, Outcome.bind_ok] at h
          cases o with
          | none => cases h; exact Eff.triv s (.ret 0) (by simp)
          | some x =>
            cases h
            have hx : x ∈ c.conns := by
              clear hc
              revert hs
              generalize c.conns = l
              intro hs
              induction l with
              | nil => cases hs
              | cons y l ih =>
                simp only [scan] at hs
                split at hs
                · cases hs
                · split at hs
                  · cases hs; exact List.mem_cons_self
                  · exact List.mem_cons_of_mem _ (ih hs)
            refine .inr (.inr (.inr (.inr (.inr ⟨by simp, rfl, fun _ => rfl, fun _ => rfl, rfl, .inr ⟨(id, x), rfl, ?_⟩⟩))))
            simpa [held, hc] using hx
  case remove num =>
    split at h
    · cases h; exact Eff.triv s .no (by simp)
    · rename_i e he
      split at h
      · cases h
      · rename_i c hc
        split at h
        · rename_i hm
          cases h
          have hh : held s e.1 = c.conns := by simp [held, hc]
          refine .inr (.inr (.inr (.inr (.inl ⟨e.1, e.2, rfl, List.mem_of_find?_eq_some he, rfl, by rw [hh]; exact hm, ?_, ?_, rfl, rfl⟩))))
          · intro i
            rw [pend_upd (s := s) (id := e.1) (c := { c with conns := c.conns.erase e.2 }) _ rfl]
            split
            · rename_i hi; subst hi; simp [pend, hc]
            · rfl
          · intro i
            rw [held_upd (s := s) (id := e.1) (c := { c with conns := c.conns.erase e.2 }) _ rfl, hh]
        · cases h
  case event fd =>
    split at h
    · cases h
    · cases h; exact Eff.triv s (.found _) (by simp)

/-- The invariant. -/
structure Inv (s : State) (l : Log) : Prop where
  pend_ : ∀ id c, seen l (.accepted id c) = seen l (.returned id c) + (pend s id).count c
  len : ∀ id, (l.map (·.2)).countP (isAccept id) = (l.map (·.2)).countP (isReturn id) + (pend s id).length
  held_ : ∀ id c, seen l (.returned id c) + seen l (.inserted id c) = seen l (.closed id c) + (held s id).count c
  open_ : ∀ id c, seen l (.opened id c) = seen l (.inserted id c) + s.opening.count (id, c)
  old : ∀ id c, Out.accepted id c ∈ l.map (·.2) ∨ Out.opened id c ∈ l.map (·.2) → c.num < s.next
  one : ∀ id c, seen l (.accepted id c) + seen l (.opened id c) ≤ 1

theorem seen_snoc (l : Log) (op : Op) (o o' : Out) : seen (l ++ [(op, o)]) o' = seen l o' + if o = o' then 1 else 0 := by
  simp only [seen, List.map_append, List.map_cons, List.map_nil, List.count_append, List.count_singleton]
  congr 1
  simp

theorem seen_pos {l : Log} {o : Out} : o ∈ l.map (·.2) ↔ 0 < seen l o := by
  unfold seen; rw [List.count_pos_iff]

theorem seen_zero {l : Log} {o : Out} : o ∉ l.map (·.2) ↔ seen l o = 0 := by
  unfold seen; rw [List.count_eq_zero]

theorem inv_step {s : State} {l : Log} (hI : Inv s l) {op : Op} {r : State × Out} (h : step s op = .ok r) : Inv r.1 (l ++ [(op, r.2)]) := by
  have e := step_lists h
  obtain ⟨s', o⟩ := r
  clear h
  simp only at e ⊢
  have hcnt : ∀ p : Out → Bool, ((l ++ [(op, o)]).map (·.2)).countP p = (l.map (·.2)).countP p + if p o then 1 else 0 := by
    intro p; simp only [List.map_append, List.map_cons, List.map_nil, List.countP_append, List.countP_singleton]
  have hmem : ∀ q, q ∈ (l ++ [(op, o)]).map (·.2) ↔ q ∈ l.map (·.2) ∨ q = o := by
    intro q; simp only [List.map_append, List.map_cons, List.map_nil, List.mem_append, List.mem_singleton]
  have new0 : ∀ x : Conn, x.num = s.next → ∀ id, seen l (.accepted id x) = 0 ∧ seen l (.opened id x) = 0 := by
    intro x hx id
    constructor
    · rw [← seen_zero]; intro hh; have := hI.old id x (.inl hh); omega
    · rw [← seen_zero]; intro hh; have := hI.old id x (.inr hh); omega
  rcases e with ⟨id, x, ho, hn, hn', hp, hh, hop, hcl⟩ | ⟨id, x, l', ho, hn', hpx, hp, hh, hop, hcl⟩ | ⟨id, x, ho, hn, hn', hp, hh, hop, hcl⟩ |
    ⟨id, x, ho, hx, hn', hp, hh, hop, hcl⟩ | ⟨id, x, ho, hx, hn', hxh, hp, hh, hop, hcl⟩ | ⟨ho, hn', hp, hh, hop, hcl⟩
  · simp only at ho; subst ho
    constructor
    · intro i c
      rw [seen_snoc, seen_snoc, hp, hI.pend_]
      by_cases hi : i = id
      · subst hi
        simp only [reduceIte, List.count_cons]
        by_cases hc : c = x
        · subst hc; simp; omega
        · have : x ≠ c := fun h => hc h.symm
          simp [this]
      · have : id ≠ i := fun h => hi h.symm
        simp [hi, this]
    · intro i
      rw [hcnt, hcnt, hp, hI.len]
      by_cases hi : i = id
      · subst hi; simp [isAccept, isReturn]; omega
      · have : id ≠ i := fun h => hi h.symm
        simp [hi, this, isAccept, isReturn]
    · intro i c; simp only [seen_snoc]; rw [hh]; simpa using hI.held_ i c
    · intro i c; simp only [seen_snoc]; rw [hop]; simpa using hI.open_ i c
    · intro i c hc
      rw [hmem, hmem] at hc
      simp only at *; rw [hn']
      rcases hc with (hc | hc) | (hc | hc)
      · have := hI.old i c (.inl hc); omega
      · cases hc; omega
      · have := hI.old i c (.inr hc); omega
      · cases hc
    · intro i c
      simp only [seen_snoc]
      by_cases hc : c = x
      · subst hc
        have := new0 c hn i
        simp only [reduceCtorEq, if_false]
        split <;> omega
      · have hne : Out.accepted id x ≠ Out.accepted i c := by rintro ⟨⟩; exact hc rfl
        simpa [hne] using hI.one i c
  · simp only at ho; subst ho
    constructor
    · intro i c
      rw [seen_snoc, seen_snoc, hp, hI.pend_]
      by_cases hi : i = id
      · subst hi
        rw [hpx]
        simp only [reduceIte, List.count_cons]
        by_cases hc : c = x
        · subst hc; simp; omega
        · have : x ≠ c := fun h => hc h.symm
          simp [this]
      · have : id ≠ i := fun h => hi h.symm
        simp [hi, this]
    · intro i
      rw [hcnt, hcnt, hp, hI.len]
      by_cases hi : i = id
      · subst hi; rw [hpx]; simp [isAccept, isReturn]; omega
      · have : id ≠ i := fun h => hi h.symm
        simp [hi, this, isAccept, isReturn]
    · intro i c
      simp only [seen_snoc]; rw [hh]
      have := hI.held_ i c
      by_cases hi : i = id
      · subst hi
        simp only [reduceIte, List.count_cons]
        by_cases hc : c = x
        · subst hc; simp; omega
        · have : x ≠ c := fun h => hc h.symm
          simp [this]; omega
      · have : id ≠ i := fun h => hi h.symm
        simp [hi, this]; omega
    · intro i c; simp only [seen_snoc]; rw [hop]; simpa using hI.open_ i c
    · intro i c hc
      rw [hmem, hmem] at hc
      rw [hn']
      apply hI.old i c
      rcases hc with (hc | hc) | (hc | hc)
      · exact .inl hc
      · cases hc
      · exact .inr hc
      · cases hc
    · intro i c; simp only [seen_snoc]; simpa using hI.one i c
  · simp only at ho; subst ho
    constructor
    · intro i c; simp only [seen_snoc]; rw [hp]; simpa using hI.pend_ i c
    · intro i; rw [hcnt, hcnt, hp]; simpa [isAccept, isReturn] using hI.len i
    · intro i c; simp only [seen_snoc]; rw [hh]; simpa using hI.held_ i c
    · intro i c
      simp only [seen_snoc]; rw [hop, hI.open_ i c, List.count_cons]
      by_cases hc : id = i ∧ x = c
      · obtain ⟨rfl, rfl⟩ := hc; simp; omega
      · have h1 : Out.opened id x ≠ Out.opened i c := by rintro ⟨⟩; exact hc ⟨rfl, rfl⟩
        have h2 : ((id, x) == (i, c)) = false := by rw [beq_eq_false_iff_ne]; rintro ⟨⟩; exact hc ⟨rfl, rfl⟩
        simp [h1, h2]
    · intro i c hc
      rw [hmem, hmem] at hc
      simp only at *; rw [hn']
      rcases hc with (hc | hc) | (hc | hc)
      · have := hI.old i c (.inl hc); omega
      · cases hc
      · have := hI.old i c (.inr hc); omega
      · cases hc; omega
    · intro i c
      simp only [seen_snoc]
      by_cases hc : c = x
      · subst hc
        have := new0 c hn i
        simp only [reduceCtorEq, if_false]
        split <;> omega
      · have hne : Out.opened id x ≠ Out.opened i c := by rintro ⟨⟩; exact hc rfl
        simpa [hne] using hI.one i c
  · simp only at ho; subst ho
    constructor
    · intro i c; simp only [seen_snoc]; rw [hp]; simpa using hI.pend_ i c
    · intro i; rw [hcnt, hcnt, hp]; simpa [isAccept, isReturn] using hI.len i
    · intro i c
      simp only [seen_snoc]; rw [hh]
      have := hI.held_ i c
      by_cases hi : i = id
      · subst hi
        simp only [reduceIte, List.count_cons]
        by_cases hc : c = x
        · subst hc; simp; omega
        · have : x ≠ c := fun h => hc h.symm
          simp [this]; omega
      · have : id ≠ i := fun h => hi h.symm
        simp [hi, this]; omega
    · intro i c
      simp only [seen_snoc]; rw [hop, hI.open_ i c, List.count_erase]
      by_cases hc : id = i ∧ x = c
      · obtain ⟨rfl, rfl⟩ := hc
        have : 0 < s.opening.count (id, x) := List.count_pos_iff.2 hx
        simp; omega
      · have h1 : Out.inserted id x ≠ Out.inserted i c := by rintro ⟨⟩; exact hc ⟨rfl, rfl⟩
        have h2 : ((id, x) == (i, c)) = false := by rw [beq_eq_false_iff_ne]; rintro ⟨⟩; exact hc ⟨rfl, rfl⟩
        simp [h1, h2]
    · intro i c hc
      rw [hmem, hmem] at hc
      rw [hn']
      apply hI.old i c
      rcases hc with (hc | hc) | (hc | hc)
      · exact .inl hc
      · cases hc
      · exact .inr hc
      · cases hc
    · intro i c; simp only [seen_snoc]; simpa using hI.one i c
  · simp only at ho; subst ho
    constructor
    · intro i c; simp only [seen_snoc]; rw [hp]; simpa using hI.pend_ i c
    · intro i; rw [hcnt, hcnt, hp]; simpa [isAccept, isReturn] using hI.len i
    · intro i c
      simp only [seen_snoc]; rw [hh]
      have := hI.held_ i c
      by_cases hi : i = id
      · subst hi
        simp only [reduceIte, List.count_erase]
        by_cases hc : c = x
        · subst hc
          have : 0 < (held s i).count c := List.count_pos_iff.2 hxh
          simp; omega
        · have : x ≠ c := fun h => hc h.symm
          simp [this]; omega
      · have : id ≠ i := fun h => hi h.symm
        simp [hi, this]; omega
    · intro i c; simp only [seen_snoc]; rw [hop]; simpa using hI.open_ i c
    · intro i c hc
      rw [hmem, hmem] at hc
      rw [hn']
      apply hI.old i c
      rcases hc with (hc | hc) | (hc | hc)
      · exact .inl hc
      · cases hc
      · exact .inr hc
      · cases hc
    · intro i c; simp only [seen_snoc]; simpa using hI.one i c
  · simp only at ho
    have h1 := fun i c => (ho i c).1
    have h2 := fun i c => (ho i c).2.1
    have h3 := fun i c => (ho i c).2.2.1
    have h4 := fun i c => (ho i c).2.2.2.1
    have h5 := fun i c => (ho i c).2.2.2.2
    have hA : ∀ i, isAccept i o = false := by
      intro i; cases o <;> first | rfl | exact absurd rfl (h1 _ _)
    have hR : ∀ i, isReturn i o = false := by
      intro i; cases o <;> first | rfl | exact absurd rfl (h2 _ _)
    constructor
    · intro i c; simp only [seen_snoc]; rw [hp]; simpa [h1, h2] using hI.pend_ i c
    · intro i; rw [hcnt, hcnt, hp]; simpa [hA, hR] using hI.len i
    · intro i c; simp only [seen_snoc]; rw [hh]; simpa [h2, h4, h5] using hI.held_ i c
    · intro i c; simp only [seen_snoc]; rw [hop]; simpa [h3, h4] using hI.open_ i c
    · intro i c hc
      rw [hmem, hmem] at hc
      rw [hn']
      apply hI.old i c
      rcases hc with (hc | hc) | (hc | hc)
      · exact .inl hc
      · exact absurd hc.symm (h1 _ _)
      · exact .inr hc
      · exact absurd hc.symm (h3 _ _)
    · intro i c; simp only [seen_snoc]; simpa [h1, h3] using hI.one i c

theorem inv_init : Inv init [] := by
  constructor <;> simp [seen, init, pend, held]

theorem inv_run (ops : List Op) : ∀ {x : State × Log}, run init ops = .ok x → Inv x.1 x.2 := by
  induction ops using List.reverseRecOn with
  | nil => intro x h; simp only [run] at h; cases h; exact inv_init
  | append_singleton ops op ih =>
    intro x h
    obtain ⟨y, r, h1, h2, rfl⟩ := run_snoc ops op h
    exact inv_step (ih h1) h2

theorem run_append {s : State} (a b : List Op) {x y : State × Log} (ha : run s a = .ok x) (hb : run x.1 b = .ok y) :
    run s (a ++ b) = .ok (y.1, x.2 ++ y.2) := by
  induction a generalizing s x with
  | nil => simp only [run] at ha; cases ha; simpa using hb
  | cons o a ih =>
    obtain ⟨r, h1, z, h2, rfl⟩ := run_cons ha
    simp only [List.cons_append, run, h1, Outcome.bind_ok, ih h2 hb, Outcome.pure_eq]

/-- The component stays registered as it was. -/
theorem comps_mono {s : State} {op : Op} {r : State × Out} (h : step s op = .ok r) {id : Nat} {c : Comp} (hc : s.comps id = some c) :
    ∃ c', r.1.comps id = some c' ∧ c'.info = c.info := by
  have key : ∀ (s' : State) (j : Nat) (d d' : Comp), s.comps j = some d → s'.comps = upd s.comps j (some d') → d'.info = d.info → ∃ c', s'.comps id = some c' ∧ c'.info = c.info := by
    intro s' j d d' hd hs hi
    by_cases hj : id = j
    · subst hj; rw [hd] at hc; cases hc; exact ⟨d', by rw [hs, upd_same], hi⟩
    · exact ⟨c, by rw [hs, upd_ne _ _ hj, hc], rfl⟩
  have same : ∀ s' : State, s'.comps = s.comps → ∃ c', s'.comps id = some c' ∧ c'.info = c.info := fun s' hs => ⟨c, by rw [hs, hc], rfl⟩
  cases op <;> simp only [step] at h
  case compInit j info =>
    split at h
    · rename_i hj
      cases h
      have hne : id ≠ j := by rintro rfl; rw [hc] at hj; simp at hj
      exact ⟨c, by show upd s.comps j _ id = _; rw [upd_ne _ _ hne, hc], rfl⟩
    · cases h; exact same _ rfl
  case accept =>
    split at h
    · cases h; exact same _ rfl
    · split at h
      · cases h; exact same _ rfl
      · split at h
        · cases h
        · rename_i hd
          cases h; exact key _ _ _ _ hd rfl rfl
  case wait =>
    split at h
    · cases h
    · rename_i hd
      split at h
      · cases h; exact same _ rfl
      · cases h; exact key _ _ _ _ hd rfl rfl
  case connect =>
    split at h
    · cases h; exact same _ rfl
    · split at h
      · cases h
      · split at h
        · cases h; exact same _ rfl
        · split at h
          · cases h; exact same _ rfl
          · split at h
            · cases h; exact same _ rfl
            · cases h; exact same _ rfl
  case insert =>
    split at h
    · cases h; exact same _ rfl
    · split at h
      · cases h
      · rename_i hd; cases h; exact key _ _ _ _ hd rfl rfl
  case disconnect =>
    split at h
    · cases h; exact same _ rfl
    · split at h
      · cases h
      · rename_i d hd
        generalize scan _ _ = o at h
        cases o with
        | ub => cases h
        | ok o => cases o <;> (cases h; exact same _ rfl)
  case remove =>
    split at h
    · cases h; exact same _ rfl
    · split at h
      · cases h
      · rename_i hd
        split at h
        · cases h; exact key _ _ _ _ hd rfl rfl
        · cases h
  case event =>
    split at h
    · cases h
    · cases h; exact same _ rfl

/-- A registered component comes from an initialisation in the log. -/
theorem comps_from {s : State} {op : Op} {r : State × Out} (h : step s op = .ok r) {id : Nat} {c : Comp} (hc : r.1.comps id = some c) :
    (∃ c', s.comps id = some c' ∧ c'.info = c.info) ∨ (op, r.2) = (.compInit id c.info, .done) := by
  cases hs : s.comps id with
  | some c' =>
    obtain ⟨c'', h1, h2⟩ := comps_mono h hs
    rw [hc] at h1; cases h1
    exact .inl ⟨c', rfl, h2.symm⟩
  | none =>
    right
    have key : ∀ (s' : State) (j : Nat) (d d' : Comp), s.comps j = some d → s'.comps = upd s.comps j (some d') → s'.comps id = some c → False := by
      intro s' j d d' hd hs' hc'
      have : id ≠ j := by rintro rfl; rw [hs] at hd; cases hd
      rw [hs', upd_ne _ _ this, hs] at hc'; cases hc'
    have same : ∀ s' : State, s'.comps = s.comps → s'.comps id = some c → False := fun s' h1 h2 => by rw [h1, hs] at h2; cases h2
    cases op <;> simp only [step] at h
    case compInit j info =>
      split at h
      · cases h
        simp only at hc
        by_cases hj : id = j
        · subst hj; rw [upd_same] at hc; cases hc; rfl
        · rw [upd_ne _ _ hj, hs] at hc; cases hc
      · cases h; exact (same _ rfl hc).elim
    case accept =>
      split at h
      · cases h; exact (same _ rfl hc).elim
      · split at h
        · cases h; exact (same _ rfl hc).elim
        · split at h
          · cases h
          · rename_i hd
            cases h; exact (key _ _ _ _ hd rfl hc).elim
    case wait =>
      split at h
      · cases h
      · rename_i hd
        split at h
        · cases h; exact (same _ rfl hc).elim
        · cases h; exact (key _ _ _ _ hd rfl hc).elim
    case connect =>
      split at h
      · cases h; exact (same _ rfl hc).elim
      · split at h
        · cases h
        · split at h
          · cases h; exact (same _ rfl hc).elim
          · split at h
            · cases h; exact (same _ rfl hc).elim
            · split at h
              · cases h; exact (same _ rfl hc).elim
              · cases h; exact (same _ rfl hc).elim
    case insert =>
      split at h
      · cases h; exact (same _ rfl hc).elim
      · split at h
        · cases h
        · rename_i hd; cases h; exact (key _ _ _ _ hd rfl hc).elim
    case disconnect =>
      split at h
      · cases h; exact (same _ rfl hc).elim
      · split at h
        · cases h
        · rename_i d hd
          generalize scan _ _ = o at h
          cases o with
          | ub => cases h
          | ok o => cases o <;> (cases h; exact (same _ rfl hc).elim)
    case remove =>
      split at h
      · cases h; exact (same _ rfl hc).elim
      · split at h
        · cases h
        · rename_i hd
          split at h
          · cases h; exact (key _ _ _ _ hd rfl hc).elim
          · cases h
    case event =>
      split at h
      · cases h
      · cases h; exact (same _ rfl hc).elim

theorem registered (ops : List Op) : ∀ {x : State × Log}, run init ops = .ok x → ∀ id c, x.1.comps id = some c → (Op.compInit id c.info, Out.done) ∈ x.2 := by
  induction ops using List.reverseRecOn with
  | nil => intro x h id c hc; simp only [run] at h; cases h; simp [init] at hc
  | append_singleton ops op ih =>
    intro x h id c hc
    obtain ⟨y, r, h1, h2, rfl⟩ := run_snoc ops op h
    rcases comps_from h2 hc with ⟨c', h3, h4⟩ | h3
    · have := ih h1 id c' h3
      rw [h4] at this
      exact List.mem_append_left _ this
    · rw [h3]; exact List.mem_append_right _ List.mem_cons_self

end Ouro.Connmgr
