import Verif.Spec.Psched
import Verif.Proof.Tac

namespace Ouro.Psched

theorem upd_same {α : Type} (f : Nat → α) (i : Nat) (x : α) : upd f i x i = x := by simp [upd]
theorem upd_ne {α : Type} (f : Nat → α) {i j : Nat} (x : α) (h : j ≠ i) : upd f i x j = f j := by simp [upd, h]

theorem count_upd {α : Type} (f : Nat → α) (P : α → Bool) {i n : Nat} (hi : i < n) (x : α) :
    (List.range n).countP (fun j => P (upd f i x j)) + (if P (f i) then 1 else 0) = (List.range n).countP (fun j => P (f j)) + (if P x then 1 else 0) := by
  induction n with
  | zero => omega
  | succ n ih =>
    rw [List.range_succ, List.countP_append, List.countP_append, List.countP_singleton, List.countP_singleton]
    by_cases h : i = n
    · subst h
      rw [upd_same]
      have : (List.range i).countP (fun j => P (upd f i x j)) = (List.range i).countP (fun j => P (f j)) := by
        refine List.countP_congr ?_
        intro j hj
        have : j ≠ i := by have := List.mem_range.mp hj; omega
        rw [upd_ne _ _ this]
      omega
    · rw [upd_ne f x (fun h' => h h'.symm)]
      have := ih (by omega)
      omega

theorem notify_ring (s : State) (fd : Nat) (k : Kind) : (notify s fd k).ring = s.ring ∧ (notify s fd k).rdr = s.rdr ∧ (notify s fd k).cls = s.cls := by
  unfold notify; split <;> exact ⟨rfl, rfl, rfl⟩

theorem arrivals_cons (fd : Nat) (op : Op) (ops : List Op) : arrivals fd (op :: ops) = arrivals fd [op] ++ arrivals fd ops := by
  unfold arrivals; rw [← List.filterMap_append]; rfl

theorem called_cons (fd : Nat) (e : Op × Out) (l : List (Op × Out)) : called fd (e :: l) = called fd [e] ++ called fd l := by
  unfold called; rw [← List.filterMap_append]; rfl

/-- Only the scheduler's readers hold anything. -/
def Only (mul : Nat) (s : State) : Prop := ∀ i, cubes * mul ≤ i → (s.rdr i).held = none ∧ (s.rdr i).fq = []

theorem step_only {mul : Nat} {s : State} (h : Only mul s) (op : Op) : Only mul (step mul s op).1 := by
  intro i hi
  have := h i hi
  cases op <;> simp only [step]
  case add fd qc =>
    split
    · dsimp only
      split
      · rw [(notify_ring _ _ _).2.1]; exact this
      · exact this
    · exact this
  case del fd => exact this
  case arrive fd p => rw [(notify_ring _ _ _).2.1]; exact this
  case event fd k =>
    split
    · exact this
    · rw [(notify_ring _ _ _).2.1]; exact this
  case fevent j =>
    split
    · rename_i hj
      dsimp only
      rw [upd_ne _ _ (by omega)]; exact this
    · exact this
  case next j =>
    split
    · rename_i hj
      have hne : i ≠ j := by omega
      split
      · exact this
      · split
        · dsimp only; rw [upd_ne _ _ hne]; exact this
        · dsimp only; rw [upd_ne _ _ hne]; exact this
      · dsimp only; rw [upd_ne _ _ hne]; exact this
    · exact this
  case callback j =>
    split
    · rename_i fd p hj
      have hne : i ≠ j := by rintro rfl; rw [this.1] at hj; cases hj
      dsimp only; rw [upd_ne _ _ hne]; exact this
    · exact this

/-- Packets are conserved by a step. -/
theorem step_count {mul : Nat} {s : State} (h : Only mul s) (op : Op) (fd p : Nat) :
    (called fd [(op, (step mul s op).2)]).count p + holding (step mul s op).1 (cubes * mul) fd p + ((step mul s op).1.ring fd).count p =
      holding s (cubes * mul) fd p + (s.ring fd).count p + (arrivals fd [op]).count p := by
  have hnot : ∀ (s : State) (f : Nat) (k : Kind), holding (notify s f k) (cubes * mul) fd p = holding s (cubes * mul) fd p ∧ (notify s f k).ring = s.ring := by
    intro s f k
    refine ⟨?_, (notify_ring s f k).1⟩
    unfold holding; rw [(notify_ring s f k).2.1]
  have hupd : ∀ (j : Nat) (hj : j < cubes * mul) (x : Reader) (s' : State), s'.rdr = upd s.rdr j x →
      holding s' (cubes * mul) fd p + (if (s.rdr j).held = some (fd, p) then 1 else 0) = holding s (cubes * mul) fd p + (if x.held = some (fd, p) then 1 else 0) := by
    intro j hj x s' hs
    unfold holding
    rw [hs]
    have := count_upd s.rdr (fun r => decide (r.held = some (fd, p))) hj x
    simpa using this
  cases op <;> simp only [step]
  case add f qc =>
    have : called fd [(Op.add f qc, Out.done)] = [] ∧ called fd [(Op.add f qc, Out.no)] = [] ∧ arrivals fd [Op.add f qc] = [] := ⟨rfl, rfl, rfl⟩
    split
    · dsimp only
      split
      · rw [(hnot _ _ _).1, (hnot _ _ _).2, this.1, this.2.2]; simp [holding]
      · rw [this.1, this.2.2]; simp [holding]
    · rw [this.2.1, this.2.2]; simp
  case del f => simp [called, arrivals, holding]
  case arrive f q =>
    rw [(hnot _ _ _).1, (hnot _ _ _).2]
    by_cases hf : f = fd
    · subst hf; simp [called, arrivals, holding, upd_same]; omega
    · simp [called, arrivals, holding, hf, upd_ne _ _ (Ne.symm hf)]
  case event f k =>
    split
    · simp [called, arrivals]
    · rw [(hnot _ _ _).1, (hnot _ _ _).2]; simp [called, arrivals]
  case fevent j =>
    split
    · rename_i hj
      have := hupd j hj.1 ⟨s.queue (j % cubes), none⟩ { s with rdr := upd s.rdr j ⟨s.queue (j % cubes), none⟩, queue := upd s.queue (j % cubes) [] } rfl
      simp [hj.2.1] at this
      simp [called, arrivals, this]
    · simp [called, arrivals]
  case next j =>
    split
    · rename_i hj
      split
      · simp [called, arrivals]
      · rename_i f fq hfq
        split
        · have := hupd j hj.1 ⟨fq, none⟩ { s with rdr := upd s.rdr j ⟨fq, none⟩ } rfl
          simp [hj.2] at this
          simp [called, arrivals, this]
        · rename_i q qs hr
          have := hupd j hj.1 ⟨fq, some (f, q)⟩ { s with rdr := upd s.rdr j ⟨fq, some (f, q)⟩, ring := upd s.ring f qs } rfl
          simp [hj.2] at this
          by_cases hf : f = fd
          · subst hf
            simp [called, arrivals, this, upd_same, hr, List.count_cons]
            omega
          · simp [called, arrivals, this, upd_ne _ _ (Ne.symm hf), hf]
      · rename_i f k fq hk hfq
        have := hupd j hj.1 ⟨fq, none⟩ { s with rdr := upd s.rdr j ⟨fq, none⟩ } rfl
        simp [hj.2] at this
        simp [called, arrivals, this]
    · simp [called, arrivals]
  case callback j =>
    split
    · rename_i f q hj
      have hjlt : j < cubes * mul := by
        by_contra hlt
        rw [(h j (by omega)).1] at hj; cases hj
      have := hupd j hjlt ⟨(s.rdr j).fq, none⟩ { s with rdr := upd s.rdr j ⟨(s.rdr j).fq, none⟩ } rfl
      simp [hj] at this
      by_cases hf : f = fd
      · subst hf
        simp [called, arrivals, List.count_cons] at this ⊢
        omega
      · simp [hf] at this
        simp [called, arrivals, hf, this]
    · simp [called, arrivals]

theorem run_count {mul : Nat} {s : State} (h : Only mul s) (ops : List Op) (fd p : Nat) :
    (called fd (run mul s ops).2).count p + holding (run mul s ops).1 (cubes * mul) fd p + ((run mul s ops).1.ring fd).count p =
      holding s (cubes * mul) fd p + (s.ring fd).count p + (arrivals fd ops).count p := by
  induction ops generalizing s with
  | nil => simp [run, called, arrivals]
  | cons op ops ih =>
    have h1 := step_count h op fd p
    have h2 := ih (step_only h op)
    rw [arrivals_cons, List.count_append]
    simp only [run]
    rw [called_cons, List.count_append]
    omega

/-- With fixed classes events of a flow are only with its class. -/
structure InClass (c : Nat → Nat) (s : State) : Prop where
  cls : ∀ fd q, s.cls fd = some q → q = c fd
  queue : ∀ q e, e ∈ s.queue q → q = c e.1
  fq : ∀ i e, e ∈ (s.rdr i).fq → i % cubes = c e.1
  held : ∀ i fd p, (s.rdr i).held = some (fd, p) → i % cubes = c fd

theorem notify_inClass {c : Nat → Nat} {s : State} (h : InClass c s) (fd : Nat) (k : Kind) : InClass c (notify s fd k) := by
  unfold notify
  split
  · exact h
  · rename_i q hq
    refine ⟨h.cls, ?_, h.fq, h.held⟩
    intro q' e he
    dsimp only at he
    by_cases hqq : q' = q
    · subst hqq
      rw [upd_same] at he
      rcases List.mem_append.mp he with he | he
      · exact h.queue _ e he
      · simp at he; subst he; exact h.cls fd q' hq
    · rw [upd_ne _ _ hqq] at he; exact h.queue q' e he

theorem step_inClass {c : Nat → Nat} {mul : Nat} {s : State} (h : InClass c s) (op : Op) (hc : ∀ fd qc, op = .add fd qc → qc = c fd) : InClass c (step mul s op).1 := by
  cases op <;> simp only [step]
  case add fd qc =>
    split
    · have h1 : InClass c { s with cls := upd s.cls fd (some qc) } := by
        refine ⟨?_, h.queue, h.fq, h.held⟩
        intro f q hf
        dsimp only at hf
        by_cases hff : f = fd
        · subst hff; rw [upd_same] at hf; cases hf; exact hc f _ rfl
        · rw [upd_ne _ _ hff] at hf; exact h.cls f q hf
      dsimp only
      split
      · exact notify_inClass h1 fd .pkt
      · exact h1
    · exact h
  case del fd =>
    refine ⟨?_, h.queue, h.fq, h.held⟩
    intro f q hf
    dsimp only at hf
    by_cases hff : f = fd
    · subst hff; rw [upd_same] at hf; cases hf
    · rw [upd_ne _ _ hff] at hf; exact h.cls f q hf
  case arrive fd p => exact notify_inClass (s := { s with ring := upd s.ring fd (s.ring fd ++ [p]) }) ⟨h.cls, h.queue, h.fq, h.held⟩ fd .pkt
  case event fd k =>
    split
    · exact h
    · exact notify_inClass h fd k
  case fevent i =>
    split
    · refine ⟨h.cls, ?_, ?_, ?_⟩
      · intro q e he
        dsimp only at he
        by_cases hq : q = i % cubes
        · subst hq; rw [upd_same] at he; cases he
        · rw [upd_ne _ _ hq] at he; exact h.queue q e he
      · intro j e he
        dsimp only at he
        by_cases hj : j = i
        · subst hj; rw [upd_same] at he; exact h.queue _ e he
        · rw [upd_ne _ _ hj] at he; exact h.fq j e he
      · intro j f p hp
        dsimp only at hp
        by_cases hj : j = i
        · subst hj; rw [upd_same] at hp; cases hp
        · rw [upd_ne _ _ hj] at hp; exact h.held j f p hp
    · exact h
  case next i =>
    have aux : ∀ (e : Nat × Kind) (fq : List (Nat × Kind)) (x : Option (Nat × Nat)) (s' : State), (s.rdr i).fq = e :: fq → (∀ f p, x = some (f, p) → f = e.1) →
        s'.cls = s.cls → s'.queue = s.queue → s'.rdr = upd s.rdr i ⟨fq, x⟩ → InClass c s' := by
      intro e fq x s' hfq hx h1 h2 h3
      refine ⟨by rw [h1]; exact h.cls, by rw [h2]; exact h.queue, ?_, ?_⟩
      · intro j y hy
        rw [h3] at hy
        by_cases hj : j = i
        · subst hj; rw [upd_same] at hy; exact h.fq j y (by rw [hfq]; exact List.mem_cons_of_mem _ hy)
        · rw [upd_ne _ _ hj] at hy; exact h.fq j y hy
      · intro j f p hp
        rw [h3] at hp
        by_cases hj : j = i
        · subst hj; rw [upd_same] at hp
          have := hx f p hp
          subst this
          exact h.fq j e (by rw [hfq]; exact List.mem_cons_self)
        · rw [upd_ne _ _ hj] at hp; exact h.held j f p hp
    split
    · split
      · exact h
      · rename_i fd fq hfq
        split
        · exact aux _ fq none _ hfq (by simp) rfl rfl rfl
        · rename_i p ps hr
          exact aux _ fq (some (fd, p)) _ hfq (by rintro f q ⟨⟩; rfl) rfl rfl rfl
      · rename_i fd k fq hk hfq
        exact aux _ fq none _ hfq (by simp) rfl rfl rfl
    · exact h
  case callback i =>
    split
    · refine ⟨h.cls, h.queue, ?_, ?_⟩
      · intro j e he
        dsimp only at he
        by_cases hj : j = i
        · subst hj; rw [upd_same] at he; exact h.fq j e he
        · rw [upd_ne _ _ hj] at he; exact h.fq j e he
      · intro j f p hp
        dsimp only at hp
        by_cases hj : j = i
        · subst hj; rw [upd_same] at hp; cases hp
        · rw [upd_ne _ _ hj] at hp; exact h.held j f p hp
    · exact h

theorem create_inClass (c : Nat → Nat) : InClass c create := ⟨by simp [create], by simp [create], by simp [create], by simp [create]⟩
theorem create_only (mul : Nat) : Only mul create := by intro i _; simp [create]

theorem run_inClass {c : Nat → Nat} {mul : Nat} {s : State} (h : InClass c s) (ops : List Op) (hc : Classes c ops) : InClass c (run mul s ops).1 := by
  induction ops generalizing s with
  | nil => exact h
  | cons op ops ih =>
    exact ih (step_inClass h op (fun fd qc e => hc fd qc (by simp [e]))) (fun fd qc e => hc fd qc (List.mem_cons_of_mem _ e))

/-- The packets of `fd` among what a reader holds. -/
def heldOf (fd : Nat) : Option (Nat × Nat) → List Nat
  | some (f, p) => if f = fd then [p] else []
  | none => []

theorem heldBy_eq (s : State) (i fd : Nat) : heldBy s i fd = heldOf fd (s.rdr i).held := by
  unfold heldBy heldOf; rfl

/-- With one reader per class a step keeps the order. -/
theorem step_order {c : Nat → Nat} {s : State} (h : InClass c s) (ho : Only 1 s) (op : Op) (fd : Nat) :
    called fd [(op, (step 1 s op).2)] ++ heldBy (step 1 s op).1 (c fd) fd ++ (step 1 s op).1.ring fd =
      heldBy s (c fd) fd ++ s.ring fd ++ arrivals fd [op] := by
  have hnot : ∀ (s : State) (f : Nat) (k : Kind), heldBy (notify s f k) (c fd) fd = heldBy s (c fd) fd ∧ (notify s f k).ring = s.ring := by
    intro s f k
    refine ⟨?_, (notify_ring s f k).1⟩
    unfold heldBy; rw [(notify_ring s f k).2.1]
  have hlt : ∀ i, (s.rdr i).held ≠ none ∨ (s.rdr i).fq ≠ [] → i % cubes = i := by
    intro i hi
    have : i < cubes * 1 := by
      by_contra hlt
      have := ho i (by omega)
      rcases hi with hi | hi
      · exact hi this.1
      · exact hi this.2
    rw [Nat.mod_eq_of_lt]; omega
  have hupd : ∀ (j : Nat) (x : Reader) (s' : State), s'.rdr = upd s.rdr j x → j ≠ c fd → heldBy s' (c fd) fd = heldBy s (c fd) fd := by
    intro j x s' hs hj
    unfold heldBy; rw [hs, upd_ne _ _ (Ne.symm hj)]
  have hupd2 : ∀ (j : Nat) (x : Reader) (s' : State), s'.rdr = upd s.rdr j x → j = c fd → heldBy s' (c fd) fd = heldOf fd x.held := by
    intro j x s' hs hj
    subst hj
    rw [heldBy_eq, hs, upd_same]
  have hnone : ∀ j, (s.rdr j).held = none → j = c fd → heldBy s (c fd) fd = [] := by
    intro j hj e; subst e; unfold heldBy; rw [hj]
  cases op <;> simp only [step]
  case add f qc =>
    split
    · dsimp only
      split
      · rw [(hnot _ _ _).1, (hnot _ _ _).2]; simp [heldBy, called, arrivals]
      · simp [heldBy, called, arrivals]
    · simp [called, arrivals]
  case del f => simp [called, arrivals, heldBy]
  case arrive f q =>
    rw [(hnot _ _ _).1, (hnot _ _ _).2]
    by_cases hf : f = fd
    · subst hf; simp [called, arrivals, heldBy, upd_same]
    · simp [called, arrivals, heldBy, hf, upd_ne _ _ (Ne.symm hf)]
  case event f k =>
    split
    · simp [called, arrivals]
    · rw [(hnot _ _ _).1, (hnot _ _ _).2]; simp [called, arrivals]
  case fevent j =>
    split
    · rename_i hj
      have : heldBy { s with rdr := upd s.rdr j ⟨s.queue (j % cubes), none⟩, queue := upd s.queue (j % cubes) [] } (c fd) fd = heldBy s (c fd) fd := by
        by_cases hjc : j = c fd
        · rw [hnone j hj.2.1 hjc]; exact hupd2 j ⟨_, none⟩ _ rfl hjc
        · exact hupd j _ _ rfl hjc
      rw [this]; simp [called, arrivals]
    · simp [called, arrivals]
  case next j =>
    split
    · rename_i hj
      have aux : ∀ fq, heldBy { s with rdr := upd s.rdr j ⟨fq, none⟩ } (c fd) fd = heldBy s (c fd) fd := by
        intro fq
        by_cases hjc : j = c fd
        · rw [hnone j hj.2 hjc]; exact hupd2 j ⟨_, none⟩ _ rfl hjc
        · exact hupd j _ _ rfl hjc
      split
      · simp [called, arrivals]
      · rename_i f fq hfq
        split
        · rw [aux]; simp [called, arrivals]
        · rename_i q qs hr
          have hjf : j = c f := by
            rw [← h.fq j (f, .pkt) (by rw [hfq]; exact List.mem_cons_self), hlt j (.inr (by simp [hfq]))]
          by_cases hf : f = fd
          · subst hf
            have h1 := hupd2 j ⟨fq, some (f, q)⟩ { s with rdr := upd s.rdr j ⟨fq, some (f, q)⟩, ring := upd s.ring f qs } rfl hjf
            rw [h1, hnone j hj.2 hjf]
            simp [heldOf, called, arrivals, upd_same, hr]
          · have h1 : heldBy { s with rdr := upd s.rdr j ⟨fq, some (f, q)⟩, ring := upd s.ring f qs } (c fd) fd = heldBy s (c fd) fd := by
              by_cases hjc : j = c fd
              · rw [hnone j hj.2 hjc]
                have := hupd2 j ⟨fq, some (f, q)⟩ { s with rdr := upd s.rdr j ⟨fq, some (f, q)⟩, ring := upd s.ring f qs } rfl hjc
                rw [this]; simp [heldOf, hf]
              · exact hupd j _ _ rfl hjc
            rw [h1]
            simp [called, arrivals, upd_ne _ _ (Ne.symm hf)]
      · rw [aux]; simp [called, arrivals]
    · simp [called, arrivals]
  case callback j =>
    split
    · rename_i f q hj
      have hjf : j = c f := by
        rw [← h.held j f q hj, hlt j (.inl (by simp [hj]))]
      by_cases hf : f = fd
      · subst hf
        have h1 := hupd2 j ⟨(s.rdr j).fq, none⟩ { s with rdr := upd s.rdr j ⟨(s.rdr j).fq, none⟩ } rfl hjf
        rw [h1]
        subst hjf
        simp [called, arrivals, heldBy, heldOf, hj]
      · have h1 : heldBy { s with rdr := upd s.rdr j ⟨(s.rdr j).fq, none⟩ } (c fd) fd = heldBy s (c fd) fd := by
          by_cases hjc : j = c fd
          · have := hupd2 j ⟨(s.rdr j).fq, none⟩ { s with rdr := upd s.rdr j ⟨(s.rdr j).fq, none⟩ } rfl hjc
            rw [this]
            subst hjc
            simp [heldBy, heldOf, hj, hf]
          · exact hupd j _ _ rfl hjc
        rw [h1]; simp [called, arrivals, hf]
    · simp [called, arrivals]

theorem run_order {c : Nat → Nat} {s : State} (h : InClass c s) (ho : Only 1 s) (ops : List Op) (hc : Classes c ops) (fd : Nat) :
    called fd (run 1 s ops).2 ++ heldBy (run 1 s ops).1 (c fd) fd ++ (run 1 s ops).1.ring fd = heldBy s (c fd) fd ++ s.ring fd ++ arrivals fd ops := by
  induction ops generalizing s with
  | nil => simp [run, called, arrivals]
  | cons op ops ih =>
    have h1 := step_order h ho op fd
    have h2 := ih (step_inClass h op (fun fd qc e => hc fd qc (by simp [e]))) (step_only ho op) (fun fd qc e => hc fd qc (List.mem_cons_of_mem _ e))
    rw [arrivals_cons]
    simp only [run]
    rw [called_cons, List.append_assoc, List.append_assoc, ← List.append_assoc (called fd (run 1 _ ops).2), h2, ← List.append_assoc, ← List.append_assoc, h1]
    simp

theorem run_called_class {c : Nat → Nat} {mul : Nat} {s : State} (h : InClass c s) (ops : List Op) (hc : Classes c ops) :
    ∀ e ∈ (run mul s ops).2, ∀ fd qc p, e.2 = .called fd qc p → qc = c fd := by
  induction ops generalizing s with
  | nil => simp [run]
  | cons op ops ih =>
    intro e he fd qc p hp
    simp only [run] at he
    rcases List.mem_cons.mp he with rfl | he
    · dsimp only at hp
      cases op <;> simp only [step] at hp
      case callback i =>
        split at hp
        · rename_i f q hh
          cases hp; exact h.held i fd p hh
        · cases hp
      case next i =>
        split at hp
        · split at hp
          · cases hp
          · split at hp <;> cases hp
          · cases hp
        · cases hp
      all_goals first | cases hp | (split at hp <;> cases hp)
    · exact ih (step_inClass h op (fun fd qc e => hc fd qc (by simp [e]))) (fun fd qc e => hc fd qc (List.mem_cons_of_mem _ e)) e he fd qc p hp

/-- Packet events for `fd` with the readers and in the queues. -/
def pending (mul : Nat) (s : State) (fd : Nat) : Nat :=
  ((List.range cubes).map (fun c => (s.queue c).count (fd, .pkt))).sum + ((List.range (cubes * mul)).map (fun i => (s.rdr i).fq.count (fd, .pkt))).sum

theorem sum_upd {α : Type} (f : Nat → α) (g : α → Nat) {i n : Nat} (hi : i < n) (x : α) :
    ((List.range n).map (fun j => g (upd f i x j))).sum + g (f i) = ((List.range n).map (fun j => g (f j))).sum + g x := by
  induction n with
  | zero => omega
  | succ n ih =>
    rw [List.range_succ, List.map_append, List.map_append, List.sum_append, List.sum_append]
    by_cases h : i = n
    · subst h
      have : (List.range i).map (fun j => g (upd f i x j)) = (List.range i).map (fun j => g (f j)) := by
        refine List.map_congr_left ?_
        intro j hj
        have : j ≠ i := by have := List.mem_range.mp hj; omega
        rw [upd_ne _ _ this]
      rw [this]
      simp [upd_same]
      omega
    · have := ih (by omega)
      simp only [List.map_cons, List.map_nil, List.sum_cons, List.sum_nil]
      rw [upd_ne f x (fun h' => h h'.symm)]
      omega

theorem pending_notify {mul : Nat} {s : State} (hc : ∀ fd q, s.cls fd = some q → q < cubes) (f fd : Nat) (k : Kind) :
    pending mul (notify s f k) fd = pending mul s fd + (if f = fd ∧ k = .pkt ∧ s.cls f ≠ none then 1 else 0) := by
  unfold notify
  split
  · rename_i h; simp [h]
  · rename_i q hq
    have := sum_upd s.queue (fun l => l.count (fd, .pkt)) (hc f q hq) (s.queue q ++ [(f, k)])
    unfold pending
    dsimp only
    rw [List.count_append] at this
    have hcnt : List.count (fd, Kind.pkt) [(f, k)] = if f = fd ∧ k = .pkt ∧ s.cls f ≠ none then 1 else 0 := by
      by_cases h1 : f = fd <;> by_cases h2 : k = .pkt <;> simp [List.count_cons, h1, h2, hq]
      subst h1; simp [hq]
    omega

theorem step_prompt {mul : Nat} {s : State} (hc : ∀ fd q, s.cls fd = some q → q < cubes) (hp : ∀ fd, (s.ring fd).length ≤ pending mul s fd) (op : Op)
    (hop : ∀ fd p, op = .arrive fd p → s.cls fd ≠ none) :
    (∀ fd q, (step mul s op).1.cls fd = some q → q < cubes) ∧ ∀ fd, ((step mul s op).1.ring fd).length ≤ pending mul (step mul s op).1 fd := by
  have aux : ∀ (j : Nat) (hj : j < cubes * mul) (e : Nat × Kind) (fq : List (Nat × Kind)) (x : Option (Nat × Nat)) (s' : State), (s.rdr j).fq = e :: fq →
      s'.queue = s.queue → s'.rdr = upd s.rdr j ⟨fq, x⟩ → ∀ fd, pending mul s' fd + (if e = (fd, .pkt) then 1 else 0) = pending mul s fd := by
    intro j hj e fq x s' hfq h2 h3 fd
    have := sum_upd s.rdr (fun r => r.fq.count (fd, .pkt)) hj ⟨fq, x⟩
    dsimp only at this
    rw [hfq, List.count_cons] at this
    unfold pending
    rw [h2, h3]
    simp only [beq_iff_eq] at this
    omega
  cases op <;> simp only [step]
  case add f qc =>
    split
    · rename_i hq
      have hc' : ∀ fd q, upd s.cls f (some qc) fd = some q → q < cubes := by
        intro fd q hf
        by_cases hff : fd = f
        · subst hff; rw [upd_same] at hf; cases hf; exact hq.1
        · rw [upd_ne _ _ hff] at hf; exact hc fd q hf
      dsimp only
      split
      · rw [(notify_ring _ _ _).2.2, (notify_ring _ _ _).1]
        refine ⟨hc', ?_⟩
        intro fd
        rw [pending_notify hc']
        have := hp fd
        simp only [pending] at this ⊢
        omega
      · exact ⟨hc', hp⟩
    · exact ⟨hc, hp⟩
  case del f =>
    refine ⟨?_, hp⟩
    intro fd q hf
    by_cases hff : fd = f
    · subst hff; rw [upd_same] at hf; cases hf
    · rw [upd_ne _ _ hff] at hf; exact hc fd q hf
  case arrive f p =>
    rw [(notify_ring _ _ _).2.2, (notify_ring _ _ _).1]
    refine ⟨hc, ?_⟩
    intro fd
    rw [pending_notify (s := { s with ring := upd s.ring f (s.ring f ++ [p]) }) hc]
    have h1 := hp fd
    have h2 := hop f p rfl
    dsimp only
    by_cases hf : f = fd
    · subst hf
      rw [upd_same]
      simp only [h2, ne_eq, not_false_eq_true, and_self, if_true]
      simp only [pending] at h1 ⊢
      simp
      omega
    · rw [upd_ne _ _ (Ne.symm hf)]
      simp only [pending] at h1 ⊢
      omega
  case event f k =>
    split
    · exact ⟨hc, hp⟩
    · rw [(notify_ring _ _ _).2.2, (notify_ring _ _ _).1]
      refine ⟨hc, ?_⟩
      intro fd
      rw [pending_notify hc]
      have := hp fd
      omega
  case fevent j =>
    split
    · rename_i hj
      refine ⟨hc, ?_⟩
      intro fd
      have h1 := hp fd
      have hmod : j % cubes < cubes := Nat.mod_lt _ (by decide)
      have h2 := sum_upd s.queue (fun l => l.count (fd, .pkt)) hmod []
      have h3 := sum_upd s.rdr (fun r => r.fq.count (fd, .pkt)) hj.1 ⟨s.queue (j % cubes), none⟩
      dsimp only at h3 ⊢
      rw [hj.2.2.1] at h3
      simp only [List.count_nil] at h2 h3
      unfold pending at h1 ⊢
      dsimp only
      omega
    · exact ⟨hc, hp⟩
  case next j =>
    split
    · rename_i hj
      split
      · exact ⟨hc, hp⟩
      · rename_i f fq hfq
        split
        · rename_i hr
          refine ⟨hc, ?_⟩
          intro fd
          have h1 := hp fd
          have h2 := aux j hj.1 _ fq none { s with rdr := upd s.rdr j ⟨fq, none⟩ } hfq rfl rfl fd
          by_cases hf : f = fd
          · subst hf; simp [hr]
          · simp only [Prod.mk.injEq, hf, false_and, if_false] at h2
            show (s.ring fd).length ≤ pending mul { s with rdr := upd s.rdr j ⟨fq, none⟩ } fd
            omega
        · rename_i q qs hr
          refine ⟨hc, ?_⟩
          intro fd
          have h1 := hp fd
          have h2 := aux j hj.1 _ fq (some (f, q)) { s with rdr := upd s.rdr j ⟨fq, some (f, q)⟩, ring := upd s.ring f qs } hfq rfl rfl fd
          by_cases hf : f = fd
          · subst hf
            rw [hr, List.length_cons] at h1
            simp only [and_self, if_true] at h2
            show (upd s.ring f qs f).length ≤ pending mul { s with rdr := upd s.rdr j ⟨fq, some (f, q)⟩, ring := upd s.ring f qs } f
            rw [upd_same]; omega
          · simp only [Prod.mk.injEq, hf, false_and, if_false] at h2
            show (upd s.ring f qs fd).length ≤ pending mul { s with rdr := upd s.rdr j ⟨fq, some (f, q)⟩, ring := upd s.ring f qs } fd
            rw [upd_ne _ _ (Ne.symm hf)]; omega
      · rename_i f k fq hk hfq
        refine ⟨hc, ?_⟩
        intro fd
        have h1 := hp fd
        have h2 := aux j hj.1 _ fq none { s with rdr := upd s.rdr j ⟨fq, none⟩ } hfq rfl rfl fd
        have h3 : k ≠ .pkt := by rintro rfl; exact hk rfl
        simp only [Prod.mk.injEq, h3, and_false, if_false] at h2
        show (s.ring fd).length ≤ pending mul { s with rdr := upd s.rdr j ⟨fq, none⟩ } fd
        omega
    · exact ⟨hc, hp⟩
  case callback j =>
    split
    · refine ⟨hc, ?_⟩
      intro fd
      have h1 := hp fd
      have : pending mul { s with rdr := upd s.rdr j ⟨(s.rdr j).fq, none⟩ } fd = pending mul s fd := by
        unfold pending
        dsimp only
        congr 2
        refine List.map_congr_left ?_
        intro i _
        by_cases hij : i = j
        · subst hij; rw [upd_same]
        · rw [upd_ne _ _ hij]
      rw [this]; exact h1
    · exact ⟨hc, hp⟩

theorem run_prompt {mul : Nat} {s : State} (hc : ∀ fd q, s.cls fd = some q → q < cubes) (hp : ∀ fd, (s.ring fd).length ≤ pending mul s fd) (ops : List Op)
    (hops : Prompt mul s ops) : ∀ fd, ((run mul s ops).1.ring fd).length ≤ pending mul (run mul s ops).1 fd := by
  induction ops generalizing s with
  | nil => exact hp
  | cons op ops ih =>
    have := step_prompt hc hp op hops.1
    exact ih this.1 this.2 hops.2

theorem quiet_pending {mul : Nat} {s : State} (h : Quiet mul s) (fd : Nat) : pending mul s fd = 0 := by
  unfold pending
  have h1 : (List.range cubes).map (fun c => (s.queue c).count (fd, Kind.pkt)) = (List.range cubes).map (fun _ => 0) := by
    refine List.map_congr_left ?_
    intro c _; rw [h.1]; rfl
  have h2 : (List.range (cubes * mul)).map (fun i => (s.rdr i).fq.count (fd, Kind.pkt)) = (List.range (cubes * mul)).map (fun _ => 0) := by
    refine List.map_congr_left ?_
    intro i hi; rw [(h.2 i (List.mem_range.mp hi)).1]; rfl
  rw [h1, h2]
  have : ∀ l : List Nat, (l.map (fun _ => 0)).sum = 0 := by intro l; induction l <;> simp_all
  rw [this, this]

end Ouro.Psched
