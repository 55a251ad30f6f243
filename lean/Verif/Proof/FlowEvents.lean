import Verif.Proof.FlowSet

/-! The stream of events of a flow set, for processes without reliable flows (C20). -/

namespace Ouro.FlowSet

open Spec.FlowSets

theorem Thinned.mono {α : Type} {P Q : α → Prop} (h : ∀ a, P a → Q a) {l l' : List α} (t : Thinned P l l') :
    Thinned Q l l' := by
  induction t with
  | nil => exact .nil
  | keep _ ih => exact .keep ih
  | drop hp _ ih => exact .drop (h _ hp) ih

theorem Thinned.refl {α : Type} {P : α → Prop} : ∀ l : List α, Thinned P l l
  | [] => .nil
  | _ :: l => .keep (Thinned.refl l)

theorem Thinned.append {α : Type} {P : α → Prop} {l l' : List α} (t : Thinned P l l') (m : List α) :
    Thinned P (l ++ m) (l' ++ m) := by
  induction t with
  | nil => exact Thinned.refl m
  | keep _ ih => exact .keep ih
  | drop hp _ ih => exact .drop hp ih

theorem Thinned.remove {α : Type} {P : α → Prop} {l l' : List α} (t : Thinned P l l') :
    ∀ x y z : List α, l' = x ++ y ++ z → (∀ a ∈ y, P a) → Thinned P l (x ++ z) := by
  induction t with
  | nil =>
    intro x y z h _
    have h1 : x ++ y ++ z = [] := h.symm
    simp only [List.append_eq_nil_iff] at h1
    rw [h1.1.1, h1.2]; exact .nil
  | keep t' ih =>
    intro x y z h hy
    cases x with
    | nil =>
      cases y with
      | nil => simp only [List.nil_append] at h ⊢; rw [← h]; exact .keep t'
      | cons b y =>
        simp only [List.nil_append, List.cons_append, List.cons.injEq] at h
        rw [h.1]
        refine .drop (hy b (by simp)) (ih [] y z (by simp [h.2]) fun a ha => hy a (by simp [ha]))
    | cons b x =>
      simp only [List.cons_append, List.cons.injEq] at h
      rw [h.1]
      exact .keep (ih x y z (by simp [h.2]) hy)
  | drop hp _ ih =>
    intro x y z h hy
    exact .drop hp (ih x y z h hy)

theorem Thinned.mark {P Q : Ev × Bool → Prop} (hQ : ∀ a : Ev × Bool, a.2 = true → Q a) {l l' : List (Ev × Bool)}
    (t : Thinned P l l') : ∀ k, Thinned Q (l.map fun e => (e.1, true)) ((l'.map fun e => (e.1, true)).take k) := by
  induction t with
  | nil => intro k; simp only [List.map_nil, List.take_nil]; exact .nil
  | keep _ ih =>
    intro k
    cases k with
    | zero =>
      rw [List.take_zero, List.map_cons]
      have := ih 0
      rw [List.take_zero] at this
      exact .drop (hQ _ rfl) this
    | succ k => rw [List.map_cons, List.map_cons, List.take_succ_cons]; exact .keep (ih k)
  | drop _ _ ih => intro k; rw [List.map_cons]; exact .drop (hQ _ rfl) (ih k)

theorem Reads.remove {dead : Nat → Bool} {log : List (Ev × Bool)} {x y z : List Ev} (h : Reads dead log (x ++ y ++ z))
    (hy : ∀ e ∈ y, e.event = FLOW_PKT ∧ dead e.flow = true) : Reads dead log (x ++ z) := by
  obtain ⟨l, h1, h2⟩ := h
  obtain ⟨l12, l3, rfl, h3, h4⟩ := List.map_eq_append_iff.mp h2
  obtain ⟨l1, l2, rfl, h5, h6⟩ := List.map_eq_append_iff.mp h3
  refine ⟨l1 ++ l3, Thinned.remove h1 l1 l2 l3 rfl ?_, by rw [List.map_append, h5, h4]⟩
  intro a ha
  right
  exact hy a.1 (by rw [← h6]; exact List.mem_map_of_mem ha)

/-- Link between process and bookkeeping, event part. -/
structure EInv (p : Proc) (t : Track) : Prop where
  raw : ∀ fd f, p.flows fd = some f → f.frct = false
  loop : ∀ s, (p.fq s).looping = true → (p.fq s).next = (p.fq s).evs.length
  known : ∀ s, ∀ e ∈ pending p s, p.idToFd e.flow = none → t.dead e.flow = true
  reads : ∀ s, t.inUse s = true → Reads t.dead (t.log s) (t.out s ++ pending p s)

theorem filter_raw : ∀ (es : List Ev) (p : Proc) (n : Nat),
    (∀ id fd, p.idToFd id = some fd → p.flows fd ≠ none) → (∀ fd f, p.flows fd = some f → f.frct = false) →
    ∃ k, k ≤ es.length ∧ filter p es n = .ok (p, n + k, decide (k < es.length)) ∧
      ∀ e ∈ es.take k, e.event = FLOW_PKT ∧ p.idToFd e.flow = none
  | [], p, n, _, _ => ⟨0, Nat.le_refl _, rfl, by simp⟩
  | e :: es, p, n, h, hr => by
    have stop : ∃ k, k ≤ (e :: es).length ∧ (Outcome.ok (p, n, true) : Outcome (Proc × Nat × Bool)) =
        .ok (p, n + k, decide (k < (e :: es).length)) ∧ ∀ x ∈ (e :: es).take k, x.event = FLOW_PKT ∧ p.idToFd x.flow = none :=
      ⟨0, Nat.zero_le _, by simp, by simp⟩
    unfold filter
    split
    · exact stop
    · next hp =>
      split
      · next hn =>
        obtain ⟨k, h1, h2, h3⟩ := filter_raw es p (n + 1) h hr
        refine ⟨k + 1, by simp only [List.length_cons]; omega, ?_, ?_⟩
        · rw [h2, show n + 1 + k = n + (k + 1) by omega]
          simp
        · intro x hx
          rw [List.take_succ_cons, List.mem_cons] at hx
          rcases hx with rfl | hx
          · exact ⟨by simpa using hp, hn⟩
          · exact h3 x hx
      · next fd hfd =>
        split
        · next hf => exact absurd hf (h _ _ hfd)
        · next f hf =>
          rw [if_pos (hr fd f hf)]
          exact stop

theorem fqueueFilter_raw {p : Proc} {t : Track} (i : Inv p t) (e : EInv p t) (s : Nat) :
    ∃ k, (p.fq s).next + k ≤ (p.fq s).evs.length ∧
      fqueueFilter p s = .ok ({ p with fq := upd p.fq s { p.fq s with next := (p.fq s).next + k } },
        decide ((p.fq s).next + k < (p.fq s).evs.length)) ∧
      ∀ x ∈ ((p.fq s).evs.drop (p.fq s).next).take k, x.event = FLOW_PKT ∧ p.idToFd x.flow = none := by
  obtain ⟨k, h1, h2, h3⟩ := filter_raw ((p.fq s).evs.drop (p.fq s).next) p (p.fq s).next i.linked e.raw
  rw [List.length_drop] at h1 h2
  have hn := i.fqNext s
  refine ⟨k, by omega, ?_, h3⟩
  unfold fqueueFilter
  rw [h2, Outcome.bind_ok]
  have : decide (k < (p.fq s).evs.length - (p.fq s).next) = decide ((p.fq s).next + k < (p.fq s).evs.length) := by
    by_cases h : k < (p.fq s).evs.length - (p.fq s).next
    · rw [decide_eq_true h, decide_eq_true (by omega)]
    · rw [decide_eq_false h, decide_eq_false (by omega)]
  rw [this]; rfl

/-- Which set holds a flow, in the table and for the user. -/
theorem holder_eq {p : Proc} {t : Track} (i : Inv p t) (e : EInv p t) {id : Nat} (hst : t.stale id = none) :
    p.shm.mtable id = holder t.user id := by
  unfold holder
  rw [i.fdOf id]
  cases hid : p.idToFd id with
  | none => rw [i.gone id hid, hst]; rfl
  | some fd =>
    have hl := (i.link fd id).mpr hid
    cases hf : p.flows fd with
    | none => rw [hf] at hl; cases hl
    | some f =>
      rw [hf] at hl
      have hfid : f.id = id := by simpa using hl
      have hm := i.member fd f hf
      rw [hfid] at hm
      simp only [Option.map_some, Option.bind_some]
      cases hs : t.user.set (fd : Int) with
      | some s => rw [hs] at hm; exact hm
      | none =>
        rw [hs] at hm
        rcases hm with h | h
        · exact h
        · have := e.raw fd f hf; rw [h.2] at this; cases this

theorem shmQ_heads_zero {m : Shm} {s : Nat} (h : m.heads s = 0) : shmQ m s = [] := by unfold shmQ; rw [h]; rfl

/-- A notification appends to the queue of the set that holds the flow. -/
theorem shmQ_notify {m m' : Shm} {id ev : Nat} (hle : ∀ s, m.heads s ≤ qSize)
    (h3 : ∀ s, m'.heads s = if m.mtable id = some s then m.heads s + 1 else m.heads s)
    (h4 : ∀ s j, j < m.heads s → m.heads s ≤ qSize → m'.mem (qSize * s + j) = m.mem (qSize * s + j))
    (h5 : ∀ s, m.mtable id = some s → m'.mem (qSize * s + m.heads s) = ⟨id, ev⟩) (s : Nat) :
    shmQ m' s = if m.mtable id = some s then shmQ m s ++ [⟨id, ev⟩] else shmQ m s := by
  have hsame : (List.range (m.heads s)).map (fun i => m'.mem (qSize * s + i)) = shmQ m s := by
    unfold shmQ
    refine List.map_congr_left fun j hj => h4 s j (List.mem_range.mp hj) (hle s)
  have hh := h3 s
  split
  · next h =>
    rw [if_pos h] at hh
    conv => lhs; unfold shmQ
    rw [hh, List.range_succ, List.map_append, hsame, List.map_singleton, h5 s h]
  · next h =>
    rw [if_neg h] at hh
    conv => lhs; unfold shmQ
    rw [hh, hsame]

/-- Events stay readable when a new one is notified and logged. -/
theorem EInv.notified {p : Proc} {t : Track} (i : Inv p t) (e : EInv p t) {m' : Shm} {id ev : Nat}
    (hst : t.stale id = none)
    (h3 : ∀ s, m'.heads s = if p.shm.mtable id = some s then p.shm.heads s + 1 else p.shm.heads s)
    (h4 : ∀ s j, j < p.shm.heads s → p.shm.heads s ≤ qSize → m'.mem (qSize * s + j) = p.shm.mem (qSize * s + j))
    (h5 : ∀ s, p.shm.mtable id = some s → m'.mem (qSize * s + p.shm.heads s) = ⟨id, ev⟩) :
    EInv { p with shm := m' } (t.notified id ev) := by
  have hm := holder_eq i e hst
  have hq := shmQ_notify i.heads h3 h4 h5
  obtain ⟨f1, f2, f3, f4, f5⟩ := t.notified_frame id ev
  have hpend : ∀ s, pending { p with shm := m' } s =
      if p.shm.mtable id = some s then pending p s ++ [⟨id, ev⟩] else pending p s := by
    intro s
    unfold pending
    dsimp only
    rw [hq s]
    split
    · rw [List.append_assoc]
    · rfl
  refine ⟨e.raw, e.loop, ?_, ?_⟩
  · intro s x hx hn
    rw [f5]
    rw [hpend] at hx
    split at hx
    · next hs =>
      rw [List.mem_append] at hx
      rcases hx with hx | hx
      · exact e.known s x hx hn
      · rw [List.mem_singleton] at hx
        subst hx
        change p.idToFd id = none at hn
        rw [hm, holder, i.fdOf id, hn] at hs; cases hs
    · exact e.known s x hx hn
  · intro s hs
    rw [f2] at hs
    rw [f5, f4, hpend]
    obtain ⟨l, h1, h2⟩ := e.reads s hs
    unfold Track.notified
    rw [hm]
    cases hh : holder t.user id with
    | none => dsimp only; rw [if_neg (by simp)]; exact ⟨l, h1, h2⟩
    | some s' =>
      dsimp only
      by_cases hss : s' = s
      · subst hss
        rw [if_pos rfl, upd_same]
        refine ⟨l ++ [(⟨id, ev⟩, false)], Thinned.append h1 _, ?_⟩
        rw [List.map_append, h2, List.append_assoc]; rfl
      · rw [if_neg (by simpa using hss), upd_ne _ _ (Ne.symm hss)]
        exact ⟨l, h1, h2⟩

theorem EInv.zeroed {p : Proc} {t : Track} (e : EInv p t) {s : Nat} {m : Shm} (hh : m.heads = upd p.shm.heads s 0)
    (hmem : m.mem = p.shm.mem) : EInv { p with shm := m } (t.zeroed s) := by
  have hpend : ∀ x, pending { p with shm := m } x =
      if x = s then (p.fq x).evs.drop (p.fq x).next else pending p x := by
    intro x
    unfold pending shmQ
    dsimp only
    rw [hh, hmem]
    by_cases hx : x = s
    · subst hx; rw [upd_same, if_pos rfl]; simp
    · rw [upd_ne _ _ hx, if_neg hx]
  refine ⟨e.raw, e.loop, ?_, ?_⟩
  · intro x y hy hn
    rw [hpend] at hy
    refine e.known x y ?_ hn
    split at hy
    · exact List.mem_append_left _ hy
    · exact hy
  · intro x hx
    change t.inUse x = true at hx
    change Reads t.dead (upd t.log s ((t.log s).map fun e => (e.1, true)) x) (t.out x ++ _)
    rw [hpend]
    by_cases hxs : x = s
    · subst hxs
      rw [upd_same, if_pos rfl]
      obtain ⟨l, h1, h2⟩ := e.reads x hx
      refine ⟨(l.map fun e => (e.1, true)).take (t.out x ++ (p.fq x).evs.drop (p.fq x).next).length,
        Thinned.mark (fun a ha => .inl ha) h1 _, ?_⟩
      rw [← List.map_take, List.map_map, show (Prod.fst ∘ fun e : Ev × Bool => (e.1, true)) = Prod.fst from rfl,
        List.map_take, h2]
      unfold pending
      rw [← List.append_assoc, List.take_left']
      rfl
    · rw [upd_ne _ _ hxs, if_neg hxs]; exact e.reads x hx

theorem pending_fq {p q : Proc} (hs : q.shm = p.shm) {s : Nat} (hf : q.fq s = p.fq s) : pending q s = pending p s := by
  unfold pending; rw [hs, hf]

/-- Skipping packet events of closed flows. -/
theorem EInv.skip {p : Proc} {t : Track} (i : Inv p t) (e : EInv p t) {s k : Nat}
    (hk : (p.fq s).next + k ≤ (p.fq s).evs.length)
    (h : ∀ x ∈ ((p.fq s).evs.drop (p.fq s).next).take k, x.event = FLOW_PKT ∧ p.idToFd x.flow = none) :
    EInv { p with fq := upd p.fq s { p.fq s with next := (p.fq s).next + k } } t := by
  have hsplit : pending p s = ((p.fq s).evs.drop (p.fq s).next).take k ++
      pending { p with fq := upd p.fq s { p.fq s with next := (p.fq s).next + k } } s := by
    unfold pending
    dsimp only
    rw [upd_same, ← List.append_assoc]
    dsimp only
    rw [← List.drop_drop, List.take_append_drop]
  have hother : ∀ x, x ≠ s → pending { p with fq := upd p.fq s { p.fq s with next := (p.fq s).next + k } } x =
      pending p x := fun x hx => pending_fq (p := p) (q := { p with fq := upd p.fq s { p.fq s with next := (p.fq s).next + k } }) rfl (upd_ne _ _ hx)
  refine ⟨e.raw, ?_, ?_, ?_⟩
  · intro x hx
    dsimp only at hx ⊢
    by_cases hxs : x = s
    · subst hxs; rw [upd_same] at hx ⊢
      have := e.loop x hx
      dsimp only
      omega
    · rw [upd_ne _ _ hxs] at hx ⊢; exact e.loop x hx
  · intro x y hy hn
    by_cases hxs : x = s
    · subst hxs
      exact e.known x y (by rw [hsplit]; exact List.mem_append_right _ hy) hn
    · rw [hother x hxs] at hy; exact e.known x y hy hn
  · intro x hx
    by_cases hxs : x = s
    · subst hxs
      have := e.reads x hx
      rw [hsplit, ← List.append_assoc] at this
      refine this.remove fun y hy => ⟨(h y hy).1, e.known x y (by rw [hsplit]; exact List.mem_append_left _ hy) (h y hy).2⟩
    · rw [hother x hxs]; exact e.reads x hx

theorem step_add {p q : Proc} {s : Nat} {fd : Int} {r : Int} (h : fsetAdd p s fd = .ok (q, r)) :
    step p (.add s fd) = .ok (q, .int r, none) := by
  change (fsetAdd p s fd >>= _) = _
  rw [h]; rfl

/-- The event part of the bookkeeping stays in step. -/
theorem EInv.step {p : Proc} {t : Track} (i : Inv p t) (e : EInv p t) (o : Op) (hv : ValidRaw p t o) :
    ∃ q r x, step p o = .ok (q, r, x) ∧ EInv q (t.after (queuedOf p) r x o) := by
  obtain ⟨hv, hraw⟩ := hv
  cases o with
  | create s =>
    refine ⟨_, _, _, rfl, e.raw, ?_, ?_, ?_⟩
    · intro x h
      change (upd p.fq s fqCreate x).looping = true at h
      change (upd p.fq s fqCreate x).next = (upd p.fq s fqCreate x).evs.length
      by_cases hx : x = s
      · subst hx; rw [upd_same]; rfl
      · rw [upd_ne _ _ hx] at h ⊢; exact e.loop x h
    · intro x y hy hn
      by_cases hx : x = s
      · subst hx
        have : pending (fsetCreate p x) x = [] := by
          unfold pending fsetCreate
          dsimp only
          rw [upd_same, shmQ_heads_zero (i.idle x hv.2)]; rfl
        rw [this] at hy; cases hy
      · rw [pending_fq (p := p) (q := fsetCreate p s) rfl (show (fsetCreate p s).fq x = _ from upd_ne _ _ hx)] at hy
        exact e.known x y hy hn
    · intro x h
      by_cases hx : x = s
      · subst hx
        have : pending (fsetCreate p x) x = [] := by
          unfold pending fsetCreate
          dsimp only
          rw [upd_same, shmQ_heads_zero (i.idle x hv.2)]; rfl
        change Reads t.dead (upd t.log x [] x) (upd t.out x [] x ++ _)
        rw [this, upd_same, upd_same]
        exact ⟨[], .nil, rfl⟩
      · change Reads t.dead (upd t.log s [] x) (upd t.out s [] x ++ _)
        rw [upd_ne _ _ hx, upd_ne _ _ hx, pending_fq (p := p) (q := fsetCreate p s) rfl (show (fsetCreate p s).fq x = _ from upd_ne _ _ hx)]
        change upd t.inUse s true x = true at h
        rw [upd_ne _ _ hx] at h
        exact e.reads x h
  | destroy s =>
    obtain ⟨m, h1, h2, h3, -⟩ := i.stepZero hv.1 hv.2.1
    have hz := e.zeroed h2 h3
    refine ⟨{ p with shm := m, sets := upd p.sets s false }, _, _, by
      change (fsetDestroy p s >>= _) = _
      unfold fsetDestroy; rw [h1]; rfl, hz.raw, hz.loop, hz.known, ?_⟩
    intro x hx
    change upd t.inUse s false x = true at hx
    have hxs : x ≠ s := by rintro rfl; rw [upd_same] at hx; cases hx
    rw [upd_ne _ _ hxs] at hx
    exact hz.reads x hx
  | zero s =>
    obtain ⟨m, h1, h2, h3, -⟩ := i.stepZero hv.1 hv.2.1
    exact ⟨_, _, _, by change (fsetZero p s >>= _) = _; rw [h1]; rfl, e.zeroed h2 h3⟩
  | add s fd =>
    obtain ⟨h0, hs, hu, hfd, hroom⟩ := hv
    have keep : ∀ r : Int, r ≠ 0 → EInv p (t.after (queuedOf p) (.int r) none (.add s fd)) := by
      intro r hr
      have : (t.after (queuedOf p) (.int r) none (.add s fd)) = { t with user := Spec.FlowSets.after t.user (.add s fd) } := by
        unfold Track.after
        dsimp only
        split
        · rfl
        · rw [if_neg]; rintro ⟨h, _⟩; exact hr (Ret.int.inj h)
      rw [this]
      exact ⟨e.raw, e.loop, e.known, e.reads⟩
    rcases i.add h0 hs hu hfd hroom with ⟨h1, h2⟩ | ⟨h1, h2, h3⟩ | ⟨n, f, m, rfl, hf, ho, hset, hm, hh, hmem, hr⟩
    · exact ⟨p, _, _, step_add h2, keep _ (by decide)⟩
    · exact ⟨p, _, _, step_add h3, keep _ (by decide)⟩
    · have hus : Spec.FlowSets.after t.user (.add s n) =
          { t.user with set := fun x => if x = (n : Int) then some s else t.user.set x } := by
        unfold Spec.FlowSets.after; dsimp only
        rw [if_pos ⟨by rw [ho]; simp, hset⟩]
      have hinv := i.setEntry hf (us := fun x => if x = (n : Int) then some s else t.user.set x) (m := m)
        (fun id hid => by rw [hm, upd_ne _ _ hid]) (fun fd hfd => by simp [hfd]) (by
          simp only [if_true]
          rw [hm, upd_same]
          exact ⟨rfl, h0, hs, hu⟩) (by rw [hh]; exact i.heads) (by rw [hh]; exact i.idle)
      have hpend : ∀ x, pending { p with shm := m } x = pending p x := by
        intro x; unfold pending shmQ; dsimp only; rw [hh, hmem]
      have heinv : EInv { p with shm := m }
          { t with user := { t.user with set := fun x => if x = (n : Int) then some s else t.user.set x } } := by
        refine ⟨e.raw, e.loop, ?_, ?_⟩
        · intro x y hy hn; rw [hpend] at hy; exact e.known x y hy hn
        · intro x hx; rw [hpend]; exact e.reads x hx
      have htr : t.after (queuedOf p) (.int 0) none (.add s n) =
          if p.rx f.id ≠ [] then
            Track.notified { t with user := { t.user with set := fun x => if x = (n : Int) then some s else t.user.set x } }
              f.id FLOW_PKT
          else { t with user := { t.user with set := fun x => if x = (n : Int) then some s else t.user.set x } } := by
        unfold Track.after
        dsimp only
        rw [ho, hus]
        unfold queuedOf
        dsimp only
        by_cases hrx : p.rx f.id ≠ []
        · rw [if_pos ⟨rfl, by simp [hrx]⟩, if_pos hrx]
        · rw [if_neg (by simpa using hrx), if_neg hrx]
      have hst : t.stale f.id = none := i.staleGone f.id (by
        have := (i.link n f.id).mp (by rw [hf]; rfl)
        rw [this]; simp)
      by_cases hrx : p.rx f.id ≠ []
      · rw [if_pos hrx] at hr
        obtain ⟨m', h1, h2⟩ := hr
        obtain ⟨m'', g1, g2, g3, g4, g5⟩ := shmNotify_ok (m := m) (id := f.id) (ev := FLOW_PKT) (i.idLt n f hf) (by
          intro s' h; rw [hm, upd_same] at h; cases h; exact ⟨hs, by rw [hh]; exact hroom⟩)
        rw [h1] at g1; cases g1
        refine ⟨_, _, _, step_add h2, ?_⟩
        rw [htr, if_pos hrx]
        exact EInv.notified hinv heinv hst g3 g4 g5
      · rw [if_neg hrx] at hr
        refine ⟨_, _, _, step_add hr, ?_⟩
        rw [htr, if_neg hrx]
        exact heinv
  | del s fd =>
    obtain ⟨m, h1, h2, h3, h4⟩ := i.stepDel hv
    refine ⟨{ p with shm := m }, .unit, none, by change (fsetDel p s fd >>= _) = _; rw [h1]; rfl, e.raw, e.loop, ?_, ?_⟩
    · intro x y hy hn
      refine e.known x y ?_ hn
      unfold pending shmQ at hy ⊢; dsimp only at hy; rw [h2, h3] at hy; exact hy
    · intro x hx
      have := e.reads x hx
      unfold pending shmQ at this ⊢; dsimp only; rw [h2, h3]; exact this
  | has s fd =>
    have := i.has hv.1 hv.2.1 hv.2.2.2
    exact ⟨_, _, _, by change (fsetHas p s fd >>= _) = _; rw [this]; rfl, e⟩
  | flowInit fd id frct =>
    obtain ⟨q, h1, h2, h3, h4, h5, h6, h7⟩ := i.stepInit hv
    have hpend : ∀ x, pending q x = pending p x := by
      intro x; unfold pending shmQ; rw [h2, h3, h4]
    refine ⟨q, .bool true, none, by change (flowInit p fd id frct >>= _) = _; rw [h1]; rfl, ?_, ?_, ?_, ?_⟩
    · intro x f hf
      rw [h6] at hf
      by_cases hx : x = fd
      · subst hx; rw [upd_same] at hf; cases hf; exact hraw
      · rw [upd_ne _ _ hx] at hf; exact e.raw x f hf
    · rw [h4]; exact e.loop
    · intro x y hy hn
      rw [hpend] at hy
      rw [h5] at hn
      have hyid : y.flow ≠ id := by
        intro hc; rw [hc, upd_same] at hn; cases hn
      rw [upd_ne _ _ hyid] at hn
      exact e.known x y hy hn
    · intro x hx; rw [hpend]; exact e.reads x hx
  | flowFini fd =>
    obtain ⟨q, h1, h2, h3, h4, h5, h6⟩ := i.stepFini fd (queuedOf p) .unit none
    have hpend : ∀ x, pending q x = pending p x := by
      intro x; unfold pending shmQ; rw [h2, h3, h4]
    refine ⟨q, .unit, none, by change (flowFini p fd >>= _) = _; rw [h1]; rfl, ?_⟩
    have hoe := i.openEq fd
    unfold Track.after
    dsimp only
    cases hf : p.flows fd with
    | none =>
      rw [hf] at hoe; rw [hoe]
      rcases h5 with rfl | ⟨f, hf', _⟩
      · exact e
      · rw [hf] at hf'; cases hf'
    | some f =>
      rw [hf] at hoe; rw [hoe]
      rcases h5 with rfl | ⟨f', hf', h7, h8⟩
      · exfalso
        unfold flowFini at h1
        rw [hf] at h1
        cases hm : leaveFrct q.shm f with
        | ub => dsimp only at h1; rw [hm] at h1; cases h1
        | ok m =>
          dsimp only at h1; rw [hm] at h1
          have := Outcome.ok.inj h1
          have h9 := congrArg (fun p : Proc => p.flows fd) this
          change upd q.flows fd none fd = q.flows fd at h9
          rw [upd_same, hf] at h9; cases h9
      · rw [hf] at hf'; cases hf'
        refine ⟨?_, ?_, ?_, ?_⟩
        · intro x g hg
          rw [h8] at hg
          by_cases hx : x = fd
          · subst hx; rw [upd_same] at hg; cases hg
          · rw [upd_ne _ _ hx] at hg; exact e.raw x g hg
        · rw [h4]; exact e.loop
        · intro x y hy hn
          rw [hpend] at hy
          change upd t.dead f.id true y.flow = true
          by_cases hyid : y.flow = f.id
          · rw [hyid, upd_same]
          · rw [upd_ne _ _ hyid]
            rw [h7, upd_ne _ _ hyid] at hn
            exact e.known x y hy hn
        · intro x hx
          rw [hpend]
          obtain ⟨l, g1, g2⟩ := e.reads x hx
          refine ⟨l, Thinned.mono ?_ g1, g2⟩
          rintro a (ha | ⟨ha, hb⟩)
          · exact .inl ha
          · refine .inr ⟨ha, ?_⟩
            change upd t.dead f.id true a.1.flow = true
            unfold upd; split
            · rfl
            · exact hb
  | push id k => exact ⟨_, _, _, rfl, e.raw, e.loop, e.known, e.reads⟩
  | read id => exact ⟨_, _, _, rfl, e.raw, e.loop, e.known, e.reads⟩
  | notify id ev =>
    obtain ⟨m, h1, h2, h3, h4, h5⟩ := shmNotify_ok (m := p.shm) (ev := ev) hv.1 (i.room hv.2.1)
    exact ⟨{ p with shm := m }, .unit, none, by change (shmNotify p.shm id ev >>= _) = _; rw [h1]; rfl,
      EInv.notified i e hv.2.2 h3 h4 h5⟩
  | fevent s =>
    change ∃ q r x, (fevent p s >>= _) = _ ∧ EInv q t
    unfold fevent
    dsimp only
    split
    · exact ⟨p, _, _, rfl, e⟩
    · next hc =>
      have hrest : (p.fq s).evs.drop (p.fq s).next = [] := by
        refine List.drop_eq_nil_of_le ?_
        by_cases hl : (p.fq s).looping = true
        · rw [e.loop s hl]
        · have hl' : (p.fq s).looping = false := by simpa using hl
          rw [hl'] at hc
          simp only [true_and, not_and, ne_eq, Decidable.not_not] at hc
          by_cases h0 : (p.fq s).evs.length > 0
          · rw [hc h0]
          · omega
      unfold shmWait
      rw [if_pos (show s < maxSets from hv)]
      split
      · rw [Outcome.bind_ok]
        refine ⟨_, _, _, rfl, e.raw, ?_, ?_, ?_⟩
        · intro x h
          dsimp only at h ⊢
          by_cases hx : x = s
          · subst hx; rw [upd_same] at h; cases h
          · rw [upd_ne _ _ hx] at h ⊢; exact e.loop x h
        · intro x y hy hn
          refine e.known x y ?_ hn
          unfold pending at hy ⊢
          dsimp only at hy
          by_cases hx : x = s
          · subst hx; rw [upd_same] at hy; exact hy
          · rw [upd_ne _ _ hx] at hy; exact hy
        · intro x hx
          have := e.reads x hx
          unfold pending at this ⊢
          dsimp only
          by_cases hx : x = s
          · subst hx; rw [upd_same]; exact this
          · rw [upd_ne _ _ hx]; exact this
      · rw [if_pos (i.heads s), Outcome.bind_ok]
        dsimp only
        -- the process after the copy, before the filter
        have hi1 : Inv { p with
            shm := { p.shm with heads := upd p.shm.heads s 0 },
            fq := upd p.fq s { evs := (List.range (p.shm.heads s)).map fun j => p.shm.mem (qSize * s + j), next := 0,
                               looping := false } } t := by
          refine i.frame rfl rfl rfl rfl rfl rfl rfl ?_ ?_ ?_
          · intro x; dsimp only [upd]; split
            · exact Nat.zero_le _
            · exact i.heads x
          · intro x hx; dsimp only [upd]; split
            · rfl
            · exact i.idle x hx
          · intro x; dsimp only
            by_cases hx : x = s
            · subst hx; rw [upd_same]; exact Nat.zero_le _
            · rw [upd_ne _ _ hx]; exact i.fqNext x
        have hpend : ∀ x, pending { p with
            shm := { p.shm with heads := upd p.shm.heads s 0 },
            fq := upd p.fq s { evs := (List.range (p.shm.heads s)).map fun j => p.shm.mem (qSize * s + j), next := 0,
                               looping := false } } x = pending p x := by
          intro x
          unfold pending shmQ
          dsimp only
          by_cases hx : x = s
          · subst hx; rw [upd_same, upd_same, hrest]; simp
          · rw [upd_ne _ _ hx, upd_ne _ _ hx]
        have he1 : EInv { p with
            shm := { p.shm with heads := upd p.shm.heads s 0 },
            fq := upd p.fq s { evs := (List.range (p.shm.heads s)).map fun j => p.shm.mem (qSize * s + j), next := 0,
                               looping := false } } t := by
          refine ⟨e.raw, ?_, ?_, ?_⟩
          · intro x h
            dsimp only at h ⊢
            by_cases hx : x = s
            · subst hx; rw [upd_same] at h; cases h
            · rw [upd_ne _ _ hx] at h ⊢; exact e.loop x h
          · intro x y hy hn; rw [hpend] at hy; exact e.known x y hy hn
          · intro x hx; rw [hpend]; exact e.reads x hx
        obtain ⟨k, h1, h2, h3⟩ := fqueueFilter_raw hi1 he1 s
        generalize hp1 : ({ p with
            shm := { p.shm with heads := upd p.shm.heads s 0 },
            fq := upd p.fq s { evs := (List.range (p.shm.heads s)).map fun j => p.shm.mem (qSize * s + j), next := 0,
                               looping := false } } : Proc) = p1 at *
        rw [h2, Outcome.bind_ok]
        have hskip := EInv.skip hi1 he1 h1 h3
        dsimp only
        split
        · exact ⟨_, _, _, rfl, hskip⟩
        · next hr =>
          have hlen : (p1.fq s).next + k = (p1.fq s).evs.length := by
            have : ¬ (p1.fq s).next + k < (p1.fq s).evs.length := by simpa using hr
            omega
          refine ⟨_, _, _, rfl, hskip.raw, ?_, ?_, ?_⟩
          · intro x h
            dsimp only at h ⊢
            by_cases hx : x = s
            · subst hx; rw [upd_same, upd_same]; exact hlen
            · rw [upd_ne _ _ hx, upd_ne _ _ hx] at h ⊢; exact he1.loop x h
          · intro x y hy hn
            refine hskip.known x y ?_ hn
            unfold pending at hy ⊢
            dsimp only at hy ⊢
            by_cases hx : x = s
            · subst hx; rw [upd_same, upd_same] at hy; rw [upd_same]; exact hy
            · rw [upd_ne _ _ hx, upd_ne _ _ hx] at hy; rw [upd_ne _ _ hx]; exact hy
          · intro x hx
            have := hskip.reads x hx
            unfold pending at this ⊢
            dsimp only at this ⊢
            by_cases hx : x = s
            · subst hx; rw [upd_same] at this; rw [upd_same, upd_same]; exact this
            · rw [upd_ne _ _ hx] at this; rw [upd_ne _ _ hx, upd_ne _ _ hx]; exact this
  | next s =>
    change ∃ q r x, (fqueueNext p s >>= _) = _ ∧ EInv q _
    unfold fqueueNext
    dsimp only
    split
    · exact ⟨p, _, none, rfl, e⟩
    · next hne =>
      have hn := i.fqNext s
      obtain ⟨k, h1, h2, h3⟩ : ∃ k, (p.fq s).next + k ≤ (p.fq s).evs.length ∧
          filterNext p s = .ok ({ p with fq := upd p.fq s { p.fq s with next := (p.fq s).next + k } },
            decide ((p.fq s).next + k < (p.fq s).evs.length)) ∧
          ∀ x ∈ ((p.fq s).evs.drop (p.fq s).next).take k, x.event = FLOW_PKT ∧ p.idToFd x.flow = none := by
        unfold filterNext
        split
        · exact fqueueFilter_raw i e s
        · refine ⟨0, hn, ?_, by simp⟩
          rw [Nat.add_zero, decide_eq_true (by omega)]
          have : upd p.fq s { p.fq s with next := (p.fq s).next } = p.fq := by
            funext x; dsimp only [upd]; split
            · next hx => subst hx; rfl
            · rfl
          rw [this]
      rw [h2, Outcome.bind_ok]
      have hskip := EInv.skip i e h1 h3
      dsimp only
      split
      · exact ⟨_, _, none, rfl, hskip⟩
      · next hr =>
        have hlt : (p.fq s).next + k < (p.fq s).evs.length := by simpa using hr
        have hrd : rd (upd p.fq s { p.fq s with next := (p.fq s).next + k } s).evs
            (upd p.fq s { p.fq s with next := (p.fq s).next + k } s).next = .ok ((p.fq s).evs[(p.fq s).next + k]) := by
          rw [upd_same]; unfold rd; dsimp only; rw [List.getElem?_eq_getElem hlt]
        rw [hrd]
        simp only [Outcome.bind_ok, Outcome.pure_eq]
        refine ⟨_, _, _, rfl, ?_⟩
        have hpend : pending { p with fq := upd p.fq s { p.fq s with next := (p.fq s).next + k } } s =
            (p.fq s).evs[(p.fq s).next + k] ::
              ((p.fq s).evs.drop ((p.fq s).next + k + 1) ++ shmQ p.shm s) := by
          unfold pending
          dsimp only
          rw [upd_same]
          dsimp only
          rw [List.drop_eq_getElem_cons hlt]; rfl
        refine ⟨hskip.raw, ?_, ?_, ?_⟩
        · intro x hx
          dsimp only at hx ⊢
          by_cases hxs : x = s
          · subst hxs; rw [upd_same, upd_same] at hx ⊢
            have := e.loop x hx
            dsimp only at this ⊢
            omega
          · rw [upd_ne _ _ hxs, upd_ne _ _ hxs] at hx ⊢; exact e.loop x hx
        · intro x y hy hn
          by_cases hxs : x = s
          · subst hxs
            refine hskip.known x y ?_ hn
            rw [hpend]
            refine List.mem_cons_of_mem _ ?_
            unfold pending at hy
            dsimp only at hy
            rw [upd_same, upd_same] at hy
            exact hy
          · refine hskip.known x y ?_ hn
            unfold pending at hy ⊢
            dsimp only at hy ⊢
            rw [upd_ne _ _ hxs] at hy
            exact hy
        · intro x hx
          have hrd := hskip.reads x hx
          change Reads t.dead (t.log x) (upd t.out s (t.out s ++ [_]) x ++ _)
          by_cases hxs : x = s
          · subst hxs
            rw [hpend] at hrd
            rw [upd_same]
            unfold pending
            dsimp only
            rw [upd_same, upd_same]
            rw [List.append_assoc]
            exact hrd
          · rw [upd_ne _ _ hxs]
            unfold pending at hrd ⊢
            dsimp only at hrd ⊢
            rw [upd_ne _ _ hxs] at ⊢
            exact hrd

end Ouro.FlowSet
