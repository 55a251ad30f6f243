import Verif.Proof.RegistryBind

/-!
# The accepting processes of a name are kept in the order of the load-balancing policy
-/

namespace Ouro.Registry

open Spec.Registry

/-- The order of the accepting processes: by the time since which they are available, or the reverse. -/
def Ord (pol : Pol) (g : Nat → Option Nat) (l : List Nat) : Prop :=
  l.Pairwise (fun p q => ∀ u v, g p = some u → g q = some v → if pol = .rr then u < v else v < u)

theorem Ord.congr {pol : Pol} {g g' : Nat → Option Nat} {l : List Nat} (h : Ord pol g l) (hg : ∀ p ∈ l, g' p = g p) : Ord pol g' l := by
  refine List.Pairwise.imp_of_mem ?_ h
  intro p q hp hq hpq u v hu hv
  exact hpq u v (by rw [← hg p hp]; exact hu) (by rw [← hg q hq]; exact hv)

theorem Ord.sub {pol : Pol} {g : Nat → Option Nat} {l l' : List Nat} (h : Ord pol g l) (hs : l'.Sublist l) : Ord pol g l' :=
  List.Pairwise.sublist hs h

theorem Ord.add {pol : Pol} {g : Nat → Option Nat} {l : List Nat} {t p : Nat} (h : Ord pol g l) (hp : g p = some t)
    (hl : ∀ q ∈ l, ∀ u, g q = some u → u < t) : Ord pol g (addPos pol l p) := by
  unfold addPos
  split
  · rename_i hr
    unfold Ord
    rw [List.pairwise_append]
    refine ⟨h, List.pairwise_singleton _ _, ?_⟩
    intro a ha b hb u v hu hv
    rw [List.mem_singleton.mp hb, hp] at hv
    rw [if_pos hr, ← Option.some.inj hv]
    exact hl a ha u hu
  · rename_i hr
    unfold Ord
    rw [List.pairwise_cons]
    refine ⟨?_, h⟩
    intro b hb u v hu hv
    rw [hp] at hu
    rw [if_neg hr, ← Option.some.inj hu]
    exact hl b hb v hv

/-- The accepting processes of a name are those that are available for it, in order. -/
structure NameOk (pol : Pol) (l : List Nat) (g : Nat → Option Nat) : Prop where
  nodup : l.Nodup
  avail : ∀ p, p ∈ l ↔ (g p).isSome
  ord : Ord pol g l

/-- What holds of the accepting processes. -/
structure ActInv (s : Reg) (t : Nat) (f : Since Str) (φ : Nat → Phase) : Prop where
  each : ∀ n ∈ s.names, NameOk n.pol n.active (f n.name)
  ghost : ∀ x p, (f x p).isSome → ∃ n ∈ s.names, n.name = x
  bound : ∀ x p u, f x p = some u → u < t
  idle : ∀ p, φ p = .idle → (∀ g ∈ s.flows, g.info.state = .acceptPending → g.info.npid ≠ p) ∧ ∀ x, f x p = none
  prep : ∀ p, φ p = .prepared → ∀ x, f x p = none
  wait : ∀ p w, φ p = .waiting w → ∀ g ∈ s.flows, g.info.state = .acceptPending → g.info.npid = p → g.ptr = w
  one : ∀ g ∈ s.flows, ∀ h ∈ s.flows, g.info.state = .acceptPending → h.info.state = .acceptPending → g.info.npid = h.info.npid → g.ptr = h.ptr

/-- No new waiting flow. -/
def Sub (s s' : Reg) : Prop :=
  ∀ g' ∈ s'.flows, g'.info.state = .acceptPending → ∃ g ∈ s.flows, g.info.state = .acceptPending ∧ g.info.npid = g'.info.npid ∧ g.ptr = g'.ptr

theorem Sub.same {s s' : Reg} (h : s'.flows = s.flows) : Sub s s' := by
  intro g hg hs
  rw [h] at hg
  exact ⟨g, hg, hs, rfl, rfl⟩

theorem Sub.set {s s' : Reg} {f g : Flow} (hf : f ∈ s.flows) (hc : Chg' f g) (h : s'.flows = (setFlow s g).flows) : Sub s s' := by
  intro x hx hs
  rw [h] at hx
  obtain ⟨y, hy, rfl⟩ := List.mem_map.mp hx
  by_cases hp : y.ptr = g.ptr
  · rw [if_pos hp] at hs ⊢
    exact ⟨f, hf, hc.acc hs, hc.npid.symm, hc.ptr.symm⟩
  · rw [if_neg hp] at hs ⊢
    exact ⟨y, hy, hs, rfl, rfl⟩

/-- Names change without a change of the accepting processes; no flow starts to wait. -/
theorem ActInv.frame {s s' : Reg} {t : Nat} {f : Since Str} {φ : Nat → Phase} (h : ActInv s t f φ) (hs : Sub s s')
    (h1 : ∀ n' ∈ s'.names, ∃ n ∈ s.names, n.name = n'.name ∧ n.pol = n'.pol ∧ n.active = n'.active)
    (h2 : ∀ n ∈ s.names, ∃ n' ∈ s'.names, n'.name = n.name) : ActInv s' t f φ := by
  refine ⟨?_, ?_, h.bound, ?_, h.prep, ?_, ?_⟩
  · intro n' hn'
    obtain ⟨n, hn, e1, e2, e3⟩ := h1 n' hn'
    rw [← e1, ← e2, ← e3]
    exact h.each n hn
  · intro x p hx
    obtain ⟨n, hn, rfl⟩ := h.ghost x p hx
    exact h2 n hn
  · intro p hp
    refine ⟨?_, (h.idle p hp).2⟩
    intro g' hg' hst
    obtain ⟨g, hg, e1, e2, _⟩ := hs g' hg' hst
    rw [← e2]
    exact (h.idle p hp).1 g hg e1
  · intro p w hp g' hg' hst hnp
    obtain ⟨g, hg, e1, e2, e3⟩ := hs g' hg' hst
    rw [← e3]
    exact h.wait p w hp g hg e1 (e2.trans hnp)
  · intro g' hg' k' hk' hst hst' hnp
    obtain ⟨g, hg, e1, e2, e3⟩ := hs g' hg' hst
    obtain ⟨k, hk, e4, e5, e6⟩ := hs k' hk' hst'
    rw [← e3, ← e6]
    exact h.one g hg k hk e1 e4 (by rw [e2, e5, hnp])

theorem ActInv.same {s s' : Reg} {t : Nat} {f : Since Str} {φ : Nat → Phase} (h : ActInv s t f φ) (hs : Sub s s')
    (h1 : s'.names = s.names) : ActInv s' t f φ :=
  h.frame hs (fun n hn => ⟨n, h1 ▸ hn, rfl, rfl, rfl⟩) (fun n hn => ⟨n, h1 ▸ hn, rfl⟩)

theorem ActInv.mapped {s s' : Reg} {t : Nat} {f : Since Str} {φ : Nat → Phase} (h : ActInv s t f φ) (hs : Sub s s') {u : Name → Name}
    (hu : ∀ n ∈ s.names, (u n).name = n.name ∧ (u n).pol = n.pol ∧ (u n).active = n.active) (h1 : s'.names = s.names.map u) : ActInv s' t f φ := by
  refine h.frame hs ?_ ?_
  · rw [h1]
    intro n hn
    obtain ⟨m, hm, rfl⟩ := List.mem_map.mp hn
    exact ⟨m, hm, (hu m hm).1.symm, (hu m hm).2.1.symm, (hu m hm).2.2.symm⟩
  · rw [h1]
    exact fun n hn => ⟨u n, List.mem_map_of_mem hn, (hu n hn).1⟩

theorem ActInv.set {s s' : Reg} {t : Nat} {f : Since Str} {φ : Nat → Phase} (h : ActInv s t f φ) (hs : Sub s s')
    (hk : Keyed (fun n : Name => n.name) s.names s.nNames) {m m' : Name} (hm : m ∈ s.names)
    (e : m'.name = m.name ∧ m'.pol = m.pol ∧ m'.active = m.active) (h1 : s'.names = (setName s m').names) : ActInv s' t f φ := by
  refine h.mapped hs (u := fun x => if x.name = m'.name then m' else x) (fun x hx => ?_) h1
  split
  · rename_i hp
    rw [hk.inj hx hm (hp.trans e.1)]
    exact e
  · exact ⟨rfl, rfl, rfl⟩

theorem ActInv.later {s : Reg} {t t' : Nat} {f : Since Str} {φ : Nat → Phase} (h : ActInv s t f φ) (ht : t ≤ t') : ActInv s t' f φ :=
  ⟨h.each, h.ghost, fun x p u hu => Nat.lt_of_lt_of_le (h.bound x p u hu) ht, h.idle, h.prep, h.wait, h.one⟩

/-- What a process does next is in order. -/
def InOrder (φ : Nat → Phase) : BEv Str Str → Prop
  | .prepare p => φ p = .idle
  | .accept p _ => φ p = .prepared
  | .done p w => φ p = .waiting w
  | .bind _ p => φ p = .idle
  | _ => True

theorem not_active {s : Reg} {t : Nat} {f : Since Str} {φ : Nat → Phase} (h : ActInv s t f φ) {n : Name} (hn : n ∈ s.names) {p : Nat}
    (hp : f n.name p = none) : p ∉ n.active := by
  intro hc
  have := ((h.each n hn).avail p).mp hc
  rw [hp] at this
  cases this

/-- A name loses a process. -/
theorem NameOk.drop {pol : Pol} {l l' : List Nat} {g g' : Nat → Option Nat} (h : NameOk pol l g) {p : Nat} (hs : l'.Sublist l)
    (hm : ∀ q, q ∈ l' ↔ q ∈ l ∧ q ≠ p) (hp : g' p = none) (hg : ∀ q, q ≠ p → g' q = g q) : NameOk pol l' g' := by
  refine ⟨h.nodup.sublist hs, ?_, ?_⟩
  · intro q
    rw [hm q, h.avail q]
    by_cases hq : q = p
    · subst hq
      simp [hp]
    · rw [hg q hq]
      simp [hq]
  · refine (h.ord.sub hs).congr ?_
    intro q hq
    exact hg q ((hm q).mp hq).2

theorem dropProc_sub (p : Nat) (n : Name) : (dropProc p n).active.Sublist n.active := by
  unfold dropProc
  split
  · exact List.filter_sublist
  · exact List.Sublist.refl _

theorem since_accept {b : Bindings Str Str} {t : Nat} {f : Since Str} {p w : Nat} {x : Str} (h : b.proc x p) :
    (BEv.accept p w : BEv Str Str).since b t f x p = some t := by
  unfold BEv.since
  try dsimp only
  exact if_pos ⟨rfl, h⟩

theorem since_accept_ne {b : Bindings Str Str} {t : Nat} {f : Since Str} {p w q : Nat} {x : Str} (h : ¬ (q = p ∧ b.proc x p)) :
    (BEv.accept p w : BEv Str Str).since b t f x q = f x q := by
  unfold BEv.since
  try dsimp only
  exact if_neg h

theorem since_unbind {b : Bindings Str Str} {t : Nat} {f : Since Str} {p : Nat} {x : Str} :
    (BEv.unbind x p : BEv Str Str).since b t f x p = none := by
  unfold BEv.since
  try dsimp only
  exact if_pos ⟨rfl, rfl⟩

theorem since_unbind_ne {b : Bindings Str Str} {t : Nat} {f : Since Str} {p q : Nat} {n x : Str} (h : ¬ (x = n ∧ q = p)) :
    (BEv.unbind n p : BEv Str Str).since b t f x q = f x q := by
  unfold BEv.since
  try dsimp only
  exact if_neg h

theorem ActInv.step {s s' : Reg} {op : Op} {o : Out} {b : Bindings Str Str} {t : Nat} {f : Since Str} {φ : Nat → Phase}
    (hb : BndInv s b) (h : ActInv s t f φ) (he : Eff s op o s') (hord : ∀ e, bindEv (op, o) = some e → InOrder φ e) :
    match bindEv (op, o) with
      | none => ActInv s' t f φ
      | some e => ActInv s' (t + 1) (e.since b t f) (e.phase φ) := by
  have hl := h.later (Nat.le_succ t)
  cases he with
  | same hq => rw [quiet_bind hq]; exact h
  | change hq hf hc => rw [quiet_bind hq]; exact h.same (.set hf hc rfl) rfl
  | full => exact h.same (.same rfl) rfl
  | @create i b' id hst =>
    refine h.same (s' := { s with ids := b', flows := addAfter (fun g => decide (g.info.id > id)) ⟨s.fresh, { i with id := id }, false, false, none⟩ s.flows, nFlows := s.nFlows + 1, fresh := s.fresh + 1 }) ?_ rfl
    intro g hg hs
    rcases mem_addAfter.mp hg with rfl | hg
    · dsimp only at hs
      rw [hst] at hs
      cases hs
    · exact ⟨g, hg, hs, rfl, rfl⟩
  | @destroy id f' b' r hf =>
    refine h.same (s' := { s with flows := s.flows.filter (fun g => g.ptr != f'.ptr), nFlows := s.nFlows - 1, ids := b' }) ?_ rfl
    intro g hg hs
    exact ⟨g, (List.mem_filter.mp hg).1, hs, rfl, rfl⟩
  | @prepare i b' f' g hf hid hst hc hst' hnp =>
    have ho := hord (.prepare i.npid) (by simp [bindEv])
    simp only [InOrder] at ho
    simp only [bindEv, if_true, BEv.since, BEv.phase]
    have hmem : ∀ x ∈ (setFlow s g).flows, x = g ∨ (x ∈ s.flows) := by
      intro x hx
      obtain ⟨y, hy, rfl⟩ := List.mem_map.mp hx
      split
      · exact .inl rfl
      · exact .inr hy
    refine ⟨h.each, h.ghost, hl.bound, ?_, ?_, ?_, ?_⟩
    · intro p hp
      try dsimp only at hp
      split at hp
      · cases hp
      · rename_i hne
        refine ⟨?_, (h.idle p hp).2⟩
        intro x hx hxs
        rcases hmem x hx with rfl | hx
        · rw [hnp]; exact fun hc => hne hc.symm
        · exact (h.idle p hp).1 x hx hxs
    · intro p hp
      try dsimp only at hp
      split at hp
      · rename_i hne
        rw [hne]
        exact (h.idle _ ho).2
      · exact h.prep p hp
    · intro p w hp x hx hxs hxp
      try dsimp only at hp
      split at hp
      · cases hp
      · rename_i hne
        rcases hmem x hx with rfl | hx
        · rw [hnp] at hxp
          exact absurd hxp.symm hne
        · exact h.wait p w hp x hx hxs hxp
    · intro x hx y hy hxs hys hxy
      rcases hmem x hx with rfl | hx
      · rcases hmem y hy with rfl | hy'
        · rfl
        · rw [hnp] at hxy
          exact absurd hxy.symm ((h.idle _ ho).1 y hy' hys)
      · rcases hmem y hy with rfl | hy
        · rw [hnp] at hxy
          exact absurd hxy ((h.idle _ ho).1 x (by assumption) hxs)
        · exact h.one x hx y hy hxs hys hxy
  | @accept i f' hf hst hnp =>
    have ho := hord (.accept i.npid f'.ptr) (by simp [bindEv])
    simp only [InOrder] at ho
    have hnone := h.prep _ ho
    simp only [bindEv]
    have hph : ∀ p, (BEv.accept i.npid f'.ptr : BEv Str Str).phase φ p = if p = i.npid then .waiting f'.ptr else φ p := fun _ => rfl
    have hbp : ∀ n ∈ s.names, b.proc n.name i.npid ↔ i.npid ∈ n.procs := by
      intro n hn
      rw [hb.byName n.name i.npid]
      exact ex_one (key := fun n : Name => n.name) hb.kn hn (P := fun n => i.npid ∈ n.procs)
    refine ⟨?_, ?_, ?_, ?_, ?_, ?_, h.one⟩
    · intro n' hn'
      obtain ⟨n, hn, rfl⟩ := List.mem_map.mp hn'
      rw [(markActive_name _ n).1, (markActive_name _ n).2.1]
      have hna := not_active h hn (hnone n.name)
      have hx := h.each n hn
      unfold markActive
      split
      · rename_i hpn
        try dsimp only
        have hself : (BEv.accept i.npid f'.ptr : BEv Str Str).since b t f n.name i.npid = some t := since_accept ((hbp n hn).mpr hpn)
        have hoth : ∀ q, q ≠ i.npid → (BEv.accept i.npid f'.ptr : BEv Str Str).since b t f n.name q = f n.name q :=
          fun q hq => since_accept_ne (fun hc => hq hc.1)
        refine ⟨?_, ?_, ?_⟩
        · unfold addPos
          split
          · exact List.nodup_append.mpr ⟨hx.nodup, List.nodup_singleton _, fun a ha b hb hab => by
              rw [List.mem_singleton.mp hb] at hab
              exact hna (hab ▸ ha)⟩
          · exact List.nodup_cons.mpr ⟨hna, hx.nodup⟩
        · intro q
          rw [mem_addPos, hx.avail q]
          by_cases hq : q = i.npid
          · subst hq
            rw [hself]
            simp
          · rw [hoth q hq]
            simp [hq]
        · refine Ord.add (t := t) (hx.ord.congr ?_) hself ?_
          · intro q hq
            exact hoth q (fun hc => hna (hc ▸ hq))
          · intro q hq u hu
            rw [hoth q (fun hc => hna (hc ▸ hq))] at hu
            exact h.bound _ _ _ hu
      · rename_i hpn
        have hsame : ∀ q, (BEv.accept i.npid f'.ptr : BEv Str Str).since b t f n.name q = f n.name q :=
          fun q => since_accept_ne (fun hc => hpn ((hbp n hn).mp hc.2))
        refine ⟨hx.nodup, ?_, hx.ord.congr (fun q _ => hsame q)⟩
        intro q
        rw [hsame q]
        exact hx.avail q
    · intro x p hx
      have : ∃ n ∈ s.names, n.name = x := by
        unfold BEv.since at hx
        try dsimp only at hx
        split at hx
        · rename_i hc
          obtain ⟨n, hn, h1, _⟩ := (hb.byName x i.npid).mp hc.2
          exact ⟨n, hn, h1⟩
        · exact h.ghost x p hx
      obtain ⟨n, hn, rfl⟩ := this
      exact ⟨_, List.mem_map_of_mem hn, (markActive_name _ n).1⟩
    · intro x p u hu
      unfold BEv.since at hu
      try dsimp only at hu
      split at hu
      · rw [← Option.some.inj hu]; exact Nat.lt_succ_self _
      · exact hl.bound x p u hu
    · intro p hp
      rw [hph] at hp
      split at hp
      · cases hp
      · rename_i hne
        refine ⟨(h.idle p hp).1, fun x => ?_⟩
        rw [since_accept_ne (fun hc => hne hc.1)]
        exact (h.idle p hp).2 x
    · intro p hp x
      rw [hph] at hp
      split at hp
      · cases hp
      · rename_i hne
        rw [since_accept_ne (fun hc => hne hc.1)]
        exact h.prep p hp x
    · intro p w hp g hg hgs hgp
      rw [hph] at hp
      split at hp
      · rename_i heq
        cases hp
        exact h.one g hg f' hf hgs hst (by rw [hgp, heq, hnp])
      · exact h.wait p w hp g hg hgs hgp
  | @done p i tm f' g r d hf hptr hc hns =>
    have ho := hord (.done g.info.npid p) (by simp [bindEv])
    simp only [InOrder] at ho
    simp only [bindEv, BEv.since, BEv.phase]
    rw [hc.npid] at ho ⊢
    have hmem : ∀ x ∈ (setFlow { s with names := s.names.map (unmark f'.info.npid) } g).flows, x.info.state = .acceptPending →
        x ∈ s.flows ∧ x.ptr ≠ p := by
      intro x hx hxs
      obtain ⟨y, hy, rfl⟩ := List.mem_map.mp hx
      by_cases hp : y.ptr = g.ptr
      · rw [if_pos hp] at hxs; exact absurd hxs hns
      · rw [if_neg hp]
        exact ⟨hy, fun hc' => hp (by rw [hc.ptr, hptr, hc'])⟩
    refine ⟨?_, ?_, ?_, ?_, ?_, ?_, ?_⟩
    · intro n' hn'
      obtain ⟨n, hn, rfl⟩ := List.mem_map.mp hn'
      refine (h.each n hn).drop (p := f'.info.npid) (List.erase_sublist) ?_ ?_ ?_
      · intro q
        exact (h.each n hn).nodup.mem_erase_iff.trans and_comm
      · try dsimp only
        rw [if_pos rfl]
      · intro q hq
        try dsimp only
        rw [if_neg hq]
        rfl
    · intro x q hx
      try dsimp only at hx
      split at hx
      · cases hx
      · obtain ⟨n, hn, rfl⟩ := h.ghost x q hx
        exact ⟨_, List.mem_map_of_mem hn, rfl⟩
    · intro x q u hu
      try dsimp only at hu
      split at hu
      · cases hu
      · exact hl.bound x q u hu
    · intro q hq
      try dsimp only at hq ⊢
      split at hq
      · rename_i heq
        refine ⟨?_, fun x => if_pos heq⟩
        intro x hx hxs hxq
        obtain ⟨hx1, hx2⟩ := hmem x hx hxs
        exact hx2 (h.wait _ _ ho x hx1 hxs (hxq.trans heq))
      · rename_i hne
        refine ⟨?_, fun x => by rw [if_neg hne]; exact (h.idle q hq).2 x⟩
        intro x hx hxs
        exact (h.idle q hq).1 x (hmem x hx hxs).1 hxs
    · intro q hq x
      try dsimp only at hq ⊢
      split at hq
      · cases hq
      · rename_i hne
        rw [if_neg hne]
        exact h.prep q hq x
    · intro q w hq x hx hxs hxp
      try dsimp only at hq
      split at hq
      · cases hq
      · exact h.wait q w hq x (hmem x hx hxs).1 hxs hxp
    · intro x hx y hy hxs hys
      exact h.one x (hmem x hx hxs).1 y (hmem y hy hys).1 hxs hys
  | createIpcp => exact h.same (.same rfl) rfl
  | respondIpcp => exact h.same (.same rfl) rfl
  | setLayer => exact h.same (.same rfl) rfl
  | createSpawned => exact h.same (.same rfl) rfl
  | @createName n p hn =>
    refine ⟨?_, ?_, h.bound, h.idle, h.prep, h.wait, h.one⟩
    · intro m hm
      rcases mem_addAfter.mp hm with rfl | hm
      · refine ⟨List.nodup_nil, ?_, List.Pairwise.nil⟩
        intro q
        have : f n q = none := by
          cases hq : f n q with
          | none => rfl
          | some u =>
            obtain ⟨m, hm, hmn⟩ := h.ghost n q (by rw [hq]; rfl)
            exact absurd hmn (find_none_iff.mp hn m hm)
        simp [nameCreate, this]
      · exact h.each m hm
    · intro x q hx
      obtain ⟨m, hm, rfl⟩ := h.ghost x q hx
      exact ⟨m, mem_addAfter.mpr (.inr hm), rfl⟩
  | @destroyName n e hn h1 h2 h3 =>
    have hen := (getName_mem hn).2
    have hem := (getName_mem hn).1
    simp only [bindEv, if_true, BEv.since, BEv.phase]
    refine ⟨?_, ?_, ?_, ?_, ?_, h.wait, h.one⟩
    · intro m hm
      obtain ⟨hm1, hm2⟩ := List.mem_filter.mp hm
      have hne : m.name ≠ n := by rw [hen] at hm2; simpa using hm2
      simp only [if_neg hne]
      exact h.each m hm1
    · intro x q hx
      try dsimp only at hx
      split at hx
      · cases hx
      · rename_i hne
        obtain ⟨m, hm, rfl⟩ := h.ghost x q hx
        exact ⟨m, List.mem_filter.mpr ⟨hm, by rw [hen]; simpa using hne⟩, rfl⟩
    · intro x q u hu
      try dsimp only at hu
      split at hu
      · cases hu
      · exact hl.bound x q u hu
    · intro q hq
      refine ⟨(h.idle q hq).1, fun x => ?_⟩
      try dsimp only
      split
      · rfl
      · exact (h.idle q hq).2 x
    · intro q hq x
      try dsimp only
      split
      · rfl
      · exact h.prep q hq x
  | createProc => exact hl.same (.same rfl) rfl
  | startProc => exact hl.mapped (.same rfl) (fun n _ => joinName_name _ _ n) rfl
  | @destroyProc p _ hd =>
    obtain ⟨_, _, _, _, _, _, _, _, h4, _⟩ := destroyProc_parts hd
    simp only [bindEv, if_true, BEv.since, BEv.phase]
    have hsub : Sub s s' := by
      obtain ⟨_, h5, _⟩ | ⟨e, _, h5, _⟩ := h4
      · exact .same h5
      · intro x hx hxs
        rw [h5] at hx
        obtain ⟨y, hy, rfl⟩ := List.mem_map.mp hx
        unfold cancelled at hxs ⊢
        split at hxs
        · cases hxs
        · rename_i hne
          rw [if_neg hne]
          exact ⟨y, hy, hxs, rfl, rfl⟩
    have hname : ∀ n' ∈ s'.names, ∃ n ∈ s.names, n'.name = n.name ∧ n'.pol = n.pol ∧ n'.active.Sublist n.active ∧
        ∀ q, q ∈ n'.active ↔ q ∈ n.active ∧ q ≠ p := by
      obtain ⟨h6, _, h5, _⟩ | ⟨e, _, _, h5, _⟩ := h4
      · intro n hn
        rw [h5] at hn
        refine ⟨n, hn, rfl, rfl, List.Sublist.refl _, fun q => ⟨fun hq => ⟨hq, ?_⟩, fun hq => hq.1⟩⟩
        rintro rfl
        obtain ⟨r, hr, h7, _⟩ := (hb.byProc n.name q).mp ((hb.byName n.name q).mpr ⟨n, hn, rfl, hb.act n hn q hq⟩)
        exact find_none_iff.mp h6 r hr h7
      · intro n' hn'
        rw [h5] at hn'
        obtain ⟨n, hn, rfl⟩ := List.mem_map.mp hn'
        exact ⟨n, hn, (dropProc_name p n).1, (dropProc_name p n).2.1, dropProc_sub p n, fun _ => dropProc_active (hb.act n hn)⟩
    have hback : ∀ n ∈ s.names, ∃ n' ∈ s'.names, n'.name = n.name := by
      obtain ⟨_, _, h5, _⟩ | ⟨e, _, _, h5, _⟩ := h4
      · intro n hn; exact ⟨n, h5 ▸ hn, rfl⟩
      · intro n hn
        rw [h5]
        exact ⟨_, List.mem_map_of_mem hn, (dropProc_name p n).1⟩
    refine ⟨?_, ?_, ?_, ?_, ?_, ?_, ?_⟩
    · intro n' hn'
      obtain ⟨n, hn, e1, e2, e3, e4⟩ := hname n' hn'
      rw [e1, e2]
      exact (h.each n hn).drop e3 e4 (if_pos rfl) (fun q hq => if_neg hq)
    · intro x q hx
      try dsimp only at hx
      split at hx
      · cases hx
      · obtain ⟨n, hn, rfl⟩ := h.ghost x q hx
        exact hback n hn
    · intro x q u hu
      try dsimp only at hu
      split at hu
      · cases hu
      · exact hl.bound x q u hu
    · intro q hq
      refine ⟨?_, fun x => ?_⟩
      · intro g' hg' hst
        obtain ⟨g, hg, e1, e2, _⟩ := hsub g' hg' hst
        rw [← e2]
        exact (h.idle q hq).1 g hg e1
      · try dsimp only
        split
        · rfl
        · exact (h.idle q hq).2 x
    · intro q hq x
      try dsimp only
      split
      · rfl
      · exact h.prep q hq x
    · intro q w hq g' hg' hst hnp
      obtain ⟨g, hg, e1, e2, e3⟩ := hsub g' hg' hst
      rw [← e3]
      exact h.wait q w hq g hg e1 (e2.trans hnp)
    · intro g' hg' k' hk' hst hst' hnp
      obtain ⟨g, hg, e1, e2, e3⟩ := hsub g' hg' hst
      obtain ⟨k, hk, e4, e5, e6⟩ := hsub k' hk' hst'
      rw [← e3, ← e6]
      exact h.one g hg k hk e1 e4 (by rw [e2, e5, hnp])
  | @bindProc n p m q hn hp hnp hnn =>
    have ho := hord (.bind n p) (by simp [bindEv])
    simp only [InOrder] at ho
    refine hl.set (.same rfl) hb.kn (getName_mem hn).1 ⟨(boundName_name s p m).1, (boundName_name s p m).2.1, ?_⟩ rfl
    unfold boundName
    split
    · rename_i fl hfl
      have h1 := List.mem_of_find?_eq_some hfl
      have h2 := List.find?_some hfl
      simp only [Bool.and_eq_true, beq_iff_eq] at h2
      exact absurd h2.2 ((h.idle p ho).1 fl h1 h2.1)
    · rfl
  | @unbindProc n p m q hn hp hnp hnn =>
    obtain ⟨hmm, hmn⟩ := getName_mem hn
    simp only [bindEv, if_true]
    have hsin : ∀ x q', (BEv.unbind n p : BEv Str Str).since b t f x q' = none ∨ (BEv.unbind n p : BEv Str Str).since b t f x q' = f x q' := by
      intro x q'
      by_cases hc : x = n ∧ q' = p
      · rw [hc.1, hc.2]; exact .inl since_unbind
      · exact .inr (since_unbind_ne hc)
    refine ⟨?_, ?_, ?_, ?_, ?_, h.wait, h.one⟩
    · intro x hx
      obtain ⟨y, hy, rfl⟩ := List.mem_map.mp hx
      by_cases hyn : y.name = (dropProc p m).name
      · rw [if_pos hyn, (dropProc_name p m).1, (dropProc_name p m).2.1]
        refine (h.each m hmm).drop (dropProc_sub p m) (fun _ => dropProc_active (hb.act m hmm)) ?_ ?_
        · rw [hmn]; exact since_unbind
        · exact fun q hq => since_unbind_ne (fun hc => hq hc.2)
      · rw [if_neg hyn]
        have hne : y.name ≠ n := by rw [(dropProc_name p m).1, hmn] at hyn; exact hyn
        have : (BEv.unbind n p : BEv Str Str).since b t f y.name = f y.name := by
          funext q; exact since_unbind_ne (fun hc => hne hc.1)
        rw [this]
        exact h.each y hy
    · intro x r hx
      rcases hsin x r with hc | hc
      · rw [hc] at hx; cases hx
      · rw [hc] at hx
        obtain ⟨y, hy, rfl⟩ := h.ghost x r hx
        by_cases hyn : y.name = (dropProc p m).name
        · exact ⟨dropProc p m, List.mem_map.mpr ⟨y, hy, by rw [if_pos hyn]⟩, hyn.symm⟩
        · exact ⟨y, List.mem_map.mpr ⟨y, hy, by rw [if_neg hyn]⟩, rfl⟩
    · intro x r u hu
      rcases hsin x r with hc | hc
      · rw [hc] at hu; cases hu
      · rw [hc] at hu
        exact hl.bound x r u hu
    · intro r hr
      refine ⟨(h.idle r hr).1, fun x => ?_⟩
      rcases hsin x r with hc | hc
      · exact hc
      · exact hc.trans ((h.idle r hr).2 x)
    · intro r hr x
      rcases hsin x r with hc | hc
      · exact hc
      · exact hc.trans (h.prep r hr x)
  | createProg => exact h.same (.same rfl) rfl
  | oldProg => exact h
  | @destroyProg n e hn =>
    exact hl.mapped (.same rfl) (u := dropProg e.path) (fun n _ => ⟨(dropProg_name _ n).1, (dropProg_name _ n).2.1, (dropProg_name _ n).2.2.2⟩) rfl
  | @bindProg n e0 rest a m g hn hp hnn =>
    refine hl.set (.same rfl) hb.kn (getName_mem hn).1 (m' := if a then { m with progs := (e0 :: rest) :: m.progs } else m) ⟨?_, ?_, ?_⟩ rfl
    · split <;> rfl
    · split <;> rfl
    · split <;> rfl
  | @unbindProg n g m q hn hp hnn =>
    exact hl.set (.same rfl) hb.kn (getName_mem hn).1 (m' := dropProg g m)
      ⟨(dropProg_name _ m).1, (dropProg_name _ m).2.1, (dropProg_name _ m).2.2.2⟩ rfl

/-! ## Over a history -/

theorem sinceFrom_snoc (b : Bindings Str Str) (t : Nat) (f : Since Str) (l : List (BEv Str Str)) (e : BEv Str Str) :
    sinceFrom b t f (l ++ [e]) = e.since (l.foldl BEv.bindings b) (t + l.length) (sinceFrom b t f l) := by
  induction l generalizing b t f with
  | nil => rfl
  | cons a l ih =>
    simp only [List.cons_append, sinceFrom, List.foldl_cons, List.length_cons]
    rw [ih]
    congr 1
    omega

/-- The phases after a log. -/
def phases (l : List (BEv Str Str)) : Nat → Phase := l.foldl BEv.phase (fun _ => .idle)

theorem oneAtATime_snoc (φ : Nat → Phase) (l : List (BEv Str Str)) (e : BEv Str Str) :
    OneAtATime φ (l ++ [e]) ↔ OneAtATime φ l ∧ InOrder (l.foldl BEv.phase φ) e := by
  induction l generalizing φ with
  | nil =>
    simp only [List.nil_append, OneAtATime, and_true, true_and, List.foldl_nil]
    cases e <;> rfl
  | cons a l ih =>
    simp only [List.cons_append, OneAtATime, List.foldl_cons]
    rw [ih, and_assoc]

theorem act_inv {s : Reg} {ops : List Op} {log : List (Op × Out)} (h : run ops = .ok (s, log))
    (ho : OneAtATime (fun _ => .idle) (log.filterMap bindEv)) :
    ActInv s (log.filterMap bindEv).length (since (log.filterMap bindEv)) (phases (log.filterMap bindEv)) := by
  refine (run_ind (P := fun s log => FlowInv s ∧ BndInv s (bindings (log.filterMap bindEv)) ∧
      (OneAtATime (fun _ => .idle) (log.filterMap bindEv) →
        ActInv s (log.filterMap bindEv).length (since (log.filterMap bindEv)) (phases (log.filterMap bindEv)))) ?_ ?_ h).2.2 ho
  · intro s hs
    refine ⟨flow_init hs, bnd_init hs, fun _ => ?_⟩
    unfold init at hs
    obtain ⟨b, hb, hs⟩ := bind_eq_ok.mp hs
    cases Outcome.ok.inj hs
    refine ⟨?_, ?_, ?_, ?_, ?_, ?_, ?_⟩ <;> simp [since, sinceFrom, phases]
  · rintro s l op o s' ⟨hi, hb, ha⟩ hs
    have he := step_eff hi.ids hs
    refine ⟨hi.step he, ?_, ?_⟩
    · rw [bindings_snoc]; exact hb.step he
    · intro hone
      rw [List.filterMap_append] at hone ⊢
      cases hev : bindEv (op, o) with
      | none =>
        simp only [List.filterMap_cons, hev, List.filterMap_nil, List.append_nil] at hone ⊢
        have := (ha hone).step hb he (fun e h1 => by rw [hev] at h1; cases h1)
        rw [hev] at this
        exact this
      | some e =>
        simp only [List.filterMap_cons, hev, List.filterMap_nil] at hone ⊢
        obtain ⟨h1, h2⟩ := (oneAtATime_snoc _ _ _).mp hone
        have := (ha h1).step hb he (fun e' h3 => by rw [hev] at h3; cases h3; exact h2)
        rw [hev] at this
        rw [List.length_append, List.length_singleton]
        have e1 : since (l.filterMap bindEv ++ [e]) = e.since (bindings (l.filterMap bindEv)) (l.filterMap bindEv).length (since (l.filterMap bindEv)) := by
          unfold since
          rw [sinceFrom_snoc]
          simp [bindings]
        have e2 : phases (l.filterMap bindEv ++ [e]) = e.phase (phases (l.filterMap bindEv)) := by
          unfold phases
          rw [List.foldl_append]
          rfl
        rw [e1, e2]
        exact this

end Ouro.Registry
