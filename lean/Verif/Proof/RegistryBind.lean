import Verif.Proof.RegistryMap

/-!
# The bindings of the registry follow the log
-/

namespace Ouro.Registry

set_option linter.unusedSectionVars false

open Spec.Registry

/-- What a call means for the bindings and for the processes that accept flows. -/
def bindEv : Op × Out → Option (BEv Str Str)
  | (.createProc p g, .int r) => if r = 0 then some (.start p g) else none
  | (.destroyProc p, .int r) => if r = 0 then some (.exit p) else none
  | (.bindProc n p, .int r) => if r = 0 then some (.bind n p) else none
  | (.unbindProc n p, .int r) => if r = 0 then some (.unbind n p) else none
  | (.bindProg n (e0 :: _) _, .int r) => if r = 0 then some (.progBind n (strip e0)) else none
  | (.unbindProg n g, .int r) => if r = 0 then some (.progUnbind n g) else none
  | (.destroyProg g, .int r) => if r = 0 then some (.progGone g) else none
  | (.destroyName n, .int r) => if r = 0 then some (.nameGone n) else none
  | (.prepareAccept i _, .flow r _ _) => if r = 0 then some (.prepare i.npid) else none
  | (.waitAcceptedStart i, .ptr w) => some (.accept i.npid w)
  | (.waitAcceptedWake w _ _, .flow _ i _) => some (.done i.npid w)
  | _ => none

theorem quiet_bind {op : Op} {o : Out} (h : Quiet op o) : bindEv (op, o) = none := by
  cases op with
  | bindProg n ex a => cases ex <;> cases o <;> simp_all [Quiet, bindEv]
  | _ => cases o <;> simp_all [Quiet, bindEv]

/-- What holds of the bindings. -/
structure BndInv (s : Reg) (b : Bindings Str Str) : Prop where
  kn : Keyed (fun n : Name => n.name) s.names s.nNames
  kp : Keyed (fun p : Proc => p.pid) s.procs s.nProcs
  kg : Keyed (fun p : Prog => p.name) s.progs s.nProgs
  nd : ∀ n ∈ s.names, n.procs.Nodup
  pn : ∀ q ∈ s.procs, q.names.Nodup
  gn : ∀ g ∈ s.progs, g.names.Nodup
  act : ∀ n ∈ s.names, ∀ p ∈ n.active, p ∈ n.procs
  byName : ∀ x p, b.proc x p ↔ ∃ n ∈ s.names, n.name = x ∧ p ∈ n.procs
  byProc : ∀ x p, b.proc x p ↔ ∃ q ∈ s.procs, q.pid = p ∧ x ∈ q.names
  byProg : ∀ x g, b.prog x g ↔ ∃ q ∈ s.progs, q.name = g ∧ x ∈ q.names
  named : ∀ x g, b.prog x g → ∃ n ∈ s.names, n.name = x

/-! ## Lists with a replaced entry -/

section set
variable {α κ : Type} [DecidableEq κ] {key : α → κ} {l : List α} {m' : α}

theorem ex_set (hm : ∃ m ∈ l, key m = key m') {x : κ} {P : α → Prop} :
    (∃ n ∈ l.map (fun n => if key n = key m' then m' else n), key n = x ∧ P n) ↔
      (x = key m' ∧ P m') ∨ (x ≠ key m' ∧ ∃ n ∈ l, key n = x ∧ P n) := by
  simp only [List.mem_map, exists_exists_and_eq_and]
  constructor
  · rintro ⟨a, ha, h1, h2⟩
    by_cases hk : key a = key m'
    · rw [if_pos hk] at h1 h2
      exact .inl ⟨h1.symm, h2⟩
    · rw [if_neg hk] at h1 h2
      exact .inr ⟨fun hc => hk (h1.trans hc), a, ha, h1, h2⟩
  · rintro (⟨h1, h2⟩ | ⟨h1, a, ha, h2, h3⟩)
    · obtain ⟨m, hml, hmk⟩ := hm
      exact ⟨m, hml, by rw [if_pos hmk, h1], by rw [if_pos hmk]; exact h2⟩
    · have hk : key a ≠ key m' := fun hc => h1 (h2.symm.trans hc)
      exact ⟨a, ha, by rw [if_neg hk]; exact h2, by rw [if_neg hk]; exact h3⟩

theorem all_set {P : α → Prop} (h : ∀ n ∈ l, P n) (hm : P m') : ∀ n ∈ l.map (fun n => if key n = key m' then m' else n), P n := by
  intro n hn
  obtain ⟨a, ha, rfl⟩ := List.mem_map.mp hn
  split
  · exact hm
  · exact h a ha

theorem ex_map {u : α → α} (hu : ∀ a ∈ l, key (u a) = key a) {x : κ} {P : α → Prop} :
    (∃ n ∈ l.map u, key n = x ∧ P n) ↔ ∃ n ∈ l, key n = x ∧ P (u n) := by
  simp only [List.mem_map, exists_exists_and_eq_and]
  constructor
  · rintro ⟨a, ha, h1, h2⟩
    exact ⟨a, ha, by rw [← hu a ha]; exact h1, h2⟩
  · rintro ⟨a, ha, h1, h2⟩
    exact ⟨a, ha, by rw [hu a ha]; exact h1, h2⟩

theorem ex_add {gt : α → Bool} {y : α} {x : κ} {P : α → Prop} :
    (∃ n ∈ addAfter gt y l, key n = x ∧ P n) ↔ (key y = x ∧ P y) ∨ ∃ n ∈ l, key n = x ∧ P n := by
  simp only [mem_addAfter, exists_eq_or_imp]

theorem ex_filter {k x : κ} {P : α → Prop} [BEq κ] [LawfulBEq κ] :
    (∃ n ∈ l.filter (fun a => key a != k), key n = x ∧ P n) ↔ x ≠ k ∧ ∃ n ∈ l, key n = x ∧ P n := by
  simp only [List.mem_filter, bne_iff_ne]
  constructor
  · rintro ⟨a, ⟨ha, h1⟩, h2, h3⟩
    exact ⟨fun hc => h1 (h2.trans hc), a, ha, h2, h3⟩
  · rintro ⟨h1, a, ha, h2, h3⟩
    exact ⟨a, ⟨ha, fun hc => h1 (h2.symm.trans hc)⟩, h2, h3⟩

theorem Keyed.set {n : Nat} (h : Keyed key l n) : Keyed key (l.map (fun n => if key n = key m' then m' else n)) n := by
  refine h.map (fun a _ => ?_)
  split
  · rename_i hk; exact hk.symm
  · rfl

/-- With unique keys, an entry with a key is the one that has it. -/
theorem ex_one {n : Nat} (h : Keyed key l n) {m : α} (hm : m ∈ l) {P : α → Prop} : (∃ a ∈ l, key a = key m ∧ P a) ↔ P m := by
  constructor
  · rintro ⟨a, ha, h1, h2⟩
    rw [← h.inj ha hm h1]
    exact h2
  · intro h1
    exact ⟨m, hm, rfl, h1⟩

end set

/-! ## Steps -/

theorem BndInv.of_maps {s s' : Reg} {b : Bindings Str Str} (h : BndInv s b) {u : Name → Name}
    (hu : ∀ n, (u n).name = n.name ∧ (u n).procs = n.procs) (ha : ∀ n ∈ s.names, ∀ p ∈ (u n).active, p ∈ n.procs)
    (h1 : s'.names = s.names.map u) (h2 : s'.nNames = s.nNames) (h3 : s'.procs = s.procs) (h4 : s'.nProcs = s.nProcs)
    (h5 : s'.progs = s.progs) (h6 : s'.nProgs = s.nProgs) : BndInv s' b := by
  refine ⟨?_, ?_, ?_, ?_, ?_, ?_, ?_, ?_, ?_, ?_, ?_⟩
  · rw [h1, h2]; exact h.kn.map (fun a _ => (hu a).1)
  · rw [h3, h4]; exact h.kp
  · rw [h5, h6]; exact h.kg
  · rw [h1]
    intro n hn
    obtain ⟨a, ha, rfl⟩ := List.mem_map.mp hn
    rw [(hu a).2]; exact h.nd a ha
  · rw [h3]; exact h.pn
  · rw [h5]; exact h.gn
  · rw [h1]
    intro n hn
    obtain ⟨a, ha', rfl⟩ := List.mem_map.mp hn
    rw [(hu a).2]; exact ha a ha'
  · intro x p
    rw [h.byName x p, h1, ex_map (key := fun n : Name => n.name) (fun a _ => (hu a).1)]
    simp only [(hu _).2]
  · rw [h3]; exact h.byProc
  · rw [h5]; exact h.byProg
  · intro x g hx
    obtain ⟨n, hn, rfl⟩ := h.named x g hx
    rw [h1]
    exact ⟨u n, List.mem_map_of_mem hn, (hu n).1⟩

theorem BndInv.eq {s s' : Reg} {b : Bindings Str Str} (h : BndInv s b) (h1 : s'.names = s.names) (h2 : s'.nNames = s.nNames)
    (h3 : s'.procs = s.procs) (h4 : s'.nProcs = s.nProcs) (h5 : s'.progs = s.progs) (h6 : s'.nProgs = s.nProgs) : BndInv s' b :=
  h.of_maps (u := fun n => n) (fun _ => ⟨rfl, rfl⟩) h.act (by rw [h1]; simp) h2 h3 h4 h5 h6

theorem mem_addPos {pol : Pol} {l : List Nat} {p q : Nat} : q ∈ addPos pol l p ↔ q = p ∨ q ∈ l := by
  unfold addPos
  split
  · simp [or_comm]
  · simp

theorem dropProc_procs {p q : Nat} {n : Name} (h : n.procs.Nodup) : q ∈ (dropProc p n).procs ↔ q ∈ n.procs ∧ q ≠ p := by
  unfold dropProc
  split
  · dsimp only
    rw [h.mem_erase_iff]
    exact and_comm
  · rename_i hp
    constructor
    · exact fun hq => ⟨hq, fun hc => hp (hc ▸ hq)⟩
    · exact fun hq => hq.1

theorem dropProc_active {p q : Nat} {n : Name} (h : ∀ x ∈ n.active, x ∈ n.procs) : q ∈ (dropProc p n).active ↔ q ∈ n.active ∧ q ≠ p := by
  unfold dropProc
  split
  · simp
  · rename_i hp
    constructor
    · exact fun hq => ⟨hq, fun hc => hp (hc ▸ h q hq)⟩
    · exact fun hq => hq.1

theorem dropProc_nodup {p : Nat} {n : Name} (h : n.procs.Nodup) : (dropProc p n).procs.Nodup := by
  unfold dropProc
  split
  · exact h.erase _
  · exact h

theorem BndInv.step {s s' : Reg} {op : Op} {o : Out} {b : Bindings Str Str} (h : BndInv s b) (he : Eff s op o s') :
    BndInv s' (match bindEv (op, o) with
      | none => b
      | some e => e.bindings b) := by
  cases he with
  | same hq => rw [quiet_bind hq]; exact h
  | change hq hf hc => rw [quiet_bind hq]; exact h.eq rfl rfl rfl rfl rfl rfl
  | full => exact h.eq rfl rfl rfl rfl rfl rfl
  | create => exact h.eq rfl rfl rfl rfl rfl rfl
  | destroy => exact h.eq rfl rfl rfl rfl rfl rfl
  | prepare => exact h.eq rfl rfl rfl rfl rfl rfl
  | accept =>
    refine h.of_maps (fun n => ⟨(markActive_name _ n).1, (markActive_name _ n).2.2⟩) ?_ rfl rfl rfl rfl rfl rfl
    intro n hn p hp
    unfold markActive at hp
    split at hp
    · rename_i hm
      rcases mem_addPos.mp hp with rfl | hp
      · exact hm
      · exact h.act n hn p hp
    · exact h.act n hn p hp
  | @done _ _ _ f =>
    refine h.of_maps (u := unmark f.info.npid) (fun n => ⟨rfl, rfl⟩) ?_ rfl rfl rfl rfl rfl rfl
    intro n hn p hp
    exact h.act n hn p (List.mem_of_mem_erase hp)
  | createIpcp => exact h.eq rfl rfl rfl rfl rfl rfl
  | respondIpcp => exact h.eq rfl rfl rfl rfl rfl rfl
  | setLayer => exact h.eq rfl rfl rfl rfl rfl rfl
  | createSpawned => exact h.eq rfl rfl rfl rfl rfl rfl
  | @createName n p hn =>
    refine ⟨h.kn.add (x := nameCreate n p) (fun a ha => find_none_iff.mp hn a ha), h.kp, h.kg, ?_, h.pn, h.gn, ?_, ?_, h.byProc, h.byProg, ?_⟩
    · intro m hm
      rcases mem_addAfter.mp hm with rfl | hm
      · exact List.nodup_nil
      · exact h.nd m hm
    · intro m hm
      rcases mem_addAfter.mp hm with rfl | hm
      · intro q hq; cases hq
      · exact h.act m hm
    · intro x q
      rw [ex_add (key := fun n : Name => n.name)]
      simp only [nameCreate, List.not_mem_nil, and_false, false_or]
      exact h.byName x q
    · intro x g hx
      obtain ⟨m, hm, rfl⟩ := h.named x g hx
      exact ⟨m, mem_addAfter.mpr (.inr hm), rfl⟩
  | @destroyName n e hn h1 h2 h3 =>
    have hen := (getName_mem hn).2
    have hem := (getName_mem hn).1
    simp only [bindEv, if_true, BEv.bindings]
    refine ⟨?_, ?_, ?_, ?_, ?_, ?_, ?_, ?_, ?_, ?_, ?_⟩
    · exact h.kn.remove hem
    · exact h.kp.map (fun a _ => rfl)
    · exact h.kg.map (fun a _ => rfl)
    · exact fun m hm => h.nd m (List.mem_filter.mp hm).1
    · intro q hq
      obtain ⟨q', hq', rfl⟩ := List.mem_map.mp hq
      exact (h.pn q' hq').erase _
    · intro q hq
      obtain ⟨q', hq', rfl⟩ := List.mem_map.mp hq
      exact (h.gn q' hq').erase _
    · exact fun m hm => h.act m (List.mem_filter.mp hm).1
    · intro x q
      dsimp only
      rw [ex_filter (key := fun n : Name => n.name), ← h.byName x q, hen]
      exact and_comm
    · intro x p
      dsimp only
      rw [ex_map (key := fun p : Proc => p.pid) (u := fun p => { p with names := p.names.erase n }) (fun a _ => rfl), h.byProc x p]
      constructor
      · rintro ⟨⟨q, hq, h4, h5⟩, h6⟩
        exact ⟨q, hq, h4, (h.pn q hq).mem_erase_iff.mpr ⟨h6, h5⟩⟩
      · rintro ⟨q, hq, h4, h5⟩
        obtain ⟨h6, h7⟩ := (h.pn q hq).mem_erase_iff.mp h5
        exact ⟨⟨q, hq, h4, h7⟩, h6⟩
    · intro x p
      dsimp only
      rw [ex_map (key := fun p : Prog => p.name) (u := fun p => { p with names := p.names.erase n }) (fun a _ => rfl), h.byProg x p]
      constructor
      · rintro ⟨⟨q, hq, h4, h5⟩, h6⟩
        exact ⟨q, hq, h4, (h.gn q hq).mem_erase_iff.mpr ⟨h6, h5⟩⟩
      · rintro ⟨q, hq, h4, h5⟩
        obtain ⟨h6, h7⟩ := (h.gn q hq).mem_erase_iff.mp h5
        exact ⟨⟨q, hq, h4, h7⟩, h6⟩
    · rintro x g ⟨hx, hne⟩
      obtain ⟨m, hm, rfl⟩ := h.named x g hx
      refine ⟨m, List.mem_filter.mpr ⟨hm, ?_⟩, rfl⟩
      rw [hen]
      simpa using hne
  | @createProc p g hp hg =>
    have hnp : ∀ x, ¬ b.proc x p := by
      intro x hx
      obtain ⟨q, hq, h1, _⟩ := (h.byProc x p).mp hx
      exact find_none_iff.mp hp q hq h1
    have hng : ∀ x, ¬ b.prog x g := by
      intro x hx
      obtain ⟨q, hq, h1, _⟩ := (h.byProg x g).mp hx
      exact find_none_iff.mp hg q hq h1
    simp only [bindEv, if_true, BEv.bindings]
    refine ⟨h.kn, h.kp.add (x := ⟨p, g, []⟩) (fun a ha => find_none_iff.mp hp a ha), h.kg, h.nd, ?_, h.gn, h.act, ?_, ?_, h.byProg, h.named⟩
    · intro q hq
      rcases mem_addAfter.mp hq with rfl | hq
      · exact List.nodup_nil
      · exact h.pn q hq
    · intro x q
      dsimp only
      by_cases hq : q = p
      · rw [if_pos hq, ← h.byName x q, hq]
        exact ⟨fun hc => absurd hc (hng x), fun hc => absurd hc (hnp x)⟩
      · rw [if_neg hq]; exact h.byName x q
    · intro x q
      dsimp only
      rw [ex_add (key := fun p : Proc => p.pid), ← h.byProc x q]
      by_cases hq : q = p
      · rw [if_pos hq, hq]
        exact ⟨fun hc => absurd hc (hng x), fun hc => hc.elim (fun hc => by cases hc.2) (fun hc => absurd hc (hnp x))⟩
      · rw [if_neg hq]
        exact ⟨.inr, fun hc => hc.elim (fun hc => by cases hc.2) id⟩
  | @startProc p g e q hp hg hqp hqg hnd hnames hfree =>
    have hnp : ∀ x, ¬ b.proc x p := by
      intro x hx
      obtain ⟨q, hq, h1, _⟩ := (h.byProc x p).mp hx
      exact find_none_iff.mp hp q hq h1
    have heg : ∀ x, b.prog x g ↔ x ∈ e.names := by
      intro x
      rw [h.byProg x g, ← (getProg_mem hg).2]
      exact ex_one h.kg (getProg_mem hg).1
    simp only [bindEv, if_true, BEv.bindings]
    refine ⟨h.kn.map (fun a _ => (joinName_name _ _ a).1), h.kp.add (x := q) (fun a ha => by rw [hqp]; exact find_none_iff.mp hp a ha), h.kg, ?_, ?_, h.gn, ?_, ?_, ?_, h.byProg, ?_⟩
    · intro m hm
      obtain ⟨a, ha, rfl⟩ := List.mem_map.mp hm
      unfold joinName
      split
      · exact List.nodup_cons.mpr ⟨hfree a ha, h.nd a ha⟩
      · exact h.nd a ha
    · intro q' hq
      rcases mem_addAfter.mp hq with rfl | hq
      · exact hnd
      · exact h.pn q' hq
    · intro m hm
      obtain ⟨a, ha, rfl⟩ := List.mem_map.mp hm
      rw [(joinName_name _ _ a).2.2]
      intro r hr
      unfold joinName
      split
      · exact List.mem_cons_of_mem _ (h.act a ha r hr)
      · exact h.act a ha r hr
    · intro x r
      dsimp only
      rw [ex_map (key := fun n : Name => n.name) (fun a _ => (joinName_name _ _ a).1)]
      by_cases hr : r = p
      · rw [if_pos hr]
        constructor
        · intro hx
          obtain ⟨n, hn, rfl⟩ := h.named x g hx
          refine ⟨n, hn, rfl, ?_⟩
          unfold joinName
          rw [if_pos ((heg _).mp hx), hr]
          exact List.mem_cons_self
        · rintro ⟨n, hn, rfl, h1⟩
          unfold joinName at h1
          split at h1
          · rename_i h2; exact (heg _).mpr h2
          · rw [hr] at h1; exact absurd h1 (hfree n hn)
      · rw [if_neg hr, h.byName x r]
        constructor
        · rintro ⟨n, hn, h1, h2⟩
          refine ⟨n, hn, h1, ?_⟩
          unfold joinName
          split
          · exact List.mem_cons_of_mem _ h2
          · exact h2
        · rintro ⟨n, hn, h1, h2⟩
          refine ⟨n, hn, h1, ?_⟩
          unfold joinName at h2
          split at h2
          · exact (List.mem_cons.mp h2).resolve_left hr
          · exact h2
    · intro x r
      dsimp only
      rw [ex_add (key := fun p : Proc => p.pid), ← h.byProc x r, hqp]
      by_cases hr : r = p
      · rw [if_pos hr]
        constructor
        · intro hx
          obtain ⟨n, hn, h1⟩ := h.named x g hx
          exact .inl ⟨hr.symm, (hnames x).mpr ⟨n, hn, h1, (heg x).mp hx⟩⟩
        · rintro (⟨_, h1⟩ | h1)
          · obtain ⟨_, _, _, h2⟩ := (hnames x).mp h1
            exact (heg x).mpr h2
          · rw [hr] at h1; exact absurd h1 (hnp x)
      · rw [if_neg hr]
        constructor
        · exact .inr
        · rintro (⟨h1, _⟩ | h1)
          · exact absurd h1.symm hr
          · exact h1
    · intro x y hx
      obtain ⟨n, hn, rfl⟩ := h.named x y hx
      exact ⟨_, List.mem_map_of_mem hn, (joinName_name _ _ n).1⟩
  | @destroyProc p _ hd =>
    obtain ⟨_, _, _, _, _, h5, h6, h7, h4, _⟩ := destroyProc_parts hd
    simp only [bindEv, if_true, BEv.bindings]
    obtain ⟨h8, _, h9, h10, h11⟩ | ⟨e, h8, _, h9, h10, h11⟩ := h4
    · have hnp : ∀ x, ¬ b.proc x p := by
        intro x hx
        obtain ⟨q, hq, h1, _⟩ := (h.byProc x p).mp hx
        exact find_none_iff.mp h8 q hq h1
      have h' := h.eq h9 h7 h10 h11 h5 h6
      have heq : ∀ x q, (b.proc x q ∧ q ≠ p) ↔ b.proc x q :=
        fun x q => ⟨fun hc => hc.1, fun hc => ⟨hc, fun hq => hnp x (hq ▸ hc)⟩⟩
      refine ⟨h'.kn, h'.kp, h'.kg, h'.nd, h'.pn, h'.gn, h'.act, ?_, ?_, h'.byProg, h'.named⟩
      · exact fun x q => (heq x q).trans (h'.byName x q)
      · exact fun x q => (heq x q).trans (h'.byProc x q)
    · refine ⟨?_, ?_, ?_, ?_, ?_, ?_, ?_, ?_, ?_, ?_, ?_⟩
      · rw [h9, h7]; exact h.kn.map (fun a _ => (dropProc_name _ a).1)
      · rw [h10, h11]
        have := h.kp.remove (getProc_mem h8).1
        rw [(getProc_mem h8).2] at this
        exact this
      · rw [h5, h6]; exact h.kg
      · rw [h9]
        intro m hm
        obtain ⟨a, ha, rfl⟩ := List.mem_map.mp hm
        exact dropProc_nodup (h.nd a ha)
      · rw [h10]; exact fun q hq => h.pn q (List.mem_filter.mp hq).1
      · rw [h5]; exact h.gn
      · rw [h9]
        intro m hm
        obtain ⟨a, ha, rfl⟩ := List.mem_map.mp hm
        intro r hr
        obtain ⟨h1, h2⟩ := (dropProc_active (h.act a ha)).mp hr
        exact (dropProc_procs (h.nd a ha)).mpr ⟨h.act a ha r h1, h2⟩
      · intro x r
        dsimp only
        rw [h9, ex_map (key := fun n : Name => n.name) (fun a _ => (dropProc_name _ a).1), h.byName x r]
        constructor
        · rintro ⟨⟨n, hn, h1, h2⟩, h3⟩
          exact ⟨n, hn, h1, (dropProc_procs (h.nd n hn)).mpr ⟨h2, h3⟩⟩
        · rintro ⟨n, hn, h1, h2⟩
          obtain ⟨h3, h4⟩ := (dropProc_procs (h.nd n hn)).mp h2
          exact ⟨⟨n, hn, h1, h3⟩, h4⟩
      · intro x r
        dsimp only
        rw [h10, ex_filter (key := fun n : Proc => n.pid), h.byProc x r]
        exact and_comm
      · rw [h5]; exact h.byProg
      · intro x g hx
        obtain ⟨n, hn, rfl⟩ := h.named x g hx
        rw [h9]
        exact ⟨_, List.mem_map_of_mem hn, (dropProc_name _ n).1⟩
  | @bindProc n p m q hn hp hnp hnn =>
    obtain ⟨hmm, hmn⟩ := getName_mem hn
    obtain ⟨hqm, hqp⟩ := getProc_mem hp
    obtain ⟨hb1, hb2, hb3⟩ := boundName_name s p m
    simp only [bindEv, if_true, BEv.bindings]
    have hmn' : (boundName s p m).name = n := hb1.trans hmn
    refine ⟨h.kn.set (m' := boundName s p m), h.kp.set (m' := (⟨q.pid, q.prog, n :: q.names⟩ : Proc)), h.kg, ?_, ?_, h.gn, ?_, ?_, ?_, h.byProg, ?_⟩
    · refine all_set (key := fun n : Name => n.name) (m' := boundName s p m) h.nd ?_
      rw [hb3]
      exact List.nodup_cons.mpr ⟨hnp, h.nd m hmm⟩
    · exact all_set (key := fun n : Proc => n.pid) (m' := (⟨q.pid, q.prog, n :: q.names⟩ : Proc)) h.pn (List.nodup_cons.mpr ⟨hnn, h.pn q hqm⟩)
    · refine all_set (key := fun n : Name => n.name) (m' := boundName s p m) (P := fun n => ∀ p ∈ n.active, p ∈ n.procs) h.act ?_
      intro r hr
      rw [hb3]
      unfold boundName at hr
      split at hr
      · rcases mem_addPos.mp hr with rfl | hr
        · exact List.mem_cons_self
        · exact List.mem_cons_of_mem _ (h.act m hmm r hr)
      · exact List.mem_cons_of_mem _ (h.act m hmm r hr)
    · intro x r
      dsimp only [setProc, setName]
      rw [ex_set (key := fun n : Name => n.name) (m' := boundName s p m) ⟨m, hmm, hb1.symm⟩, hb3, hmn', h.byName x r]
      by_cases hx : x = n
      · subst hx
        rw [← hmn]
        rw [ex_one h.kn hmm (P := fun n => r ∈ n.procs)]
        simp [or_comm]
      · simp [hx]
    · intro x r
      dsimp only [setProc, setName]
      rw [ex_set (key := fun n : Proc => n.pid) (m' := (⟨q.pid, q.prog, n :: q.names⟩ : Proc)) ⟨q, hqm, rfl⟩, h.byProc x r]
      dsimp only
      rw [hqp]
      by_cases hr : r = p
      · subst hr
        rw [← hqp]
        rw [ex_one h.kp hqm (P := fun n => x ∈ n.names)]
        simp [or_comm]
      · simp [hr]
    · intro x g hx
      obtain ⟨y, hy, rfl⟩ := h.named x g hx
      by_cases hyn : y.name = (boundName s p m).name
      · exact ⟨boundName s p m, List.mem_map.mpr ⟨y, hy, by rw [if_pos hyn]⟩, hyn.symm⟩
      · exact ⟨y, List.mem_map.mpr ⟨y, hy, by rw [if_neg hyn]⟩, rfl⟩
  | @unbindProc n p m q hn hp hnp hnn =>
    obtain ⟨hmm, hmn⟩ := getName_mem hn
    obtain ⟨hqm, hqp⟩ := getProc_mem hp
    obtain ⟨hb1, hb2, hb3⟩ := dropProc_name p m
    simp only [bindEv, if_true, BEv.bindings]
    have hmn' : (dropProc p m).name = n := hb1.trans hmn
    refine ⟨h.kn.set (m' := dropProc p m), h.kp.set (m' := (⟨q.pid, q.prog, q.names.erase n⟩ : Proc)), h.kg, ?_, ?_, h.gn, ?_, ?_, ?_, h.byProg, ?_⟩
    · exact all_set (key := fun n : Name => n.name) (m' := dropProc p m) h.nd (dropProc_nodup (h.nd m hmm))
    · exact all_set (key := fun n : Proc => n.pid) (m' := (⟨q.pid, q.prog, q.names.erase n⟩ : Proc)) h.pn ((h.pn q hqm).erase _)
    · refine all_set (key := fun n : Name => n.name) (m' := dropProc p m) (P := fun n => ∀ p ∈ n.active, p ∈ n.procs) h.act ?_
      intro r hr
      obtain ⟨h1, h2⟩ := (dropProc_active (h.act m hmm)).mp hr
      exact (dropProc_procs (h.nd m hmm)).mpr ⟨h.act m hmm r h1, h2⟩
    · intro x r
      dsimp only [setProc, setName]
      rw [ex_set (key := fun n : Name => n.name) (m' := dropProc p m) ⟨m, hmm, hb1.symm⟩, dropProc_procs (h.nd m hmm), hmn', h.byName x r]
      by_cases hx : x = n
      · subst hx
        rw [← hmn]
        rw [ex_one h.kn hmm (P := fun n => r ∈ n.procs)]
        simp
      · simp [hx]
    · intro x r
      dsimp only [setProc, setName]
      rw [ex_set (key := fun n : Proc => n.pid) (m' := (⟨q.pid, q.prog, q.names.erase n⟩ : Proc)) ⟨q, hqm, rfl⟩, h.byProc x r]
      dsimp only
      rw [hqp, (h.pn q hqm).mem_erase_iff]
      by_cases hr : r = p
      · subst hr
        rw [← hqp]
        rw [ex_one h.kp hqm (P := fun n => x ∈ n.names)]
        simp [and_comm]
      · simp [hr]
    · intro x g hx
      obtain ⟨y, hy, rfl⟩ := h.named x g hx
      by_cases hyn : y.name = (dropProc p m).name
      · exact ⟨dropProc p m, List.mem_map.mpr ⟨y, hy, by rw [if_pos hyn]⟩, hyn.symm⟩
      · exact ⟨y, List.mem_map.mpr ⟨y, hy, by rw [if_neg hyn]⟩, rfl⟩
  | @createProg n p hn =>
    refine ⟨h.kn, h.kp, h.kg.add (x := ⟨n, p, []⟩) (fun a ha => find_none_iff.mp hn a ha), h.nd, h.pn, ?_, h.act, h.byName, h.byProc, ?_, h.named⟩
    · intro m hm
      rcases mem_addAfter.mp hm with rfl | hm
      · exact List.nodup_nil
      · exact h.gn m hm
    · intro x q
      rw [ex_add (key := fun n : Prog => n.name)]
      simp only [List.not_mem_nil, and_false, false_or]
      exact h.byProg x q
  | oldProg => exact h
  | @destroyProg n e hn =>
    simp only [bindEv, if_true, BEv.bindings]
    have h' := h.of_maps (s' := { s with names := s.names.map (dropProg e.path) }) (fun n => ⟨(dropProg_name _ n).1, (dropProg_name _ n).2.2.1⟩)
      (fun m hm p hp => by rw [(dropProg_name _ m).2.2.2] at hp; exact h.act m hm p hp) rfl rfl rfl rfl rfl rfl
    refine ⟨h'.kn, h'.kp, h.kg.remove (getProg_mem hn).1, h'.nd, h'.pn, fun g hg => h.gn g (List.mem_filter.mp hg).1, h'.act, h'.byName, h'.byProc, ?_, ?_⟩
    · intro x g
      dsimp only
      rw [ex_filter (key := fun n : Prog => n.name), h.byProg x g, (getProg_mem hn).2]
      exact and_comm
    · rintro x g ⟨hx, _⟩
      exact h'.named x g hx
  | @bindProg n e0 rest a m g hn hp hnn =>
    obtain ⟨hmm, hmn⟩ := getName_mem hn
    obtain ⟨hqm, hqp⟩ := getProg_mem hp
    simp only [bindEv, if_true, BEv.bindings]
    set m' : Name := (if a then { m with progs := (e0 :: rest) :: m.progs } else m) with hm'
    have hb1 : m'.name = m.name := by rw [hm']; split <;> rfl
    have hb3 : m'.procs = m.procs := by rw [hm']; split <;> rfl
    have hb4 : m'.active = m.active := by rw [hm']; split <;> rfl
    refine ⟨h.kn.set (m' := m'), h.kp, h.kg.set (m' := (⟨g.name, g.path, n :: g.names⟩ : Prog)), ?_, h.pn, ?_, ?_, ?_, h.byProc, ?_, ?_⟩
    · refine all_set (key := fun n : Name => n.name) (m' := m') h.nd ?_
      rw [hb3]; exact h.nd m hmm
    · exact all_set (key := fun n : Prog => n.name) (m' := (⟨g.name, g.path, n :: g.names⟩ : Prog)) h.gn (List.nodup_cons.mpr ⟨hnn, h.gn g hqm⟩)
    · refine all_set (key := fun n : Name => n.name) (m' := m') (P := fun n => ∀ p ∈ n.active, p ∈ n.procs) h.act ?_
      rw [hb3, hb4]; exact h.act m hmm
    · intro x r
      dsimp only [setProg, setName]
      rw [ex_set (key := fun n : Name => n.name) (m' := m') ⟨m, hmm, hb1.symm⟩, hb3, hb1, h.byName x r]
      by_cases hx : x = m.name
      · subst hx
        rw [ex_one h.kn hmm (P := fun n => r ∈ n.procs)]
        simp
      · simp [hx]
    · intro x r
      dsimp only [setProg, setName]
      rw [ex_set (key := fun n : Prog => n.name) (m' := (⟨g.name, g.path, n :: g.names⟩ : Prog)) ⟨g, hqm, rfl⟩, h.byProg x r]
      dsimp only
      rw [hqp]
      by_cases hr : r = strip e0
      · subst hr
        rw [← hqp]
        rw [ex_one h.kg hqm (P := fun n => x ∈ n.names)]
        simp [or_comm]
      · simp [hr]
    · rintro x y hx
      have : ∃ n ∈ s.names, n.name = x := by
        rcases hx with hx | ⟨rfl, _⟩
        · exact h.named x y hx
        · exact ⟨m, hmm, hmn⟩
      obtain ⟨z, hz, rfl⟩ := this
      by_cases hyn : z.name = m'.name
      · exact ⟨m', List.mem_map.mpr ⟨z, hz, by rw [if_pos hyn]⟩, hyn.symm⟩
      · exact ⟨z, List.mem_map.mpr ⟨z, hz, by rw [if_neg hyn]⟩, rfl⟩
  | @unbindProg n g m q hn hp hnn =>
    obtain ⟨hmm, hmn⟩ := getName_mem hn
    obtain ⟨hqm, hqp⟩ := getProg_mem hp
    obtain ⟨hb1, hb2, hb3, hb4⟩ := dropProg_name g m
    simp only [bindEv, if_true, BEv.bindings]
    refine ⟨h.kn.set (m' := dropProg g m), h.kp, h.kg.set (m' := (⟨q.name, q.path, q.names.erase n⟩ : Prog)), ?_, h.pn, ?_, ?_, ?_, h.byProc, ?_, ?_⟩
    · refine all_set (key := fun n : Name => n.name) (m' := dropProg g m) h.nd ?_
      rw [hb3]; exact h.nd m hmm
    · exact all_set (key := fun n : Prog => n.name) (m' := (⟨q.name, q.path, q.names.erase n⟩ : Prog)) h.gn ((h.gn q hqm).erase _)
    · refine all_set (key := fun n : Name => n.name) (m' := dropProg g m) (P := fun n => ∀ p ∈ n.active, p ∈ n.procs) h.act ?_
      rw [hb3, hb4]; exact h.act m hmm
    · intro x r
      dsimp only [setProg, setName]
      rw [ex_set (key := fun n : Name => n.name) (m' := dropProg g m) ⟨m, hmm, hb1.symm⟩, hb3, hb1, h.byName x r]
      by_cases hx : x = m.name
      · subst hx
        rw [ex_one h.kn hmm (P := fun n => r ∈ n.procs)]
        simp
      · simp [hx]
    · intro x r
      dsimp only [setProg, setName]
      rw [ex_set (key := fun n : Prog => n.name) (m' := (⟨q.name, q.path, q.names.erase n⟩ : Prog)) ⟨q, hqm, rfl⟩, h.byProg x r]
      dsimp only
      rw [hqp, (h.gn q hqm).mem_erase_iff]
      by_cases hr : r = g
      · subst hr
        rw [← hqp]
        rw [ex_one h.kg hqm (P := fun n => x ∈ n.names)]
        simp [and_comm]
      · simp [hr]
    · rintro x y ⟨hx, _⟩
      obtain ⟨z, hz, rfl⟩ := h.named x y hx
      by_cases hyn : z.name = (dropProg g m).name
      · exact ⟨dropProg g m, List.mem_map.mpr ⟨z, hz, by rw [if_pos hyn]⟩, hyn.symm⟩
      · exact ⟨z, List.mem_map.mpr ⟨z, hz, by rw [if_neg hyn]⟩, rfl⟩

theorem bindings_snoc (log : List (Op × Out)) (x : Op × Out) :
    bindings ((log ++ [x]).filterMap bindEv) = match bindEv x with
      | none => bindings (log.filterMap bindEv)
      | some e => e.bindings (bindings (log.filterMap bindEv)) := by
  rw [List.filterMap_append]
  cases h : bindEv x with
  | none => simp [h]
  | some e => simp [h, bindings, List.foldl_append]

theorem bnd_init {s : Reg} (h : init = .ok s) : BndInv s (Bindings.none Str Str) := by
  unfold init at h
  obtain ⟨b, hb, h⟩ := bind_eq_ok.mp h
  cases Outcome.ok.inj h
  exact ⟨⟨by simp, rfl⟩, ⟨by simp, rfl⟩, ⟨by simp, rfl⟩, by simp, by simp, by simp, by simp, by simp [Bindings.none], by simp [Bindings.none],
    by simp [Bindings.none], by simp [Bindings.none]⟩

theorem bnd_inv {s : Reg} {ops : List Op} {log : List (Op × Out)} (h : run ops = .ok (s, log)) :
    BndInv s (bindings (log.filterMap bindEv)) := by
  refine (run_ind (P := fun s log => FlowInv s ∧ BndInv s (bindings (log.filterMap bindEv))) (fun s hs => ⟨flow_init hs, bnd_init hs⟩) ?_ h).2
  rintro s l op o s' ⟨hi, hb⟩ hs
  have he := step_eff hi.ids hs
  refine ⟨hi.step he, ?_⟩
  rw [bindings_snoc]
  exact hb.step he

end Ouro.Registry
