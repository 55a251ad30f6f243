import Verif.Proof.RegistryStep

/-!
# The tables of the registry hold what the log says
-/

namespace Ouro.Registry

set_option linter.unusedSectionVars false

open Spec.Registry Spec.FiniteMap

/-! ## The events of a history -/

/-- What a call does to the flows; the entry is the process the flow belongs to. -/
def flowEv : Op × Out → Option (Ev Int Nat)
  | (.createFlow i, .flow r i' _) => if r = 0 then some (.add i'.id i.npid) else none
  | (.prepareAccept i _, .flow r _ _) => if r = 0 then some (.change i.id (fun _ => i.npid)) else none
  | (.destroyFlow id, .int r) => if r = 0 then some (.del id) else none
  | _ => none

/-- What a call does to the names; the entry is the load-balancing policy. -/
def nameEv : Op × Out → Option (Ev Str Pol)
  | (.createName n p, .int r) => if r = 0 then some (.add n p) else none
  | (.destroyName n, .int r) => if r = 0 then some (.del n) else none
  | _ => none

/-- What a call does to the processes; the entry is the program. -/
def procEv : Op × Out → Option (Ev Nat Str)
  | (.createProc p g, .int r) => if r = 0 then some (.add p g) else none
  | (.destroyProc p, .int r) => if r = 0 then some (.del p) else none
  | _ => none

/-- What a call does to the programs; the entry is the path. Creating a program that exists is accepted without effect. -/
def progEv : Op × Out → Option (Ev Str Str)
  | (.createProg n p, .int r) => if r = 0 then some (.ensure n p) else none
  | (.destroyProg n, .int r) => if r = 0 then some (.del n) else none
  | _ => none

/-- What a call does to the IPCPs. -/
def ipcpEv : Op × Out → Option (Ev Nat Ipcp)
  | (.createIpcp i, .int r) => if r = 0 then some (.add i.pid ⟨i, ⟨"Not enrolled.".toList, 0⟩⟩) else none
  | (.respondIpcp i, .int r) => if r = 0 then some (.change i.pid (fun e => { e with info := i })) else none
  | (.setLayer i l, .int r) => if r = 0 then some (.change i.pid (fun e => ⟨{ e.info with state := i.state }, l⟩)) else none
  | (.destroyProc p, .int r) => if r = 0 then some (.del p) else none
  | _ => none

theorem quiet_none {op : Op} {o : Out} (h : Quiet op o) :
    flowEv (op, o) = none ∧ nameEv (op, o) = none ∧ procEv (op, o) = none ∧ progEv (op, o) = none ∧ ipcpEv (op, o) = none := by
  cases op <;> cases o <;> simp_all [Quiet, flowEv, nameEv, procEv, progEv, ipcpEv]

/-! ## One table -/

/-- A table holds exactly the entries of a map. -/
structure Tab {α κ ε : Type} (key : α → κ) (val : α → ε) (l : List α) (n : Nat) (m : Map κ ε) : Prop where
  keyed : Keyed key l n
  agrees : ∀ k e, m k = some e ↔ ∃ a ∈ l, key a = k ∧ val a = e

section tab
variable {α κ ε : Type} [DecidableEq κ] {key : α → κ} {val : α → ε} {l : List α} {n : Nat} {m : Map κ ε}

theorem Tab.none_iff (h : Tab key val l n m) {k : κ} : m k = none ↔ ∀ a ∈ l, key a ≠ k := by
  constructor
  · intro hk a ha hka
    have := (h.agrees k (val a)).mpr ⟨a, ha, hka, rfl⟩
    rw [hk] at this
    cases this
  · intro hk
    cases hm : m k with
    | none => rfl
    | some e =>
      obtain ⟨a, ha, hka, _⟩ := (h.agrees k e).mp hm
      exact absurd hka (hk a ha)

theorem Tab.find [BEq κ] [LawfulBEq κ] (h : Tab key val l n m) (k : κ) : m k = (l.find? (fun a => key a == k)).map val := by
  cases hf : l.find? (fun a => key a == k) with
  | none => rw [h.none_iff.mpr (find_none_iff.mp hf)]; rfl
  | some a =>
    have := (find_iff h.keyed.nodup).mp hf
    exact (h.agrees k (val a)).mpr ⟨a, this.1, this.2, rfl⟩

theorem Tab.lists (h : Tab key val l n m) : Lists (l.map key) m ∧ n = (l.map key).length := by
  refine ⟨⟨h.keyed.nodup, fun k => ?_⟩, by rw [List.length_map]; exact h.keyed.len⟩
  rw [List.mem_map, Option.isSome_iff_exists]
  constructor
  · rintro ⟨a, ha, hk⟩
    exact ⟨val a, (h.agrees k _).mpr ⟨a, ha, hk, rfl⟩⟩
  · rintro ⟨e, he⟩
    obtain ⟨a, ha, hk, _⟩ := (h.agrees k e).mp he
    exact ⟨a, ha, hk⟩

theorem Tab.map (h : Tab key val l n m) {f : α → α} (hk : ∀ a ∈ l, key (f a) = key a) (hv : ∀ a ∈ l, val (f a) = val a) :
    Tab key val (l.map f) n m := by
  refine ⟨h.keyed.map hk, fun k e => ?_⟩
  rw [h.agrees k e]
  simp only [List.mem_map, exists_exists_and_eq_and]
  constructor
  · rintro ⟨a, ha, h1, h2⟩
    exact ⟨a, ha, by rw [hk a ha, h1], by rw [hv a ha, h2]⟩
  · rintro ⟨a, ha, h1, h2⟩
    exact ⟨a, ha, by rw [← hk a ha, h1], by rw [← hv a ha, h2]⟩

theorem Tab.add (h : Tab key val l n m) {x : α} {gt : α → Bool} (hx : ∀ a ∈ l, key a ≠ key x) :
    Tab key val (addAfter gt x l) (n + 1) (put m (key x) (val x)) := by
  refine ⟨h.keyed.add hx, fun k e => ?_⟩
  simp only [put, mem_addAfter, exists_eq_or_imp]
  by_cases hk : k = key x
  · rw [if_pos hk]
    constructor
    · rintro h1
      exact .inl ⟨hk.symm, Option.some.inj h1⟩
    · rintro (⟨_, h2⟩ | ⟨a, ha, h1, _⟩)
      · rw [h2]
      · exact absurd (h1.trans hk) (hx a ha)
  · rw [if_neg hk, h.agrees k e]
    constructor
    · exact .inr
    · rintro (⟨h1, _⟩ | h1)
      · exact absurd h1.symm hk
      · exact h1

theorem Tab.change (h : Tab key val l n m) {f : α → α} {k : κ} {u : ε → ε} (hk : ∀ a ∈ l, key (f a) = key a)
    (h1 : ∀ a ∈ l, key a = k → val (f a) = u (val a)) (h2 : ∀ a ∈ l, key a ≠ k → val (f a) = val a) :
    Tab key val (l.map f) n ((Ev.change k u).apply m) := by
  refine ⟨h.keyed.map hk, fun j e => ?_⟩
  simp only [Ev.apply, List.mem_map, exists_exists_and_eq_and]
  by_cases hj : j = k
  · rw [if_pos hj, Option.map_eq_some_iff]
    constructor
    · rintro ⟨e', he, rfl⟩
      obtain ⟨a, ha, h3, h4⟩ := (h.agrees k e').mp he
      exact ⟨a, ha, by rw [hk a ha, h3, hj], by rw [h1 a ha h3, h4]⟩
    · rintro ⟨a, ha, h3, h4⟩
      rw [hk a ha] at h3
      exact ⟨val a, (h.agrees k _).mpr ⟨a, ha, h3.trans hj, rfl⟩, by rw [← h1 a ha (h3.trans hj), h4]⟩
  · rw [if_neg hj, h.agrees j e]
    constructor
    · rintro ⟨a, ha, h3, h4⟩
      exact ⟨a, ha, by rw [hk a ha, h3], by rw [h2 a ha (fun hc => hj (h3.symm.trans hc)), h4]⟩
    · rintro ⟨a, ha, h3, h4⟩
      rw [hk a ha] at h3
      exact ⟨a, ha, h3, by rw [← h2 a ha (fun hc => hj (h3.symm.trans hc)), h4]⟩

theorem Tab.remove [BEq κ] [LawfulBEq κ] (h : Tab key val l n m) {e : α} (he : e ∈ l) :
    Tab key val (l.filter (fun a => key a != key e)) (n - 1) (Spec.FiniteMap.remove m (key e)) := by
  refine ⟨h.keyed.remove he, fun j x => ?_⟩
  simp only [Spec.FiniteMap.remove, List.mem_filter, bne_iff_ne]
  by_cases hj : j = key e
  · rw [if_pos hj]
    constructor
    · rintro h1; cases h1
    · rintro ⟨a, ⟨_, h1⟩, h2, _⟩
      exact absurd (h2.trans hj) h1
  · rw [if_neg hj, h.agrees j x]
    constructor
    · rintro ⟨a, ha, h1, h2⟩
      exact ⟨a, ⟨ha, fun hc => hj (h1.symm.trans hc)⟩, h1, h2⟩
    · rintro ⟨a, ⟨ha, _⟩, h1, h2⟩
      exact ⟨a, ha, h1, h2⟩

theorem Tab.missing (h : Tab key val l n m) {k : κ} (hk : ∀ a ∈ l, key a ≠ k) : Tab key val l n (Spec.FiniteMap.remove m k) := by
  refine ⟨h.keyed, fun j e => ?_⟩
  simp only [Spec.FiniteMap.remove]
  by_cases hj : j = k
  · rw [if_pos hj]
    constructor
    · intro h1; cases h1
    · rintro ⟨a, ha, h1, _⟩
      exact absurd (h1.trans hj) (hk a ha)
  · rw [if_neg hj]
    exact h.agrees j e

end tab

theorem live_snoc {κ ε : Type} [DecidableEq κ] (ev : Op × Out → Option (Ev κ ε)) (log : List (Op × Out)) (x : Op × Out) :
    live ((log ++ [x]).filterMap ev) = match ev x with
      | none => live (log.filterMap ev)
      | some e => e.apply (live (log.filterMap ev)) := by
  rw [List.filterMap_append]
  cases h : ev x with
  | none => simp [h]
  | some e => simp [h, live, List.foldl_append]

/-! ## Flows -/

/-- What holds of the flows. -/
structure FlowInv (s : Reg) : Prop where
  bmp : Bitmap.Inv s.ids
  offset : s.ids.offset = 1
  size : s.ids.size = SYS_MAX_FLOWS - 1
  ids : (s.flows.map (·.info.id)).Nodup
  ptrs : (s.flows.map (·.ptr)).Nodup
  fresh : ∀ f ∈ s.flows, f.ptr < s.fresh
  held : ∀ j, Bitmap.held s.ids j ↔ ∃ f ∈ s.flows, f.info.id = j
  len : s.nFlows = s.flows.length
  ok : ∀ f ∈ s.flows, FOk f

theorem FlowInv.ptr_inj {s : Reg} (h : FlowInv s) {f g : Flow} (hf : f ∈ s.flows) (hg : g ∈ s.flows) (he : f.ptr = g.ptr) : f = g :=
  List.inj_on_of_nodup_map h.ptrs hf hg he

theorem FlowInv.id_inj {s : Reg} (h : FlowInv s) {f g : Flow} (hf : f ∈ s.flows) (hg : g ∈ s.flows) (he : f.info.id = g.info.id) : f = g :=
  List.inj_on_of_nodup_map h.ids hf hg he

theorem FlowInv.range {s : Reg} (h : FlowInv s) {f : Flow} (hf : f ∈ s.flows) : 1 ≤ f.info.id ∧ f.info.id < SYS_MAX_FLOWS := by
  have h1 := ((h.held f.info.id).mpr ⟨f, hf, rfl⟩).1
  rw [h.offset, h.size] at h1
  obtain ⟨h2, h3⟩ := h1
  refine ⟨h2, ?_⟩
  simp only [SYS_MAX_FLOWS] at h3 ⊢
  omega

/-- Replacing the flows one by one by flows with the same pointer and id. -/
theorem FlowInv.map {s s' : Reg} (h : FlowInv s) {u : Flow → Flow} (hu : ∀ f ∈ s.flows, (u f).ptr = f.ptr ∧ (u f).info.id = f.info.id ∧ FOk (u f))
    (h1 : s'.flows = s.flows.map u) (h2 : s'.ids = s.ids) (h3 : s'.fresh = s.fresh) (h4 : s'.nFlows = s.nFlows) : FlowInv s' := by
  refine ⟨h2 ▸ h.bmp, h2 ▸ h.offset, h2 ▸ h.size, ?_, ?_, ?_, ?_, ?_, ?_⟩
  · rw [h1, List.map_map]
    have : s.flows.map ((fun f : Flow => f.info.id) ∘ u) = s.flows.map (·.info.id) := List.map_congr_left (fun f hf => (hu f hf).2.1)
    rw [this]
    exact h.ids
  · rw [h1, List.map_map]
    have : s.flows.map ((fun f : Flow => f.ptr) ∘ u) = s.flows.map (·.ptr) := List.map_congr_left (fun f hf => (hu f hf).1)
    rw [this]
    exact h.ptrs
  · rw [h1, h3]
    intro f hf
    obtain ⟨g, hg, rfl⟩ := List.mem_map.mp hf
    rw [(hu g hg).1]
    exact h.fresh g hg
  · intro j
    rw [h2, h.held j, h1]
    simp only [List.mem_map, exists_exists_and_eq_and]
    constructor
    · rintro ⟨f, hf, hj⟩
      exact ⟨f, hf, by rw [(hu f hf).2.1, hj]⟩
    · rintro ⟨f, hf, hj⟩
      exact ⟨f, hf, by rw [← (hu f hf).2.1, hj]⟩
  · rw [h4, h1, List.length_map, h.len]
  · rw [h1]
    intro f hf
    obtain ⟨g, hg, rfl⟩ := List.mem_map.mp hf
    exact (hu g hg).2.2

theorem FlowInv.eq {s s' : Reg} (h : FlowInv s) (h1 : s'.flows = s.flows) (h2 : s'.ids = s.ids) (h3 : s'.fresh = s.fresh)
    (h4 : s'.nFlows = s.nFlows) : FlowInv s' := by
  refine h.map (u := id) (fun f hf => ⟨rfl, rfl, h.ok f hf⟩) ?_ h2 h3 h4
  rw [h1, List.map_id]

theorem FlowInv.set {s s' : Reg} (h : FlowInv s) {f g : Flow} (hf : f ∈ s.flows) (hc : Chg f g) (h1 : s'.flows = (setFlow s g).flows)
    (h2 : s'.ids = s.ids) (h3 : s'.fresh = s.fresh) (h4 : s'.nFlows = s.nFlows) : FlowInv s' := by
  refine h.map (u := fun x => if x.ptr = g.ptr then g else x) (fun x hx => ?_) h1 h2 h3 h4
  split
  · rename_i he
    have : x = f := h.ptr_inj hx hf (he.trans hc.ptr)
    subst this
    exact ⟨hc.ptr, hc.id, hc.ok (h.ok _ hf)⟩
  · exact ⟨rfl, rfl, h.ok x hx⟩

/-- A flow cancelled because its process is gone. -/
def cancelled (p : Nat) (f : Flow) : Flow :=
  if f.info.npid = p ∧ (f.info.state = .allocPending ∨ f.info.state = .acceptPending)
  then { f with info := { f.info with state := .deallocated } } else f

theorem cancelFlows_eq (s : Reg) (p : Nat) : (cancelFlows s p).flows = s.flows.map (cancelled p) := rfl

theorem cancelled_ok {f : Flow} (p : Nat) (h : FOk f) : FOk (cancelled p f) := by
  unfold cancelled
  split
  · exact ⟨h.same, by simp, by simp [stage, Stage.needsRings], h.pid⟩
  · exact h

theorem destroySpawned_frame (s : Reg) (p : Nat) :
    (destroySpawned s p).flows = s.flows ∧ (destroySpawned s p).ids = s.ids ∧ (destroySpawned s p).fresh = s.fresh ∧
    (destroySpawned s p).nFlows = s.nFlows ∧ (destroySpawned s p).names = s.names ∧ (destroySpawned s p).nNames = s.nNames ∧
    (destroySpawned s p).procs = s.procs ∧ (destroySpawned s p).nProcs = s.nProcs ∧ (destroySpawned s p).progs = s.progs ∧
    (destroySpawned s p).nProgs = s.nProgs ∧ (destroySpawned s p).ipcps = s.ipcps ∧ (destroySpawned s p).nIpcps = s.nIpcps := by
  unfold destroySpawned
  split <;> simp

/-- The parts of the registry after `reg_destroy_proc`. -/
theorem destroyProc_parts {s s' : Reg} {p : Nat} {o : Out} (h : destroyProc s p = .ok (s', o)) :
    0 < p ∧ o = .int 0 ∧ s'.ids = s.ids ∧ s'.fresh = s.fresh ∧ s'.nFlows = s.nFlows ∧ s'.progs = s.progs ∧ s'.nProgs = s.nProgs ∧
    s'.nNames = s.nNames ∧
    ((getProc s p = none ∧ s'.flows = s.flows ∧ s'.names = s.names ∧ s'.procs = s.procs ∧ s'.nProcs = s.nProcs) ∨
     (∃ e, getProc s p = some e ∧ s'.flows = s.flows.map (cancelled p) ∧ s'.names = s.names.map (dropProc p) ∧
       s'.procs = s.procs.filter (fun q => q.pid != p) ∧ s'.nProcs = s.nProcs - 1)) ∧
    ((s.ipcps.find? (fun i => i.info.pid == p) = none ∧ s'.ipcps = s.ipcps ∧ s'.nIpcps = s.nIpcps) ∨
     (∃ i, s.ipcps.find? (fun i => i.info.pid == p) = some i ∧ s'.ipcps = s.ipcps.filter (fun j => j.info.pid != i.info.pid) ∧
       s'.nIpcps = s.nIpcps - 1)) := by
  obtain ⟨hp, rfl, s1, h1, h2⟩ := destroyProc_ok h
  have hframe := destroySpawned_frame s1 p
  have hs1 : s1.ids = s.ids ∧ s1.fresh = s.fresh ∧ s1.nFlows = s.nFlows ∧ s1.progs = s.progs ∧ s1.nProgs = s.nProgs ∧
      s1.nNames = s.nNames ∧ s1.ipcps = s.ipcps ∧ s1.nIpcps = s.nIpcps := by
    obtain ⟨_, rfl⟩ | ⟨e, _, rfl⟩ := h1
    · simp
    · simp [procGone]
  obtain ⟨a1, a2, a3, a4, a5, a6, a7, a8⟩ := hs1
  obtain ⟨b1, b2, b3, b4, b5, b6, b7, b8, b9, b10, b11, b12⟩ := hframe
  have hm : ((getProc s p = none ∧ s1.flows = s.flows ∧ s1.names = s.names ∧ s1.procs = s.procs ∧ s1.nProcs = s.nProcs) ∨
     (∃ e, getProc s p = some e ∧ s1.flows = s.flows.map (cancelled p) ∧ s1.names = s.names.map (dropProc p) ∧
       s1.procs = s.procs.filter (fun q => q.pid != p) ∧ s1.nProcs = s.nProcs - 1)) := by
    obtain ⟨h3, rfl⟩ | ⟨e, h3, rfl⟩ := h1
    · exact .inl ⟨h3, rfl, rfl, rfl, rfl⟩
    · exact .inr ⟨e, h3, rfl, rfl, rfl, rfl⟩
  obtain ⟨h3, rfl⟩ | ⟨i, h3, rfl⟩ := h2
  · refine ⟨hp, rfl, b2.trans a1, b3.trans a2, b4.trans a3, b9.trans a4, b10.trans a5, b6.trans a6, ?_, .inl ⟨a7 ▸ h3, b11.trans a7, b12.trans a8⟩⟩
    rw [b1, b5, b7, b8]
    exact hm
  · refine ⟨hp, rfl, b2.trans a1, b3.trans a2, b4.trans a3, b9.trans a4, b10.trans a5, b6.trans a6, ?_, .inr ⟨i, a7 ▸ h3, ?_, ?_⟩⟩
    · dsimp only
      rw [b1, b5, b7, b8]
      exact hm
    · dsimp only
      rw [a7]
    · dsimp only
      rw [a8]

theorem flow_init {s : Reg} (h : init = .ok s) : FlowInv s := by
  unfold init at h
  obtain ⟨b, hb, h⟩ := bind_eq_ok.mp h
  cases Outcome.ok.inj h
  obtain ⟨h1, h2, h3, h4⟩ := Bitmap.create_inv (by decide) hb
  refine ⟨h1, h2, h3, ?_, ?_, ?_, fun j => ?_, rfl, ?_⟩
  · simp
  · simp
  · simp
  · simp [h4 j]
  · simp

theorem alloc_spec {s : Reg} (h : FlowInv s) {b : Bitmap.Bmp} {id : Int} (ha : Bitmap.allocate s.ids = .ok (b, id)) :
    Bitmap.Inv b ∧ b.offset = 1 ∧ b.size = SYS_MAX_FLOWS - 1 ∧
    ((Bitmap.isIdValid b id = true ∧ 1 ≤ id ∧ id < SYS_MAX_FLOWS ∧ (∀ f ∈ s.flows, f.info.id ≠ id) ∧
        ∀ j, Bitmap.held b j ↔ Bitmap.held s.ids j ∨ j = id) ∨
     (Bitmap.isIdValid b id = false ∧ (∀ j : Int, 1 ≤ j → j < SYS_MAX_FLOWS → ∃ f ∈ s.flows, f.info.id = j) ∧
        ∀ j, Bitmap.held b j ↔ Bitmap.held s.ids j)) := by
  obtain ⟨b', r, h1, h2, h3, h4, h5⟩ := Bitmap.allocate_spec s.ids h.bmp
  rw [ha] at h1
  cases Outcome.ok.inj h1
  refine ⟨h2, h3.trans h.offset, h4.trans h.size, ?_⟩
  generalize hc : Spec.IdPool.Call.allocate = c at h5
  cases h5 with
  | alloc _ _ hr free least upd =>
    have hr' := hr
    rw [h.offset, h.size] at hr'
    obtain ⟨r1, r2⟩ := hr'
    simp only [SYS_MAX_FLOWS] at r2
    refine .inl ⟨?_, r1, ?_, ?_, upd⟩
    · unfold Bitmap.isIdValid
      rw [h3, h4, h.offset, h.size]
      simp [SYS_MAX_FLOWS]
      omega
    · simp only [SYS_MAX_FLOWS]; omega
    · intro f hf he
      exact free ((h.held id).mpr ⟨f, hf, he⟩)
  | full _ hall same =>
    refine .inr ⟨?_, ?_, same⟩
    · unfold Bitmap.isIdValid
      rw [h3, h4, h.offset, h.size]
      simp
    · intro j h6 h7
      apply (h.held j).mp
      apply hall
      rw [h.offset, h.size]
      refine ⟨h6, ?_⟩
      simp only [SYS_MAX_FLOWS] at h7 ⊢
      omega
  | release => cases hc
  | badRelease => cases hc
  | used => cases hc
  | unused => cases hc

theorem free_spec {s : Reg} (h : FlowInv s) {f : Flow} (hf : f ∈ s.flows) {b : Bitmap.Bmp} {r : Int}
    (hr : Bitmap.release s.ids f.info.id = .ok (b, r)) :
    Bitmap.Inv b ∧ b.offset = 1 ∧ b.size = SYS_MAX_FLOWS - 1 ∧ ∀ j, Bitmap.held b j ↔ Bitmap.held s.ids j ∧ j ≠ f.info.id := by
  have hrange := h.range hf
  have hne : f.info.id ≠ s.ids.offset + s.ids.size := by
    rw [h.offset, h.size]
    simp only [SYS_MAX_FLOWS] at hrange ⊢
    omega
  obtain ⟨b', r', h1, h2, h3, h4, h5⟩ := Bitmap.release_spec s.ids h.bmp f.info.id hne
  rw [hr] at h1
  cases Outcome.ok.inj h1
  refine ⟨h2, h3.trans h.offset, h4.trans h.size, ?_⟩
  generalize hc : Spec.IdPool.Call.release f.info.id = c at h5
  cases h5 with
  | release _ _ hr upd => cases hc; exact upd
  | badRelease _ _ hbad same =>
    cases hc
    exact absurd ((h.held f.info.id).mpr ⟨f, hf, rfl⟩).1 hbad
  | alloc => cases hc
  | full => cases hc
  | used => cases hc
  | unused => cases hc

theorem filter_ptr {s : Reg} (h : FlowInv s) {f : Flow} (hf : f ∈ s.flows) :
    s.flows.filter (fun g => g.ptr != f.ptr) = s.flows.filter (fun g => g.info.id != f.info.id) := by
  apply List.filter_congr
  intro g hg
  by_cases he : g = f
  · subst he; simp
  · have h1 : g.ptr ≠ f.ptr := fun hc => he (h.ptr_inj hg hf hc)
    have h2 : g.info.id ≠ f.info.id := fun hc => he (h.id_inj hg hf hc)
    rw [bne_iff_ne.mpr h1, bne_iff_ne.mpr h2]

theorem FlowInv.step {s s' : Reg} {op : Op} {o : Out} (h : FlowInv s) (he : Eff s op o s') : FlowInv s' := by
  cases he with
  | same _ => exact h
  | change _ hf hc => exact h.set hf hc.toChg rfl rfl rfl rfl
  | full ha hv =>
    obtain ⟨h1, h2, h3, ⟨h4, _⟩ | ⟨_, _, h4⟩⟩ := alloc_spec h ha
    · rw [hv] at h4; cases h4
    · refine ⟨h1, h2, h3, h.ids, h.ptrs, h.fresh, fun j => ?_, h.len, h.ok⟩
      dsimp only
      rw [h4 j]
      exact h.held j
  | @create i b id hst hn hn1 ha hv =>
    obtain ⟨h1, h2, h3, ⟨_, _, _, h4, h5⟩ | ⟨h4, _⟩⟩ := alloc_spec h ha
    · have hk1 : Keyed (fun f : Flow => f.info.id) s.flows s.nFlows := ⟨h.ids, h.len⟩
      have hk2 : Keyed (fun f : Flow => f.ptr) s.flows s.nFlows := ⟨h.ptrs, h.len⟩
      have hk1' := hk1.add (x := (⟨s.fresh, { i with id := id }, false, false, none⟩ : Flow)) (gt := fun g => decide (g.info.id > id)) h4
      have hk2' := hk2.add (x := (⟨s.fresh, { i with id := id }, false, false, none⟩ : Flow)) (gt := fun g => decide (g.info.id > id))
        (fun e he => Nat.ne_of_lt (h.fresh e he))
      refine ⟨h1, h2, h3, hk1'.nodup, hk2'.nodup, ?_, fun j => ?_, hk1'.len, ?_⟩
      · intro f hf
        dsimp only at hf ⊢
        rcases mem_addAfter.mp hf with rfl | hf
        · exact Nat.lt_succ_self _
        · exact Nat.lt_succ_of_lt (h.fresh f hf)
      · dsimp only
        rw [h5 j, h.held j]
        simp only [mem_addAfter, exists_eq_or_imp]
        constructor
        · rintro (h6 | rfl)
          · exact .inr h6
          · exact .inl rfl
        · rintro (rfl | h6)
          · exact .inr rfl
          · exact .inl h6
      · intro f hf
        dsimp only at hf
        rcases mem_addAfter.mp hf with rfl | hf
        · refine ⟨rfl, fun _ => ⟨rfl, hn1⟩, ?_, hn⟩
          dsimp only
          rw [hst]
          simp [stage, Stage.needsRings]
        · exact h.ok f hf
    · rw [hv] at h4; cases h4
  | @destroy id f b r hf hid hr =>
    subst hid
    obtain ⟨h1, h2, h3, h4⟩ := free_spec h hf hr
    have hk1 : Keyed (fun f : Flow => f.info.id) s.flows s.nFlows := ⟨h.ids, h.len⟩
    have hk2 : Keyed (fun f : Flow => f.ptr) s.flows s.nFlows := ⟨h.ptrs, h.len⟩
    have hk2' := hk2.remove hf
    refine ⟨h1, h2, h3, ?_, hk2'.nodup, ?_, fun j => ?_, hk2'.len, ?_⟩
    · exact h.ids.sublist (List.Sublist.map _ List.filter_sublist)
    · intro g hg
      exact h.fresh g (List.mem_filter.mp hg).1
    · dsimp only
      rw [h4 j, h.held j, filter_ptr h hf]
      simp only [List.mem_filter, bne_iff_ne]
      constructor
      · rintro ⟨⟨g, hg, rfl⟩, hne⟩
        exact ⟨g, ⟨hg, hne⟩, rfl⟩
      · rintro ⟨g, ⟨hg, hne⟩, rfl⟩
        exact ⟨⟨g, hg, rfl⟩, hne⟩
    · intro g hg
      exact h.ok g (List.mem_filter.mp hg).1
  | prepare hf _ _ hc _ _ => exact h.set hf hc rfl rfl rfl rfl
  | accept => exact h.eq rfl rfl rfl rfl
  | done hf _ hc _ => exact h.set hf hc.toChg rfl rfl rfl rfl
  | destroyProc hd =>
    obtain ⟨_, _, h1, h2, h3, _, _, _, h4, _⟩ := destroyProc_parts hd
    obtain ⟨_, h4, _⟩ | ⟨e, _, h4, _⟩ := h4
    · exact h.eq h4 h1 h2 h3
    · refine h.map (fun f hf => ⟨?_, ?_, cancelled_ok _ (h.ok f hf)⟩) h4 h1 h2 h3
      · unfold cancelled; split <;> rfl
      · unfold cancelled; split <;> rfl
  | _ => exact h.eq rfl rfl rfl rfl

theorem flow_inv {s : Reg} {ops : List Op} {log : List (Op × Out)} (h : run ops = .ok (s, log)) : FlowInv s := by
  refine run_ind (P := fun s _ => FlowInv s) (fun s hs => flow_init hs) ?_ h
  intro s l op o s' hi hs
  exact hi.step (step_eff hi.ids hs)

end Ouro.Registry
