import Verif.Proof.RegistryAct

/-!
# What the calls on the registry do, in terms of the tables
-/

namespace Ouro.Registry

open Spec.Registry Spec.FiniteMap

/-- The stage of the flow with an id. -/
def stageOf (s : Reg) (id : Int) : Option Stage := (s.flows.find? (fun f => f.info.id == id)).map (fun f => stage f.info.state)

/-- Do the packet rings of the flow with an id exist? -/
def ringsOf (s : Reg) (id : Int) : Option (Bool × Bool) := (s.flows.find? (fun f => f.info.id == id)).map (fun f => (f.nRb, f.n1Rb))

theorem find_flow {s : Reg} (h : FlowInv s) {f : Flow} (hf : f ∈ s.flows) : s.flows.find? (fun g => g.info.id == f.info.id) = some f :=
  (find_iff (key := fun f : Flow => f.info.id) h.ids).mpr ⟨hf, rfl⟩

theorem stageOf_mem {s : Reg} (h : FlowInv s) {f : Flow} (hf : f ∈ s.flows) : stageOf s f.info.id = some (stage f.info.state) := by
  unfold stageOf
  rw [find_flow h hf]
  rfl

theorem stageOf_none {s : Reg} {id : Int} (h : ∀ f ∈ s.flows, f.info.id ≠ id) : stageOf s id = none := by
  unfold stageOf
  rw [find_none_iff.mpr h]
  rfl

theorem stageOf_cases (s : Reg) (id : Int) :
    (∃ f ∈ s.flows, f.info.id = id) ∨ (∀ f ∈ s.flows, f.info.id ≠ id) := by
  by_cases h : ∃ f ∈ s.flows, f.info.id = id
  · exact .inl h
  · push Not at h
    exact .inr h

/-- What one step does to the flow with an id. -/
inductive StageStep (op : Op) (o : Out) (id : Int) : Option Stage → Option Stage → Prop
  | absent : StageStep op o id none none
  | new {i j : FlowInfo} {d : Option Nat} : op = .createFlow i → o = .flow 0 j d → j.id = id → StageStep op o id none (some .created)
  | same {x : Stage} : StageStep op o id (some x) (some x)
  | next {x y : Stage} : x.Next y → StageStep op o id (some x) (some y)
  | gone {x : Stage} : op = .destroyFlow id → o = .int 0 → StageStep op o id (some x) none

/-- All flows are replaced by flows with the same id. -/
theorem stage_map {s s' : Reg} (h : FlowInv s) (h' : FlowInv s') {u : Flow → Flow} (hu : ∀ f ∈ s.flows, (u f).info.id = f.info.id ∧
    ((u f).info.state = f.info.state ∨ Stage.Next (stage f.info.state) (stage (u f).info.state))) (h1 : s'.flows = s.flows.map u)
    (op : Op) (o : Out) (id : Int) : StageStep op o id (stageOf s id) (stageOf s' id) := by
  rcases stageOf_cases s id with ⟨f, hf, rfl⟩ | hno
  · obtain ⟨h2, h3⟩ := hu f hf
    have hf' : u f ∈ s'.flows := h1 ▸ List.mem_map_of_mem hf
    rw [stageOf_mem h hf, ← h2, stageOf_mem h' hf']
    rcases h3 with h3 | h3
    · rw [h3]; exact .same
    · exact .next h3
  · rw [stageOf_none hno, stageOf_none]
    · exact .absent
    · rw [h1]
      intro g hg
      obtain ⟨f, hf, rfl⟩ := List.mem_map.mp hg
      rw [(hu f hf).1]
      exact hno f hf

theorem stage_eq {s s' : Reg} (h : FlowInv s) (h' : FlowInv s') (h1 : s'.flows = s.flows) (op : Op) (o : Out) (id : Int) :
    StageStep op o id (stageOf s id) (stageOf s' id) :=
  stage_map h h' (u := fun f => f) (fun _ _ => ⟨rfl, .inl rfl⟩) (by rw [h1, List.map_id']) op o id

theorem stage_set {s s' : Reg} (h : FlowInv s) (h' : FlowInv s') {f g : Flow} (hf : f ∈ s.flows) (hc : Chg f g)
    (h1 : s'.flows = (setFlow s g).flows) (op : Op) (o : Out) (id : Int) : StageStep op o id (stageOf s id) (stageOf s' id) := by
  refine stage_map h h' (u := fun x => if x.ptr = g.ptr then g else x) (fun x hx => ?_) h1 op o id
  split
  · rename_i hp
    rw [h.ptr_inj hx hf (hp.trans hc.ptr)]
    exact ⟨hc.id, hc.next⟩
  · exact ⟨rfl, .inl rfl⟩

theorem cancelled_next (p : Nat) (f : Flow) : (cancelled p f).info.id = f.info.id ∧
    ((cancelled p f).info.state = f.info.state ∨ Stage.Next (stage f.info.state) (stage (cancelled p f).info.state)) := by
  unfold cancelled
  split
  · rename_i hc
    refine ⟨rfl, .inr ?_⟩
    rcases hc.2 with hc | hc <;> rw [hc]
    · exact .refused
    · exact .cancelled
  · exact ⟨rfl, .inl rfl⟩

theorem stage_step {s s' : Reg} {op : Op} {o : Out} (h : FlowInv s) (he : Eff s op o s') (id : Int) :
    StageStep op o id (stageOf s id) (stageOf s' id) := by
  have h' := h.step he
  cases he with
  | change hq hf hc => exact stage_set h h' hf hc.toChg rfl _ _ _
  | @create i b nid hst hnp hn1 ha hv =>
    obtain ⟨_, _, _, ⟨_, h1, h2, h3, _⟩ | ⟨h1, _⟩⟩ := alloc_spec h ha
    · rcases stageOf_cases s id with ⟨f, hf, rfl⟩ | hno
      · rw [stageOf_mem h hf, stageOf_mem h' (mem_addAfter.mpr (.inr hf))]
        exact .same
      · by_cases hid : id = nid
        · subst hid
          rw [stageOf_none hno]
          have := stageOf_mem h' (mem_addAfter.mpr (.inl rfl))
          dsimp only at this
          rw [this, hst]
          exact .new rfl rfl rfl
        · rw [stageOf_none hno, stageOf_none]
          · exact .absent
          · intro f hf
            rcases mem_addAfter.mp hf with rfl | hf
            · exact fun hc => hid hc.symm
            · exact hno f hf
    · rw [hv] at h1; cases h1
  | @destroy nid f b r hf hid hr =>
    subst hid
    rcases stageOf_cases s id with ⟨g, hg, rfl⟩ | hno
    · rw [stageOf_mem h hg]
      by_cases hgf : g = f
      · subst hgf
        rw [stageOf_none]
        · exact .gone rfl rfl
        · intro k hk hkid
          obtain ⟨hk1, hk2⟩ := List.mem_filter.mp hk
          rw [h.id_inj hk1 hf hkid] at hk2
          simp at hk2
      · rw [stageOf_mem h' (List.mem_filter.mpr ⟨hg, ?_⟩)]
        · exact .same
        · simp only [bne_iff_ne, ne_eq]
          exact fun hc => hgf (h.ptr_inj hg hf hc)
    · rw [stageOf_none hno, stageOf_none]
      · exact .absent
      · exact fun k hk => hno k (List.mem_filter.mp hk).1
  | prepare hf hid hst hc => exact stage_set h h' hf hc rfl _ _ _
  | done hf hp hc hst => exact stage_set h h' hf hc.toChg rfl _ _ _
  | destroyProc hd =>
    obtain ⟨_, _, _, _, _, _, _, _, ⟨_, h5, _⟩ | ⟨e, _, h5, _⟩, _⟩ := destroyProc_parts hd
    · exact stage_eq h h' h5 _ _ _
    · exact stage_map h h' (fun f _ => cancelled_next _ f) h5 _ _ _
  | _ => exact stage_eq h h' rfl _ _ _

theorem Stage.Next.rank {x y : Stage} (h : x.Next y) : x.rank < y.rank := by
  cases h <;> decide

/-- Without a call that destroys it a flow stays, in the same or a later stage. -/
theorem stage_mono {s s' : Reg} {ops : List Op} {log : List (Op × Out)} (h : FlowInv s) (hr : runFrom s ops = .ok (s', log)) {id : Int}
    (hd : .destroyFlow id ∉ ops) {x : Stage} (hx : stageOf s id = some x) :
    ∃ y, stageOf s' id = some y ∧ (y = x ∨ x.rank < y.rank) := by
  induction ops generalizing s x log with
  | nil =>
    cases Outcome.ok.inj hr
    exact ⟨x, hx, .inl rfl⟩
  | cons op ops ih =>
    unfold runFrom at hr
    obtain ⟨⟨s1, o⟩, h1, hr⟩ := bind_eq_ok.mp hr
    obtain ⟨⟨s2, l⟩, h2, hr⟩ := bind_eq_ok.mp hr
    cases Outcome.ok.inj hr
    have he := step_eff h.ids h1
    have hs := stage_step h he id
    have hne : op ≠ .destroyFlow id := fun hc => hd (hc ▸ List.mem_cons_self)
    have hd' : .destroyFlow id ∉ ops := fun hc => hd (List.mem_cons_of_mem _ hc)
    rw [hx] at hs
    generalize hy : stageOf s1 id = z at hs
    cases hs with
    | same => exact ih (h.step he) h2 hd' hy
    | next hn =>
      obtain ⟨y, h3, h4⟩ := ih (h.step he) h2 hd' hy
      refine ⟨y, h3, .inr ?_⟩
      have := Stage.Next.rank hn
      rcases h4 with rfl | h4 <;> omega
    | gone hg => exact absurd hg hne

theorem runFrom_ops {s s' : Reg} {ops : List Op} {log : List (Op × Out)} (h : runFrom s ops = .ok (s', log)) : log.map (·.1) = ops := by
  induction ops generalizing s log with
  | nil => cases Outcome.ok.inj h; rfl
  | cons op ops ih =>
    unfold runFrom at h
    obtain ⟨⟨s1, o⟩, h1, h⟩ := bind_eq_ok.mp h
    obtain ⟨⟨s2, l⟩, h2, h⟩ := bind_eq_ok.mp h
    cases Outcome.ok.inj h
    rw [List.map_cons, ih h2]

/-- The rings of a flow are gone when it no longer needs them, as long as no process is destroyed. -/
theorem rings_clean {s : Reg} {ops : List Op} {log : List (Op × Out)} (h : run ops = .ok (s, log)) (hd : ∀ p, .destroyProc p ∉ ops) :
    ∀ f ∈ s.flows, (stage f.info.state).needsRings = false → f.nRb = false ∧ f.n1Rb = false := by
  have key := run_ind (P := fun s log => FlowInv s ∧ ((∀ p, .destroyProc p ∉ log.map (·.1)) →
      ∀ f ∈ s.flows, f.info.state = .deallocated → f.nRb = false ∧ f.n1Rb = false)) ?_ ?_ h
  · suffices hs : ∀ p, .destroyProc p ∉ log.map (·.1) by
      intro f hf hn
      have hk := key.1.ok f hf
      cases hst : f.info.state with
      | init => have := hk.early (.inl hst); exact ⟨this.1, hk.same ▸ this.1⟩
      | acceptPending => have := hk.early (.inr hst); exact ⟨this.1, hk.same ▸ this.1⟩
      | deallocated => exact key.2 hs f hf hst
      | _ => rw [hst] at hn; cases hn
    have : log.map (·.1) = ops := by
      unfold run at h
      obtain ⟨s0, _, h⟩ := bind_eq_ok.mp h
      exact runFrom_ops h
    rw [this]
    exact hd
  · intro s hs
    refine ⟨flow_init hs, ?_⟩
    unfold init at hs
    obtain ⟨b, _, hs⟩ := bind_eq_ok.mp hs
    cases Outcome.ok.inj hs
    simp
  · rintro s l op o s' ⟨hi, hc⟩ hs
    have he := step_eff hi.ids hs
    refine ⟨hi.step he, ?_⟩
    intro hd
    have hd' : ∀ p, .destroyProc p ∉ l.map (·.1) := fun p hp => hd p (by simp at hp ⊢; exact .inl hp)
    have hop : ∀ p, op ≠ .destroyProc p := fun p hp => hd p (by simp [hp])
    have hc := hc hd'
    have hset : ∀ {f g : Flow}, f ∈ s.flows → Chg f g → ∀ x ∈ (setFlow s g).flows,
        x.info.state = .deallocated → x.nRb = false ∧ x.n1Rb = false := by
      intro f g hf hch x hx hn
      obtain ⟨y, hy, rfl⟩ := List.mem_map.mp hx
      by_cases hp : y.ptr = g.ptr
      · rw [if_pos hp] at hn ⊢
        exact hch.clean hn (hc f hf)
      · rw [if_neg hp] at hn ⊢
        exact hc y hy hn
    cases he with
    | change hq hf hch => exact hset hf hch.toChg
    | create hst =>
      intro x hx hn
      rcases mem_addAfter.mp hx with rfl | hx
      · exact ⟨rfl, rfl⟩
      · exact hc x hx hn
    | destroy => exact fun x hx hn => hc x (List.mem_filter.mp hx).1 hn
    | prepare hf hid hst hch => exact hset hf hch
    | done hf hp hch => exact hset hf hch.toChg
    | destroyProc => exact absurd rfl (hop _)
    | _ => exact hc

/-! ## Totality -/

theorem updateNames_total {g : Prog} {l : List Name} {p : Proc} (hp : 0 < p.pid) (hl : (l.map (·.name)).Nodup)
    (h1 : ∀ n ∈ l, p.pid ∉ n.procs) (h2 : ∀ n ∈ l, n.name ∉ p.names) : ∃ r, updateNames g p l = .ok r := by
  induction l generalizing p with
  | nil => exact ⟨_, rfl⟩
  | cons n l ih =>
    have hn : p.pid ∉ n.procs := h1 n List.mem_cons_self
    have hl' := List.nodup_cons.mp hl
    unfold updateNames
    rw [nameHasProc_eq hp, show decide (p.pid ∈ n.procs) = false by simpa using hn]
    simp only [assert, Outcome.bind_ok, Bool.not_false, if_true]
    split
    · have hnn : n.name ∉ p.names := h2 n List.mem_cons_self
      have e1 : procAddName p n.name = .ok { p with names := n.name :: p.names } := by
        unfold procAddName
        have : procHasName p n.name = false := by
          rw [Bool.eq_false_iff]
          exact fun hc => hnn (procHasName_iff.mp hc)
        simp [this, assert]
      have e2 : nameAddProc n p.pid = .ok { n with procs := p.pid :: n.procs } := by
        unfold nameAddProc
        rw [nameHasProc_eq hp, show decide (p.pid ∈ n.procs) = false by simpa using hn]
        simp [assert]
      obtain ⟨⟨q, m⟩, hr⟩ := ih (p := { p with names := n.name :: p.names }) hp hl'.2 (fun m hm => h1 m (List.mem_cons_of_mem _ hm)) (by
        intro m hm hc
        rcases List.mem_cons.mp hc with hc | hc
        · exact hl'.1 (List.mem_map.mpr ⟨m, hm, hc⟩)
        · exact h2 m (List.mem_cons_of_mem _ hm) hc)
      rw [e1]
      simp only [Outcome.bind_ok]
      rw [e2]
      simp only [Outcome.bind_ok]
      rw [hr]
      exact ⟨_, rfl⟩
    · obtain ⟨⟨q, m⟩, hr⟩ := ih hp hl'.2 (fun m hm => h1 m (List.mem_cons_of_mem _ hm)) (fun m hm => h2 m (List.mem_cons_of_mem _ hm))
      rw [hr]
      exact ⟨_, rfl⟩

theorem createProc_total {s : Reg} {b : Bindings Str Str} (hb : BndInv s b) {p : Nat} (hp : 0 < p) (g : Str) :
    ∃ r, createProc s p g = .ok r := by
  unfold createProc
  split
  · exact ⟨_, rfl⟩
  · rename_i hno
    unfold procUpdateNames
    simp only [assert, List.isEmpty_nil, if_true, Outcome.bind_ok]
    split
    · exact ⟨_, rfl⟩
    · rename_i e he
      obtain ⟨⟨q, m⟩, hr⟩ := updateNames_total (g := e) (l := s.names) (p := ⟨p, g, []⟩) hp hb.kn.nodup (by
        intro n hn hc
        obtain ⟨q, hq, h1, _⟩ := (hb.byProc n.name p).mp ((hb.byName n.name p).mpr ⟨n, hn, rfl, hc⟩)
        exact find_none_iff.mp hno q hq h1) (by simp)
      rw [hr]
      exact ⟨_, rfl⟩

theorem nameDelProc_eq {n : Name} {p : Nat} (hp : 0 < p) (hn : n.procs.Nodup) : nameDelProc n p = .ok (dropProc p n) := by
  unfold nameDelProc dropProc
  rw [nameHasProc_eq hp]
  simp only [Outcome.bind_ok]
  by_cases h : p ∈ n.procs
  · rw [if_pos h, nameHasProc_eq hp]
    have : p ∉ n.procs.erase p := by rw [hn.mem_erase_iff]; exact fun hc => hc.1 rfl
    simp [h, this, assert]
  · simp [h]

theorem destroyProc_total {s : Reg} {b : Bindings Str Str} (hb : BndInv s b) {p : Nat} (hp : 0 < p) :
    ∃ s', destroyProc s p = .ok (s', .int 0) := by
  have h1 : ∃ s1, destroyProcEntry s p = .ok s1 := by
    unfold destroyProcEntry
    split
    · exact ⟨_, rfl⟩
    · unfold delProcFromNames
      dsimp only
      rw [mapM'_total (g := dropProc p) (fun n hn => nameDelProc_eq hp (hb.nd n hn))]
      exact ⟨_, rfl⟩
  obtain ⟨s1, h1⟩ := h1
  unfold destroyProc
  rw [h1]
  simp only [Outcome.bind_ok]
  unfold getIpcp
  simp only [assert, hp, decide_true, if_true, Outcome.bind_ok, Outcome.pure_eq]
  split <;> exact ⟨_, rfl⟩

theorem getFlow_eq {s : Reg} {id : Int} (h : 1 ≤ id) : getFlow s id = .ok (s.flows.find? (fun f => f.info.id == id)) := by
  unfold getFlow
  simp [assert, h]

theorem getIpcp_eq {s : Reg} {p : Nat} (h : 0 < p) : getIpcp s p = .ok (s.ipcps.find? (fun f => f.info.pid == p)) := by
  unfold getIpcp
  simp [assert, h]

/-- Evaluates a history. -/
def checkRun (ops : List Op) (f : Reg → List Out → Bool) : Bool :=
  match run ops with
  | .ok (s, log) => f s (log.map (·.2))
  | .ub => false

theorem checkRun_ex {ops : List Op} {f : Reg → List Out → Bool} (h : checkRun ops f = true) :
    ∃ s log, run ops = .ok (s, log) ∧ f s (log.map (·.2)) = true := by
  unfold checkRun at h
  cases hr : run ops with
  | ok r => rw [hr] at h; exact ⟨r.1, r.2, rfl, h⟩
  | ub => rw [hr] at h; cases h

/-- Evaluates a history, for its log. -/
def checkLog (ops : List Op) (f : List (Op × Out) → Bool) : Bool :=
  match run ops with
  | .ok (_, log) => f log
  | .ub => false

theorem checkLog_ex {ops : List Op} {f : List (Op × Out) → Bool} (h : checkLog ops f = true) :
    ∃ s log, run ops = .ok (s, log) ∧ f log = true := by
  unfold checkLog at h
  cases hr : run ops with
  | ok r => rw [hr] at h; exact ⟨r.1, r.2, rfl, h⟩
  | ub => rw [hr] at h; cases h

instance decOneAtATime (f : Nat → Phase) : (l : List (BEv Str Str)) → Decidable (OneAtATime f l)
  | [] => .isTrue trivial
  | e :: l =>
    haveI := decOneAtATime (e.phase f) l
    haveI : Decidable (InOrder f e) := by cases e <;> unfold InOrder <;> infer_instance
    decidable_of_iff (InOrder f e ∧ OneAtATime (e.phase f) l) (by cases e <;> exact Iff.rfl)

end Ouro.Registry
