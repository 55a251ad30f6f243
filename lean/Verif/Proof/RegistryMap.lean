import Verif.Proof.RegistryTab

/-!
# All tables of the registry follow the log
-/

namespace Ouro.Registry

open Spec.Registry Spec.FiniteMap

/-- Every table holds the entries the log says, and its counter is their number. -/
structure Tables (s : Reg) (log : List (Op × Out)) : Prop where
  flows : Tab (fun f : Flow => f.info.id) (fun f => f.info.npid) s.flows s.nFlows (live (log.filterMap flowEv))
  names : Tab (fun n : Name => n.name) (fun n => n.pol) s.names s.nNames (live (log.filterMap nameEv))
  procs : Tab (fun p : Proc => p.pid) (fun p => p.prog) s.procs s.nProcs (live (log.filterMap procEv))
  progs : Tab (fun p : Prog => p.name) (fun p => p.path) s.progs s.nProgs (live (log.filterMap progEv))
  ipcps : Tab (fun i : Ipcp => i.info.pid) (fun i => i) s.ipcps s.nIpcps (live (log.filterMap ipcpEv))

section steps
variable {s s' : Reg} {log : List (Op × Out)} {op : Op} {o : Out}

theorem flows_step (hi : FlowInv s) (h : Tab (fun f : Flow => f.info.id) (fun f => f.info.npid) s.flows s.nFlows (live (log.filterMap flowEv)))
    (he : Eff s op o s') : Tab (fun f : Flow => f.info.id) (fun f => f.info.npid) s'.flows s'.nFlows (live ((log ++ [(op, o)]).filterMap flowEv)) := by
  rw [live_snoc]
  have hset : ∀ (f g x : Flow), f ∈ s.flows → Chg f g → x ∈ s.flows → x.ptr = g.ptr → x = f := by
    intro f g x hf hc hx hp
    exact hi.ptr_inj hx hf (hp.trans hc.ptr)
  cases he with
  | same hq => rw [(quiet_none hq).1]; exact h
  | @change _ _ f g hq hf hc =>
    rw [(quiet_none hq).1]
    refine h.map (f := fun x => if x.ptr = g.ptr then g else x) (fun x hx => ?_) (fun x hx => ?_)
    · try dsimp only
      split
      · rename_i hp
        rw [hset f g x hf hc.toChg hx hp]
        exact hc.id
      · rfl
    · try dsimp only
      split
      · rename_i hp
        rw [hset f g x hf hc.toChg hx hp]
        exact hc.npid
      · rfl
  | full ha hv => exact h
  | @create i b id hst hn hn1 ha hv =>
    obtain ⟨h1, h2, h3, ⟨_, _, _, h4, h5⟩ | ⟨h4, _⟩⟩ := alloc_spec hi ha
    · exact h.add (x := (⟨s.fresh, { i with id := id }, false, false, none⟩ : Flow)) (gt := fun g => decide (g.info.id > id)) h4
    · rw [hv] at h4; cases h4
  | @destroy id f b r hf hid hr =>
    subst hid
    have := h.remove hf
    try dsimp only
    rw [filter_ptr hi hf]
    exact this
  | @prepare i b f g hf hid hst hc hst' hnp =>
    refine h.change (f := fun x => if x.ptr = g.ptr then g else x) (k := i.id) (u := fun _ => i.npid) (fun x hx => ?_) (fun x hx hk => ?_) (fun x hx hk => ?_)
    · try dsimp only
      split
      · rename_i hp
        rw [hset f g x hf hc hx hp]
        exact hc.id
      · rfl
    · have hxf : x = f := hi.id_inj hx hf (hk.trans hid.symm)
      try dsimp only
      rw [if_pos (by rw [hxf, hc.ptr]), hnp]
    · try dsimp only
      split
      · rename_i hp
        rw [hset f g x hf hc hx hp] at hk
        exact absurd hid hk
      · rfl
  | accept => exact h
  | @done p i t f g r d hf _ hc _ =>
    refine h.map (f := fun x => if x.ptr = g.ptr then g else x) (fun x hx => ?_) (fun x hx => ?_)
    · try dsimp only
      split
      · rename_i hp
        rw [hset f g x hf hc.toChg hx hp]
        exact hc.id
      · rfl
    · try dsimp only
      split
      · rename_i hp
        rw [hset f g x hf hc.toChg hx hp]
        exact hc.npid
      · rfl
  | @destroyProc p s' hd =>
    obtain ⟨_, _, h1, h2, h3, _, _, _, h4, _⟩ := destroyProc_parts hd
    rw [h3]
    obtain ⟨_, h4, _⟩ | ⟨e, _, h4, _⟩ := h4
    · rw [h4]; exact h
    · rw [h4]
      refine h.map (fun x _ => ?_) (fun x _ => ?_)
      · unfold cancelled; split <;> rfl
      · unfold cancelled; split <;> rfl
  | _ => exact h

theorem dropProc_name (p : Nat) (n : Name) : (dropProc p n).name = n.name ∧ (dropProc p n).pol = n.pol ∧ (dropProc p n).progs = n.progs := by
  unfold dropProc; split <;> simp

theorem dropProg_name (g : Str) (n : Name) : (dropProg g n).name = n.name ∧ (dropProg g n).pol = n.pol ∧ (dropProg g n).procs = n.procs ∧
    (dropProg g n).active = n.active := by
  unfold dropProg; split <;> simp

theorem markActive_name (p : Nat) (n : Name) : (markActive p n).name = n.name ∧ (markActive p n).pol = n.pol ∧ (markActive p n).procs = n.procs := by
  unfold markActive; split <;> simp

theorem joinName_name (g : Prog) (p : Nat) (n : Name) : (joinName g p n).name = n.name ∧ (joinName g p n).pol = n.pol ∧
    (joinName g p n).active = n.active := by
  unfold joinName; split <;> simp

theorem boundName_name (s : Reg) (p : Nat) (n : Name) : (boundName s p n).name = n.name ∧ (boundName s p n).pol = n.pol ∧
    (boundName s p n).procs = p :: n.procs := by
  unfold boundName; split <;> simp

theorem getName_mem {n : Str} {m : Name} (h : getName s n = some m) : m ∈ s.names ∧ m.name = n :=
  ⟨List.mem_of_find?_eq_some h, by simpa using List.find?_some h⟩

theorem getProc_mem {n : Nat} {m : Proc} (h : getProc s n = some m) : m ∈ s.procs ∧ m.pid = n :=
  ⟨List.mem_of_find?_eq_some h, by simpa using List.find?_some h⟩

theorem getProg_mem {n : Str} {m : Prog} (h : getProg s n = some m) : m ∈ s.progs ∧ m.name = n :=
  ⟨List.mem_of_find?_eq_some h, by simpa using List.find?_some h⟩

/-- Replacing one name by another with the same name and policy. -/
theorem setName_tab {M : Map Str Pol} (h : Tab (fun n : Name => n.name) (fun n => n.pol) s.names s.nNames M) {m m' : Name}
    (hm : m ∈ s.names) (h1 : m'.name = m.name) (h2 : m'.pol = m.pol) :
    Tab (fun n : Name => n.name) (fun n => n.pol) (setName s m').names s.nNames M := by
  refine h.map (f := fun x => if x.name = m'.name then m' else x) (fun x hx => ?_) (fun x hx => ?_)
  · try dsimp only
    split
    · rename_i hp; exact hp.symm
    · rfl
  · try dsimp only
    split
    · rename_i hp
      rw [h.keyed.inj hx hm (hp.trans h1), h2]
    · rfl

theorem names_step (h : Tab (fun n : Name => n.name) (fun n => n.pol) s.names s.nNames (live (log.filterMap nameEv)))
    (he : Eff s op o s') : Tab (fun n : Name => n.name) (fun n => n.pol) s'.names s'.nNames (live ((log ++ [(op, o)]).filterMap nameEv)) := by
  rw [live_snoc]
  cases he with
  | same hq => rw [(quiet_none hq).2.1]; exact h
  | change hq hf hc => rw [(quiet_none hq).2.1]; exact h
  | accept => exact h.map (fun x _ => (markActive_name _ x).1) (fun x _ => (markActive_name _ x).2.1)
  | done => exact h.map (fun x _ => rfl) (fun x _ => rfl)
  | @createName n p hn => exact h.add (x := nameCreate n p) (fun a ha => find_none_iff.mp hn a ha)
  | @destroyName n e hn _ _ _ =>
    have := h.remove (getName_mem hn).1
    rw [(getName_mem hn).2] at this
    try dsimp only
    rw [(getName_mem hn).2]
    exact this
  | startProc => exact h.map (fun x _ => (joinName_name _ _ x).1) (fun x _ => (joinName_name _ _ x).2.1)
  | destroyProc hd =>
    obtain ⟨_, _, _, _, _, _, _, h3, h4, _⟩ := destroyProc_parts hd
    rw [h3]
    obtain ⟨_, _, h4, _⟩ | ⟨e, _, _, h4, _⟩ := h4
    · rw [h4]; exact h
    · rw [h4]
      exact h.map (fun x _ => (dropProc_name _ x).1) (fun x _ => (dropProc_name _ x).2.1)
  | bindProc hn hp => exact setName_tab h (getName_mem hn).1 (boundName_name _ _ _).1 (boundName_name _ _ _).2.1
  | unbindProc hn hp => exact setName_tab h (getName_mem hn).1 (dropProc_name _ _).1 (dropProc_name _ _).2.1
  | destroyProg => exact h.map (fun x _ => (dropProg_name _ x).1) (fun x _ => (dropProg_name _ x).2.1)
  | @bindProg n e0 rest a m g hn hg => exact setName_tab h (getName_mem hn).1 (by split <;> rfl) (by split <;> rfl)
  | unbindProg hn => exact setName_tab h (getName_mem hn).1 (dropProg_name _ _).1 (dropProg_name _ _).2.1
  | _ => exact h

theorem setProc_tab {M : Map Nat Str} (h : Tab (fun n : Proc => n.pid) (fun n => n.prog) s.procs s.nProcs M) {m m' : Proc}
    (hm : m ∈ s.procs) (h1 : m'.pid = m.pid) (h2 : m'.prog = m.prog) :
    Tab (fun n : Proc => n.pid) (fun n => n.prog) (setProc s m').procs s.nProcs M := by
  refine h.map (f := fun x => if x.pid = m'.pid then m' else x) (fun x hx => ?_) (fun x hx => ?_)
  · try dsimp only
    split
    · rename_i hp; exact hp.symm
    · rfl
  · try dsimp only
    split
    · rename_i hp
      rw [h.keyed.inj hx hm (hp.trans h1), h2]
    · rfl

theorem procs_step (h : Tab (fun n : Proc => n.pid) (fun n => n.prog) s.procs s.nProcs (live (log.filterMap procEv)))
    (he : Eff s op o s') : Tab (fun n : Proc => n.pid) (fun n => n.prog) s'.procs s'.nProcs (live ((log ++ [(op, o)]).filterMap procEv)) := by
  rw [live_snoc]
  cases he with
  | same hq => rw [(quiet_none hq).2.2.1]; exact h
  | change hq hf hc => rw [(quiet_none hq).2.2.1]; exact h
  | destroyName => exact h.map (fun x _ => rfl) (fun x _ => rfl)
  | @createProc p g hp hg => exact h.add (x := ⟨p, g, []⟩) (fun a ha => find_none_iff.mp hp a ha)
  | @startProc p g e q hp hg h1 h2 =>
    have := h.add (x := q) (gt := fun q => decide (q.pid > p)) (fun a ha => by rw [h1]; exact find_none_iff.mp hp a ha)
    rw [h1, h2] at this
    exact this
  | @destroyProc p _ hd =>
    obtain ⟨_, _, _, _, _, _, _, _, h4, _⟩ := destroyProc_parts hd
    obtain ⟨h5, _, _, h4, h3⟩ | ⟨e, h5, _, _, h4, h3⟩ := h4
    · rw [h4, h3]
      exact h.missing (find_none_iff.mp h5)
    · rw [h4, h3]
      have := h.remove (getProc_mem h5).1
      rw [(getProc_mem h5).2] at this
      exact this
  | bindProc hn hp => exact setProc_tab (s := setName s _) h (getProc_mem hp).1 rfl rfl
  | unbindProc hn hp => exact setProc_tab (s := setName s _) h (getProc_mem hp).1 rfl rfl
  | _ => exact h

theorem setProg_tab {M : Map Str Str} (h : Tab (fun n : Prog => n.name) (fun n => n.path) s.progs s.nProgs M) {m m' : Prog}
    (hm : m ∈ s.progs) (h1 : m'.name = m.name) (h2 : m'.path = m.path) :
    Tab (fun n : Prog => n.name) (fun n => n.path) (setProg s m').progs s.nProgs M := by
  refine h.map (f := fun x => if x.name = m'.name then m' else x) (fun x hx => ?_) (fun x hx => ?_)
  · try dsimp only
    split
    · rename_i hp; exact hp.symm
    · rfl
  · try dsimp only
    split
    · rename_i hp
      rw [h.keyed.inj hx hm (hp.trans h1), h2]
    · rfl

theorem progs_step (h : Tab (fun n : Prog => n.name) (fun n => n.path) s.progs s.nProgs (live (log.filterMap progEv)))
    (he : Eff s op o s') : Tab (fun n : Prog => n.name) (fun n => n.path) s'.progs s'.nProgs (live ((log ++ [(op, o)]).filterMap progEv)) := by
  rw [live_snoc]
  cases he with
  | same hq => rw [(quiet_none hq).2.2.2.1]; exact h
  | change hq hf hc => rw [(quiet_none hq).2.2.2.1]; exact h
  | destroyName => exact h.map (fun x _ => rfl) (fun x _ => rfl)
  | destroyProc hd =>
    obtain ⟨_, _, _, _, _, h4, h3, _, _, _⟩ := destroyProc_parts hd
    rw [h4, h3]
    exact h
  | @createProg n p hn =>
    have h1 : live (log.filterMap progEv) n = none := h.none_iff.mpr (find_none_iff.mp hn)
    simp only [progEv, if_true, Ev.apply, h1, Option.isSome_none, Bool.false_eq_true, if_false]
    exact h.add (x := ⟨n, p, []⟩) (fun a ha => find_none_iff.mp hn a ha)
  | @oldProg n p e hn =>
    have h1 : live (log.filterMap progEv) n = some e.path := (h.agrees _ _).mpr ⟨e, (getProg_mem hn).1, (getProg_mem hn).2, rfl⟩
    simp only [progEv, if_true, Ev.apply, h1, Option.isSome_some]
    exact h
  | @destroyProg n e hn =>
    have := h.remove (getProg_mem hn).1
    rw [(getProg_mem hn).2] at this
    try dsimp only
    rw [(getProg_mem hn).2]
    exact this
  | bindProg hn hp => exact setProg_tab (s := setName s _) h (getProg_mem hp).1 rfl rfl
  | unbindProg hn hp => exact setProg_tab (s := setName s _) h (getProg_mem hp).1 rfl rfl
  | _ => exact h

theorem ipcps_step (h : Tab (fun n : Ipcp => n.info.pid) (fun n => n) s.ipcps s.nIpcps (live (log.filterMap ipcpEv)))
    (he : Eff s op o s') : Tab (fun n : Ipcp => n.info.pid) (fun n => n) s'.ipcps s'.nIpcps (live ((log ++ [(op, o)]).filterMap ipcpEv)) := by
  rw [live_snoc]
  cases he with
  | same hq => rw [(quiet_none hq).2.2.2.2]; exact h
  | change hq hf hc => rw [(quiet_none hq).2.2.2.2]; exact h
  | @createIpcp i hn => exact h.add (x := ⟨i, ⟨"Not enrolled.".toList, 0⟩⟩) (fun a ha => find_none_iff.mp hn a ha)
  | @respondIpcp i e hn =>
    have hm := List.mem_of_find?_eq_some hn
    have hk : e.info.pid = i.pid := by simpa using List.find?_some hn
    refine h.change (f := fun x => if x.info.pid = i.pid then { e with info := i } else x) (k := i.pid)
      (u := fun e => { e with info := i }) (fun x hx => ?_) (fun x hx hp => ?_) (fun x hx hp => ?_)
    · try dsimp only
      split
      · rename_i hp; exact hp.symm
      · rfl
    · try dsimp only
      rw [if_pos hp, h.keyed.inj hx hm (hp.trans hk.symm)]
    · try dsimp only
      rw [if_neg hp]
  | @setLayer i l e hn =>
    have hm := List.mem_of_find?_eq_some hn
    have hk : e.info.pid = i.pid := by simpa using List.find?_some hn
    refine h.change (f := fun x => if x.info.pid = e.info.pid then ⟨{ e.info with state := i.state }, l⟩ else x) (k := i.pid)
      (u := fun e => ⟨{ e.info with state := i.state }, l⟩) (fun x hx => ?_) (fun x hx hp => ?_) (fun x hx hp => ?_)
    · try dsimp only
      split
      · rename_i hp; exact hp.symm
      · rfl
    · try dsimp only
      rw [if_pos (hp.trans hk.symm), h.keyed.inj hx hm (hp.trans hk.symm)]
    · try dsimp only
      rw [if_neg (by rw [hk]; exact hp)]
  | @destroyProc p _ hd =>
    obtain ⟨_, _, _, _, _, _, _, _, _, h4⟩ := destroyProc_parts hd
    obtain ⟨h5, h4, h3⟩ | ⟨e, h5, h4, h3⟩ := h4
    · rw [h4, h3]
      exact h.missing (find_none_iff.mp h5)
    · rw [h4, h3]
      have hk : e.info.pid = p := by simpa using List.find?_some h5
      have := h.remove (List.mem_of_find?_eq_some h5)
      rw [hk] at this ⊢
      exact this
  | _ => exact h

end steps

theorem tab_empty {α κ ε : Type} [DecidableEq κ] (key : α → κ) (val : α → ε) : Tab key val [] 0 (live []) :=
  ⟨⟨by simp, rfl⟩, fun k e => by simp [live, empty]⟩

theorem tables {s : Reg} {ops : List Op} {log : List (Op × Out)} (h : run ops = .ok (s, log)) : Tables s log := by
  refine (run_ind (P := fun s log => FlowInv s ∧ Tables s log) (fun s hs => ⟨flow_init hs, ?_⟩) ?_ h).2
  · unfold init at hs
    obtain ⟨b, hb, hs⟩ := bind_eq_ok.mp hs
    cases Outcome.ok.inj hs
    exact ⟨tab_empty _ _, tab_empty _ _, tab_empty _ _, tab_empty _ _, tab_empty _ _⟩
  · rintro s l op o s' ⟨hi, ht⟩ hs
    have he := step_eff hi.ids hs
    exact ⟨hi.step he, flows_step hi ht.flows he, names_step ht.names he, procs_step ht.procs he, progs_step ht.progs he, ipcps_step ht.ipcps he⟩

end Ouro.Registry
