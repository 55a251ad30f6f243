import Verif.Proof.RegistryFlow

/-!
# The effect of a call on the registry
-/

namespace Ouro.Registry

/-- Calls, with their results, that leave the tables as they are. -/
def Quiet : Op → Out → Prop
  | .createFlow _, _ => False
  | .prepareAccept _ _, _ => False
  | .waitAcceptedStart _, _ => False
  | .waitAcceptedWake _ _ _, o => o = .waiting
  | .createProg _ _, _ => False
  | .destroyProc _, _ => False
  | .destroyFlow _, o => o ≠ .int 0
  | .createIpcp _, o => o ≠ .int 0
  | .createName _ _, o => o ≠ .int 0
  | .destroyName _, o => o ≠ .int 0
  | .createProc _ _, o => o ≠ .int 0
  | .createSpawned _, o => o ≠ .int 0
  | .bindProc _ _, o => o ≠ .int 0
  | .unbindProc _ _, o => o ≠ .int 0
  | .destroyProg _, o => o ≠ .int 0
  | .bindProg _ _ _, o => o ≠ .int 0
  | .unbindProg _ _, o => o ≠ .int 0
  | .setLayer _ _, o => o ≠ .int 0
  | .respondIpcp _, o => o ≠ .int 0
  | _, _ => True

/-- What a call does, by cases. -/
inductive Eff (s : Reg) : Op → Out → Reg → Prop
  | same {op : Op} {o : Out} : Quiet op o → Eff s op o s
  | change {op : Op} {o : Out} {f g : Flow} : Quiet op o → f ∈ s.flows → Chg' f g → Eff s op o (setFlow s g)
  | full {i : FlowInfo} {b : Bitmap.Bmp} {id : Int} : Bitmap.allocate s.ids = .ok (b, id) → Bitmap.isIdValid b id = false →
      Eff s (.createFlow i) (.flow (-1) { i with id := id } none) { s with ids := b }
  | create {i : FlowInfo} {b : Bitmap.Bmp} {id : Int} : i.state = .init → i.npid ≠ 0 → i.n1pid = 0 →
      Bitmap.allocate s.ids = .ok (b, id) → Bitmap.isIdValid b id = true →
      Eff s (.createFlow i) (.flow 0 { i with id := id } none)
        { s with ids := b, flows := addAfter (fun g => decide (g.info.id > id)) ⟨s.fresh, { i with id := id }, false, false, none⟩ s.flows, nFlows := s.nFlows + 1, fresh := s.fresh + 1 }
  | destroy {id : Int} {f : Flow} {b : Bitmap.Bmp} {r : Int} : f ∈ s.flows → f.info.id = id → Bitmap.release s.ids id = .ok (b, r) →
      Eff s (.destroyFlow id) (.int 0)
        { s with flows := s.flows.filter (fun g => g.ptr != f.ptr), nFlows := s.nFlows - 1, ids := b }
  | prepare {i : FlowInfo} {b : Option Nat} {f g : Flow} : f ∈ s.flows → f.info.id = i.id → f.info.state = .init → Chg f g →
      g.info.state = .acceptPending → g.info.npid = i.npid → Eff s (.prepareAccept i b) (.flow 0 g.info none) (setFlow s g)
  | accept {i : FlowInfo} {f : Flow} : f ∈ s.flows → f.info.state = .acceptPending → f.info.npid = i.npid →
      Eff s (.waitAcceptedStart i) (.ptr f.ptr) { s with names := s.names.map (markActive i.npid) }
  | done {p : Nat} {i : FlowInfo} {t : Bool} {f g : Flow} {r : Int} {d : Option Nat} : f ∈ s.flows → f.ptr = p → Chg' f g →
      g.info.state ≠ .acceptPending →
      Eff s (.waitAcceptedWake p i t) (.flow r g.info d) (setFlow { s with names := s.names.map (unmark f.info.npid) } g)
  | createIpcp {i : IpcpInfo} : s.ipcps.find? (fun j => j.info.pid == i.pid) = none →
      Eff s (.createIpcp i) (.int 0)
        { s with ipcps := addAfter (fun j => decide (j.info.pid > i.pid)) ⟨i, ⟨"Not enrolled.".toList, 0⟩⟩ s.ipcps, spawned := addAfter (fun p => decide (p > i.pid)) i.pid s.spawned, nIpcps := s.nIpcps + 1, nSpawned := s.nSpawned + 1 }
  | respondIpcp {i : IpcpInfo} {e : Ipcp} : s.ipcps.find? (fun j => j.info.pid == i.pid) = some e →
      Eff s (.respondIpcp i) (.int 0) (setIpcp s { e with info := i })
  | setLayer {i : IpcpInfo} {l : Layer} {e : Ipcp} : s.ipcps.find? (fun j => j.info.pid == i.pid) = some e →
      Eff s (.setLayer i l) (.int 0) (setIpcp s { info := { e.info with state := i.state }, layer := l })
  | createName {n : Str} {p : Pol} : getName s n = none →
      Eff s (.createName n p) (.int 0) { s with names := addAfter (fun m => strGt m.name n) (nameCreate n p) s.names, nNames := s.nNames + 1 }
  | destroyName {n : Str} {e : Name} : getName s n = some e → e.progs = [] → e.procs = [] → e.active = [] →
      Eff s (.destroyName n) (.int 0)
        { s with procs := s.procs.map (fun p => { p with names := p.names.erase n }), progs := s.progs.map (fun p => { p with names := p.names.erase n }), names := s.names.filter (fun m => m.name != e.name), nNames := s.nNames - 1 }
  | createProc {p : Nat} {g : Str} : getProc s p = none → getProg s g = none →
      Eff s (.createProc p g) (.int 0) { s with procs := addAfter (fun q => decide (q.pid > p)) ⟨p, g, []⟩ s.procs, nProcs := s.nProcs + 1 }
  | startProc {p : Nat} {g : Str} {e : Prog} {q : Proc} : getProc s p = none → getProg s g = some e → q.pid = p → q.prog = g →
      q.names.Nodup → (∀ x, x ∈ q.names ↔ ∃ n ∈ s.names, n.name = x ∧ x ∈ e.names) → (∀ n ∈ s.names, p ∉ n.procs) →
      Eff s (.createProc p g) (.int 0)
        { s with names := s.names.map (joinName e p), procs := addAfter (fun q => decide (q.pid > p)) q s.procs, nProcs := s.nProcs + 1 }
  | destroyProc {p : Nat} {s' : Reg} : destroyProc s p = .ok (s', .int 0) → Eff s (.destroyProc p) (.int 0) s'
  | createSpawned {p : Nat} : getSpawned s p = none →
      Eff s (.createSpawned p) (.int 0) { s with spawned := addAfter (fun q => decide (q > p)) p s.spawned, nSpawned := s.nSpawned + 1 }
  | bindProc {n : Str} {p : Nat} {m : Name} {q : Proc} : getName s n = some m → getProc s p = some q → p ∉ m.procs → n ∉ q.names →
      Eff s (.bindProc n p) (.int 0) (setProc (setName s (boundName s p m)) { q with names := n :: q.names })
  | unbindProc {n : Str} {p : Nat} {m : Name} {q : Proc} : getName s n = some m → getProc s p = some q → p ∈ m.procs → n ∈ q.names →
      Eff s (.unbindProc n p) (.int 0) (setProc (setName s (dropProc p m)) { q with names := q.names.erase n })
  | createProg {n p : Str} : getProg s n = none →
      Eff s (.createProg n p) (.int 0) { s with progs := addAfter (fun m => strGt m.name n) ⟨n, p, []⟩ s.progs, nProgs := s.nProgs + 1 }
  | oldProg {n p : Str} {e : Prog} : getProg s n = some e → Eff s (.createProg n p) (.int 0) s
  | destroyProg {n : Str} {e : Prog} : getProg s n = some e →
      Eff s (.destroyProg n) (.int 0)
        { s with names := s.names.map (dropProg e.path), progs := s.progs.filter (fun m => m.name != e.name), nProgs := s.nProgs - 1 }
  | bindProg {n e0 : Str} {rest : List Str} {a : Bool} {m : Name} {g : Prog} : getName s n = some m → getProg s (strip e0) = some g →
      n ∉ g.names → Eff s (.bindProg n (e0 :: rest) a) (.int 0)
        (setProg (setName s (if a then { m with progs := (e0 :: rest) :: m.progs } else m)) { g with names := n :: g.names })
  | unbindProg {n g : Str} {m : Name} {q : Prog} : getName s n = some m → getProg s g = some q → n ∈ q.names →
      Eff s (.unbindProg n g) (.int 0) (setProg (setName s (dropProg g m)) { q with names := q.names.erase n })

theorem find_mem {s : Reg} {i : Int} {f : Flow} (h : s.flows.find? (fun f => f.info.id == i) = some f) : f ∈ s.flows ∧ f.info.id = i :=
  ⟨List.mem_of_find?_eq_some h, by simpa using List.find?_some h⟩

theorem step_eff {s s' : Reg} {op : Op} {o : Out} (hn : (s.flows.map (·.info.id)).Nodup) (h : step s op = .ok (s', o)) : Eff s op o s' := by
  cases op with
  | createFlow i =>
    obtain ⟨h1, h2, b, id, h3, ⟨h4, rfl, rfl⟩ | ⟨h4, _, h5, rfl, rfl⟩⟩ := createFlow_ok h
    · exact .full h3 h4
    · exact .create h1 h2 h5 h3 h4
  | destroyFlow i =>
    obtain ⟨_, ⟨_, rfl, rfl⟩ | ⟨f, b, r, h1, h2, rfl, rfl⟩⟩ := destroyFlow_ok h
    · exact .same (by simp [Quiet])
    · exact .destroy (find_mem h1).1 (find_mem h1).2 h2
  | hasFlow i => obtain ⟨_, rfl, _⟩ := hasFlow_ok h; exact .same trivial
  | createIpcp i =>
    obtain ⟨_, _, ⟨e, _, rfl, rfl⟩ | ⟨h1, rfl, rfl⟩⟩ := createIpcp_ok h
    · exact .same (by simp [Quiet])
    · exact .createIpcp h1
  | updateIpcp i => obtain ⟨rfl, _⟩ := updateIpcp_ok h; exact .same trivial
  | hasIpcp i => obtain ⟨_, rfl, _⟩ := hasIpcp_ok h; exact .same trivial
  | listIpcps => cases listIpcps_ok h; exact .same trivial
  | createName n p =>
    obtain ⟨e, _, rfl, rfl⟩ | ⟨h1, rfl, rfl⟩ := createName_ok h
    · exact .same (by simp [Quiet, EEXIST])
    · exact .createName h1
  | destroyName n =>
    obtain ⟨_, rfl, rfl⟩ | ⟨e, h1, rfl, h2, h3, h4, rfl⟩ := destroyName_ok h
    · exact .same (by simp [Quiet])
    · exact .destroyName h1 h2 h3 h4
  | hasName n => cases Outcome.ok.inj h; exact .same trivial
  | listNames => cases listNames_ok h; exact .same trivial
  | createProc p g =>
    obtain ⟨e, _, rfl, rfl⟩ | ⟨h1, rfl, ⟨h2, rfl⟩ | ⟨e, q, h2, h3, h4, h5, h6, h7, rfl⟩⟩ := createProc_ok h
    · exact .same (by simp [Quiet])
    · exact .createProc h1 h2
    · exact .startProc h1 h2 h3 h4 h5 h6 h7
  | destroyProc p =>
    obtain ⟨_, rfl, _⟩ := destroyProc_ok h
    exact .destroyProc h
  | hasProc p => cases Outcome.ok.inj h; exact .same trivial
  | createSpawned p =>
    obtain ⟨e, _, rfl, rfl⟩ | ⟨h1, rfl, rfl⟩ := createSpawned_ok h
    · exact .same (by simp [Quiet])
    · exact .createSpawned h1
  | hasSpawned p => cases Outcome.ok.inj h; exact .same trivial
  | bindProc n p =>
    obtain ⟨_, ⟨rfl, rfl, _⟩ | ⟨m, q, h1, h2, h3, h4, rfl, rfl⟩⟩ := bindProc_ok h
    · exact .same (by simp [Quiet])
    · exact .bindProc h1 h2 h3 h4
  | unbindProc n p =>
    obtain ⟨_, ⟨rfl, rfl, _⟩ | ⟨m, q, h1, h2, h3, h4, rfl, rfl⟩⟩ := unbindProc_ok h
    · exact .same (by simp [Quiet])
    · exact .unbindProc h1 h2 h3 h4
  | createProg n p =>
    obtain ⟨rfl, ⟨e, h1, rfl⟩ | ⟨h1, rfl⟩⟩ := createProg_ok h
    · exact .oldProg h1
    · exact .createProg h1
  | destroyProg n =>
    obtain ⟨_, rfl, rfl⟩ | ⟨e, h1, rfl, rfl⟩ := destroyProg_ok h
    · exact .same (by simp [Quiet])
    · exact .destroyProg h1
  | hasProg n => cases Outcome.ok.inj h; exact .same trivial
  | getExec f v => cases getExec_ok h; exact .same trivial
  | bindProg n ex a =>
    obtain ⟨e0, rest, rfl, ⟨rfl, rfl, _⟩ | ⟨m, g, h1, h2, h3, h4, rfl, rfl⟩⟩ := bindProg_ok h
    · exact .same (by simp [Quiet])
    · exact .bindProg h1 h2 h4
  | unbindProg n g =>
    obtain ⟨rfl, rfl, _⟩ | ⟨m, q, h1, h2, h3, rfl, rfl⟩ := unbindProg_ok h
    · exact .same (by simp [Quiet])
    · exact .unbindProg h1 h2 h3
  | setLayer i l =>
    obtain ⟨_, rfl, rfl⟩ | ⟨e, h1, rfl, rfl⟩ := setLayer_ok h
    · exact .same (by simp [Quiet])
    · exact .setLayer h1
  | findIpcp p => cases findIpcp_ok h; exact .same trivial
  | findIpcpByLayer l => cases findIpcpByLayer_ok h; exact .same trivial
  | prepareAlloc i =>
    obtain ⟨f, g, h1, _, h2, _, rfl, rfl⟩ := prepareAlloc_ok h
    exact .change trivial (find_mem h1).1 h2
  | waitAllocatedStart i => obtain ⟨rfl, _⟩ := waitAllocatedStart_ok h; exact .same trivial
  | waitAllocatedWake p i t =>
    obtain ⟨rfl, rfl, _⟩ | ⟨f, g, r, d, h1, _, h2, rfl, rfl, _⟩ := waitAllocatedWake_ok hn h
    · exact .same trivial
    · exact .change trivial h1 h2
  | respondAlloc i b =>
    obtain ⟨_, ⟨rfl, rfl, _⟩ | ⟨f, g, h1, _, h2, _, _, rfl, rfl⟩⟩ := respondAlloc_ok h
    · exact .same trivial
    · exact .change trivial (find_mem h1).1 h2
  | prepareAccept i b =>
    obtain ⟨f, g, h1, h2, h3, h4, h5, rfl, rfl⟩ := prepareAccept_ok h
    exact .prepare (find_mem h1).1 (find_mem h1).2 h2 h3 h4 h5
  | waitAcceptedStart i =>
    obtain ⟨f, h1, h2, h3, rfl, rfl⟩ := waitAcceptedStart_ok h
    exact .accept (find_mem h1).1 h2 h3
  | waitAcceptedWake p i t =>
    obtain ⟨rfl, rfl, _⟩ | ⟨f, g, r, d, h1, h2, h3, rfl, rfl, _, h4⟩ := waitAcceptedWake_ok hn h
    · exact .same rfl
    · refine .done h1 h2 h3 ?_
      obtain ⟨_, _, h5⟩ | ⟨_, h5, _, h6⟩ | ⟨_, h5, _, h6⟩ := h4
      · rw [h5]; decide
      · rw [h6, h5]; decide
      · rw [h6, h5]; decide
  | pollAccepting f v => obtain ⟨rfl, _⟩ := pollAccepting_ok h; exact .same trivial
  | respondAccept i b =>
    obtain ⟨_, ⟨_, rfl, rfl⟩ | ⟨f, g, b', h1, _, h2, _, rfl, rfl⟩⟩ := respondAccept_ok h
    · exact .same trivial
    · exact .change trivial (find_mem h1).1 h2
  | deallocFlow i =>
    obtain ⟨f, g, h1, _, h2, _, rfl, rfl⟩ := deallocFlow_ok h
    exact .change trivial (find_mem h1).1 h2
  | deallocFlowResp i =>
    obtain ⟨f, g, h1, _, h2, _, rfl, rfl⟩ := deallocFlowResp_ok h
    exact .change trivial (find_mem h1).1 h2
  | respondIpcp i =>
    obtain ⟨_, rfl, rfl⟩ | ⟨e, h1, rfl, rfl⟩ := respondIpcp_ok h
    · exact .same (by simp [Quiet, EIPCP])
    · exact .respondIpcp h1

/-! ## Induction over histories -/

theorem runFrom_snoc {s s1 s2 : Reg} {ops : List Op} {log : List (Op × Out)} {op : Op} {o : Out}
    (h : runFrom s ops = .ok (s1, log)) (hs : step s1 op = .ok (s2, o)) : runFrom s (ops ++ [op]) = .ok (s2, log ++ [(op, o)]) := by
  induction ops generalizing s log with
  | nil =>
    cases Outcome.ok.inj h
    simp [runFrom, hs]
  | cons a ops ih =>
    unfold runFrom at h
    obtain ⟨⟨sa, oa⟩, ha, h⟩ := bind_eq_ok.mp h
    obtain ⟨⟨sb, l⟩, hb, h⟩ := bind_eq_ok.mp h
    cases Outcome.ok.inj h
    simp [runFrom, ha, ih hb]

theorem runFrom_ind {P : Reg → List (Op × Out) → Prop}
    (hstep : ∀ s l op o s', P s l → step s op = .ok (s', o) → P s' (l ++ [(op, o)])) {s s' : Reg} {l log : List (Op × Out)} {ops : List Op}
    (h0 : P s l) (h : runFrom s ops = .ok (s', log)) : P s' (l ++ log) := by
  induction ops generalizing s l log with
  | nil =>
    cases Outcome.ok.inj h
    simpa using h0
  | cons a ops ih =>
    unfold runFrom at h
    obtain ⟨⟨sa, oa⟩, ha, h⟩ := bind_eq_ok.mp h
    obtain ⟨⟨sb, lb⟩, hb, h⟩ := bind_eq_ok.mp h
    cases Outcome.ok.inj h
    have := ih (hstep _ _ _ _ _ h0 ha) hb
    simpa using this

theorem run_ind {P : Reg → List (Op × Out) → Prop} (hinit : ∀ s, init = .ok s → P s [])
    (hstep : ∀ s l op o s', P s l → step s op = .ok (s', o) → P s' (l ++ [(op, o)])) {s : Reg} {log : List (Op × Out)} {ops : List Op}
    (h : run ops = .ok (s, log)) : P s log := by
  unfold run at h
  obtain ⟨s0, h0, h⟩ := bind_eq_ok.mp h
  have := runFrom_ind hstep (hinit s0 h0) h
  simpa using this

theorem run_snoc {s1 s2 : Reg} {ops : List Op} {log : List (Op × Out)} {op : Op} {o : Out}
    (h : run ops = .ok (s1, log)) (hs : step s1 op = .ok (s2, o)) : run (ops ++ [op]) = .ok (s2, log ++ [(op, o)]) := by
  unfold run at h ⊢
  obtain ⟨s0, h0, h⟩ := bind_eq_ok.mp h
  rw [h0]
  exact runFrom_snoc h hs

end Ouro.Registry
