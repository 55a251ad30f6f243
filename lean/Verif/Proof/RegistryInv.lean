import Verif.Proof.Registry

/-!
# What each call of the registry does when it does not crash
-/

namespace Ouro.Registry

/-! ## Entries -/

theorem nameHasProc_ok {n : Name} {p : Nat} {b : Bool} (h : nameHasProc n p = .ok b) : 0 < p ∧ b = decide (p ∈ n.procs) := by
  unfold nameHasProc at h
  obtain ⟨h1, h2⟩ := assert_bind.mp h
  cases Outcome.ok.inj h2
  refine ⟨by simpa using h1, ?_⟩
  rw [Bool.eq_iff_iff]
  simp

theorem nameHasProc_eq {n : Name} {p : Nat} (hp : 0 < p) : nameHasProc n p = .ok (decide (p ∈ n.procs)) := by
  unfold nameHasProc
  rw [show (decide (0 < p)) = true by simpa using hp]
  have : n.procs.any (· == p) = decide (p ∈ n.procs) := by rw [Bool.eq_iff_iff]; simp
  simp [this]

/-- The place of a new entry in the list of active processes. -/
def addPos (pol : Pol) (l : List Nat) (p : Nat) : List Nat := if pol = .rr then l ++ [p] else p :: l

theorem nameAddActive_ok {n m : Name} {p : Nat} (h : nameAddActive n p = .ok m) :
    0 < p ∧ p ∈ n.procs ∧ n.pol ≠ .invalid ∧ m = { n with active := addPos n.pol n.active p } := by
  unfold nameAddActive at h
  obtain ⟨h1, h⟩ := assert_bind.mp h
  obtain ⟨b, hb, h⟩ := bind_eq_ok.mp h
  obtain ⟨h2, h⟩ := assert_bind.mp h
  obtain ⟨h3, h4⟩ := nameHasProc_ok hb
  rw [h2] at h4
  refine ⟨h3, by simpa using h4.symm, ?_⟩
  cases hp : n.pol with
  | rr => rw [hp] at h; cases Outcome.ok.inj h; simp [addPos]
  | spill => rw [hp] at h; cases Outcome.ok.inj h; simp [addPos]
  | invalid => rw [hp] at h; cases h

theorem nameAddActive_eq {n : Name} {p : Nat} (hp : 0 < p) (hm : p ∈ n.procs) (hv : n.pol ≠ .invalid) :
    nameAddActive n p = .ok { n with active := addPos n.pol n.active p } := by
  unfold nameAddActive
  rw [show (decide (0 < p)) = true by simpa using hp, nameHasProc_eq hp, show decide (p ∈ n.procs) = true by simpa using hm]
  cases hpol : n.pol with
  | rr => simp [addPos]
  | spill => simp [addPos]
  | invalid => exact absurd hpol hv

theorem nameDelActive_ok {n m : Name} {p : Nat} (h : nameDelActive n p = .ok m) :
    0 < p ∧ m = { n with active := n.active.erase p } := by
  unfold nameDelActive at h
  obtain ⟨h1, h⟩ := assert_bind.mp h
  cases Outcome.ok.inj h
  exact ⟨by simpa using h1, rfl⟩

theorem nameAddProc_ok {n m : Name} {p : Nat} (h : nameAddProc n p = .ok m) :
    0 < p ∧ p ∉ n.procs ∧ m = { n with procs := p :: n.procs } := by
  unfold nameAddProc at h
  obtain ⟨b, hb, h⟩ := bind_eq_ok.mp h
  obtain ⟨h2, h⟩ := assert_bind.mp h
  cases Outcome.ok.inj h
  obtain ⟨h3, h4⟩ := nameHasProc_ok hb
  refine ⟨h3, ?_, rfl⟩
  rw [h4] at h2
  simpa using h2

/-- A name without a process. -/
def dropProc (p : Nat) (n : Name) : Name :=
  if p ∈ n.procs then { n with active := n.active.filter (· != p), procs := n.procs.erase p } else n

theorem nameDelProc_ok {n m : Name} {p : Nat} (h : nameDelProc n p = .ok m) : 0 < p ∧ m = dropProc p n := by
  unfold nameDelProc at h
  obtain ⟨b, hb, h⟩ := bind_eq_ok.mp h
  obtain ⟨h3, h4⟩ := nameHasProc_ok hb
  refine ⟨h3, ?_⟩
  unfold dropProc
  split at h
  · rename_i hn
    cases Outcome.ok.inj h
    rw [h4] at hn
    rw [if_neg (by simpa using hn)]
  · rename_i hn
    obtain ⟨b', hb', h⟩ := bind_eq_ok.mp h
    obtain ⟨h5, h⟩ := assert_bind.mp h
    cases Outcome.ok.inj h
    rw [h4] at hn
    rw [if_pos (by simpa using hn)]

/-- A name without a program to start. -/
def dropProg (g : Str) (n : Name) : Name :=
  if nameHasProg n g then { n with progs := n.progs.eraseP (execIs g) } else n

theorem nameDelProg_ok {n m : Name} {g : Str} (h : nameDelProg n g = .ok m) : m = dropProg g n := by
  unfold nameDelProg at h
  unfold dropProg
  split at h
  · rename_i hn
    cases Outcome.ok.inj h
    rw [if_neg (by simpa using hn)]
  · rename_i hn
    obtain ⟨h5, h⟩ := assert_bind.mp h
    cases Outcome.ok.inj h
    rw [if_pos (by simpa using hn)]

theorem procHasName_iff {p : Proc} {n : Str} : procHasName p n = true ↔ n ∈ p.names := by
  simp [procHasName]

theorem progHasName_iff {p : Prog} {n : Str} : progHasName p n = true ↔ n ∈ p.names := by
  simp [progHasName]

theorem procAddName_ok {p q : Proc} {n : Str} (h : procAddName p n = .ok q) :
    n ∉ p.names ∧ q = { p with names := n :: p.names } := by
  unfold procAddName at h
  obtain ⟨h1, h⟩ := assert_bind.mp h
  cases Outcome.ok.inj h
  refine ⟨fun hm => ?_, rfl⟩
  rw [procHasName_iff.mpr hm] at h1
  cases h1

theorem progAddName_ok {p q : Prog} {n : Str} (h : progAddName p n = .ok q) :
    n ∉ p.names ∧ q = { p with names := n :: p.names } := by
  unfold progAddName at h
  obtain ⟨h1, h⟩ := assert_bind.mp h
  cases Outcome.ok.inj h
  refine ⟨fun hm => ?_, rfl⟩
  rw [progHasName_iff.mpr hm] at h1
  cases h1

theorem procDelName_ok {p q : Proc} {n : Str} (h : procDelName p n = .ok q) : q = { p with names := p.names.erase n } := by
  unfold procDelName at h
  split at h
  · rename_i hn
    cases Outcome.ok.inj h
    have : n ∉ p.names := fun hm => by rw [procHasName_iff.mpr hm] at hn; cases hn
    rw [List.erase_of_not_mem this]
  · obtain ⟨h1, h⟩ := assert_bind.mp h
    cases Outcome.ok.inj h
    rfl

theorem progDelName_ok {p q : Prog} {n : Str} (h : progDelName p n = .ok q) : q = { p with names := p.names.erase n } := by
  unfold progDelName at h
  split at h
  · rename_i hn
    cases Outcome.ok.inj h
    have : n ∉ p.names := fun hm => by rw [progHasName_iff.mpr hm] at hn; cases hn
    rw [List.erase_of_not_mem this]
  · obtain ⟨h1, h⟩ := assert_bind.mp h
    cases Outcome.ok.inj h
    rfl

theorem nameDestroy_ok {n : Name} {u : Unit} (h : nameDestroy n = .ok u) : n.progs = [] ∧ n.procs = [] ∧ n.active = [] := by
  unfold nameDestroy at h
  obtain ⟨h1, h⟩ := assert_bind.mp h
  obtain ⟨h2, h⟩ := assert_bind.mp h
  have h3 : n.active.isEmpty = true := by
    cases hb : n.active.isEmpty with
    | true => rfl
    | false => rw [hb] at h; cases h
  simp only [List.isEmpty_iff] at *
  exact ⟨h1, h2, h3⟩

/-! ## Loops -/

theorem delNameFromProcs_ok {s s' : Reg} {n : Str} (h : delNameFromProcs s n = .ok s') :
    s' = { s with procs := s.procs.map (fun p => { p with names := p.names.erase n }) } := by
  unfold delNameFromProcs at h
  obtain ⟨l, hl, h⟩ := bind_eq_ok.mp h
  cases Outcome.ok.inj h
  rw [mapM'_ok (fun a b hab => procDelName_ok hab) hl]

theorem delNameFromProgs_ok {s s' : Reg} {n : Str} (h : delNameFromProgs s n = .ok s') :
    s' = { s with progs := s.progs.map (fun p => { p with names := p.names.erase n }) } := by
  unfold delNameFromProgs at h
  obtain ⟨l, hl, h⟩ := bind_eq_ok.mp h
  cases Outcome.ok.inj h
  rw [mapM'_ok (fun a b hab => progDelName_ok hab) hl]

theorem delProcFromNames_ok {s s' : Reg} {p : Nat} (h : delProcFromNames s p = .ok s') :
    s' = { s with names := s.names.map (dropProc p) } := by
  unfold delProcFromNames at h
  obtain ⟨l, hl, h⟩ := bind_eq_ok.mp h
  cases Outcome.ok.inj h
  rw [mapM'_ok (fun a b hab => (nameDelProc_ok hab).2) hl]

theorem delProgFromNames_ok {s s' : Reg} {g : Str} (h : delProgFromNames s g = .ok s') :
    s' = { s with names := s.names.map (dropProg g) } := by
  unfold delProgFromNames at h
  obtain ⟨l, hl, h⟩ := bind_eq_ok.mp h
  cases Outcome.ok.inj h
  rw [mapM'_ok (fun a b hab => nameDelProg_ok hab) hl]

/-- A name with a bound process marked as accepting. -/
def markActive (p : Nat) (n : Name) : Name :=
  if p ∈ n.procs then { n with active := addPos n.pol n.active p } else n

theorem addActiveProc_ok {s s' : Reg} {p : Nat} (h : addActiveProc s p = .ok s') :
    0 < p ∧ s' = { s with names := s.names.map (markActive p) } := by
  unfold addActiveProc at h
  obtain ⟨h1, h⟩ := assert_bind.mp h
  obtain ⟨l, hl, h⟩ := bind_eq_ok.mp h
  cases Outcome.ok.inj h
  refine ⟨by simpa using h1, ?_⟩
  rw [mapM'_ok (g := markActive p) ?_ hl]
  intro a b hab
  obtain ⟨c, hc, hab⟩ := bind_eq_ok.mp hab
  obtain ⟨_, rfl⟩ := nameHasProc_ok hc
  unfold markActive
  split at hab
  · rename_i hd
    obtain ⟨_, _, _, rfl⟩ := nameAddActive_ok hab
    rw [if_pos (by simpa using hd)]
  · rename_i hd
    cases Outcome.ok.inj hab
    rw [if_neg (by simpa using hd)]

/-- A name with one entry of an accepting process removed. -/
def unmark (p : Nat) (n : Name) : Name := { n with active := n.active.erase p }

theorem delActiveProc_ok {s s' : Reg} {p : Nat} (h : delActiveProc s p = .ok s') :
    0 < p ∧ s' = { s with names := s.names.map (unmark p) } := by
  unfold delActiveProc at h
  obtain ⟨h1, h⟩ := assert_bind.mp h
  obtain ⟨l, hl, h⟩ := bind_eq_ok.mp h
  cases Outcome.ok.inj h
  refine ⟨by simpa using h1, ?_⟩
  rw [mapM'_ok (g := unmark p) (fun a b hab => (nameDelActive_ok hab).2) hl]

/-- A name to which a new process of program `g` is bound if the program is. -/
def joinName (g : Prog) (p : Nat) (n : Name) : Name :=
  if n.name ∈ g.names then { n with procs := p :: n.procs } else n

theorem updateNames_ok {g : Prog} {p q : Proc} {l m : List Name} (h : updateNames g p l = .ok (q, m)) :
    q.pid = p.pid ∧ q.prog = p.prog ∧ m = l.map (joinName g p.pid) ∧
    (∀ x, x ∈ q.names ↔ x ∈ p.names ∨ ∃ n ∈ l, n.name = x ∧ x ∈ g.names) ∧
    (p.names.Nodup → q.names.Nodup) ∧ (∀ n ∈ l, p.pid ∉ n.procs) := by
  induction l generalizing p q m with
  | nil =>
    unfold updateNames at h
    cases Outcome.ok.inj h
    simp
  | cons n l ih =>
    unfold updateNames at h
    obtain ⟨b, hb, h⟩ := bind_eq_ok.mp h
    obtain ⟨hpos, rfl⟩ := nameHasProc_ok hb
    obtain ⟨hnb, h⟩ := assert_bind.mp h
    have hnp : p.pid ∉ n.procs := by simpa using hnb
    split at h
    · rename_i hg
      have hg' := progHasName_iff.mp hg
      obtain ⟨p', hp', h⟩ := bind_eq_ok.mp h
      obtain ⟨n', hn', h⟩ := bind_eq_ok.mp h
      obtain ⟨⟨q', m'⟩, hr, h⟩ := bind_eq_ok.mp h
      cases Outcome.ok.inj h
      obtain ⟨hnn, rfl⟩ := procAddName_ok hp'
      obtain ⟨_, _, rfl⟩ := nameAddProc_ok hn'
      obtain ⟨i1, i2, i3, i4, i5, i6⟩ := ih hr
      refine ⟨i1, i2, ?_, ?_, ?_, ?_⟩
      · rw [i3, List.map_cons]
        unfold joinName
        rw [if_pos hg']
      · intro x
        rw [i4 x]
        simp only [List.mem_cons, exists_eq_or_imp]
        constructor
        · rintro ((rfl | h1) | h1)
          · exact .inr (.inl ⟨rfl, hg'⟩)
          · exact .inl h1
          · exact .inr (.inr h1)
        · rintro (h1 | ⟨h1, h2⟩ | h1)
          · exact .inl (.inr h1)
          · exact .inl (.inl h1.symm)
          · exact .inr h1
      · intro hd
        exact i5 (List.nodup_cons.mpr ⟨hnn, hd⟩)
      · intro k hk
        rcases List.mem_cons.mp hk with rfl | hk
        · exact hnp
        · exact i6 k hk
    · rename_i hg
      have hg' : n.name ∉ g.names := fun hm => hg (progHasName_iff.mpr hm)
      obtain ⟨⟨q', m'⟩, hr, h⟩ := bind_eq_ok.mp h
      cases Outcome.ok.inj h
      obtain ⟨i1, i2, i3, i4, i5, i6⟩ := ih hr
      refine ⟨i1, i2, ?_, ?_, i5, ?_⟩
      · rw [i3, List.map_cons]
        unfold joinName
        rw [if_neg hg']
      · intro x
        rw [i4 x]
        simp only [List.mem_cons, exists_eq_or_imp]
        constructor
        · rintro (h1 | h1)
          · exact .inl h1
          · exact .inr (.inr h1)
        · rintro (h1 | ⟨rfl, h2⟩ | h1)
          · exact .inl h1
          · exact absurd h2 hg'
          · exact .inr h1
      · intro k hk
        rcases List.mem_cons.mp hk with rfl | hk
        · exact hnp
        · exact i6 k hk

/-! ## Calls on the tables -/

theorem getFlow_ok {s : Reg} {id : Int} {o : Option Flow} (h : getFlow s id = .ok o) :
    1 ≤ id ∧ o = s.flows.find? (fun f => f.info.id == id) := by
  unfold getFlow at h
  obtain ⟨h1, h⟩ := assert_bind.mp h
  cases Outcome.ok.inj h
  exact ⟨by simpa using h1, rfl⟩

theorem getIpcp_ok {s : Reg} {p : Nat} {o : Option Ipcp} (h : getIpcp s p = .ok o) :
    0 < p ∧ o = s.ipcps.find? (fun i => i.info.pid == p) := by
  unfold getIpcp at h
  obtain ⟨h1, h⟩ := assert_bind.mp h
  cases Outcome.ok.inj h
  exact ⟨by simpa using h1, rfl⟩

theorem createIpcp_ok {s s' : Reg} {i : IpcpInfo} {o : Out} (h : createIpcp s i = .ok (s', o)) :
    0 < i.pid ∧ i.state = .boot ∧
    ((∃ e, s.ipcps.find? (fun j => j.info.pid == i.pid) = some e ∧ s' = s ∧ o = .int (-1)) ∨
     (s.ipcps.find? (fun j => j.info.pid == i.pid) = none ∧ o = .int 0 ∧
      s' = { s with ipcps := addAfter (fun j => decide (j.info.pid > i.pid))
                      { info := i, layer := { name := "Not enrolled.".toList, algo := 0 } } s.ipcps,
                    spawned := addAfter (fun p => decide (p > i.pid)) i.pid s.spawned,
                    nIpcps := s.nIpcps + 1, nSpawned := s.nSpawned + 1 })) := by
  unfold createIpcp at h
  obtain ⟨h1, h⟩ := assert_bind.mp h
  obtain ⟨h2, h⟩ := assert_bind.mp h
  obtain ⟨e, he, h⟩ := bind_eq_ok.mp h
  obtain ⟨hp, rfl⟩ := getIpcp_ok he
  refine ⟨hp, by simpa using h2, ?_⟩
  split at h
  · rename_i e heq
    cases Outcome.ok.inj h
    exact .inl ⟨e, heq, rfl, rfl⟩
  · rename_i heq
    cases Outcome.ok.inj h
    exact .inr ⟨heq, rfl, rfl⟩

theorem updateIpcp_ok {s s' : Reg} {i : IpcpInfo} {o : Out} (h : updateIpcp s i = .ok (s', o)) :
    s' = s ∧ o = .int (-1) ∧ s.ipcps.find? (fun j => j.info.pid == i.pid) = none := by
  unfold updateIpcp at h
  obtain ⟨e, he, h⟩ := bind_eq_ok.mp h
  obtain ⟨hp, rfl⟩ := getIpcp_ok he
  split at h
  · rename_i heq
    cases Outcome.ok.inj h
    exact ⟨rfl, rfl, heq⟩
  · cases h

theorem createName_ok {s s' : Reg} {n : Str} {p : Pol} {o : Out} (h : createName s n p = .ok (s', o)) :
    (∃ e, getName s n = some e ∧ s' = s ∧ o = .int (-EEXIST)) ∨
    (getName s n = none ∧ o = .int 0 ∧
     s' = { s with names := addAfter (fun m => strGt m.name n) (nameCreate n p) s.names, nNames := s.nNames + 1 }) := by
  unfold createName at h
  split at h
  · rename_i e heq
    cases Outcome.ok.inj h
    exact .inl ⟨e, heq, rfl, rfl⟩
  · rename_i heq
    cases Outcome.ok.inj h
    exact .inr ⟨heq, rfl, rfl⟩

theorem destroyName_ok {s s' : Reg} {n : Str} {o : Out} (h : destroyName s n = .ok (s', o)) :
    (getName s n = none ∧ s' = s ∧ o = .int (-1)) ∨
    (∃ e, getName s n = some e ∧ o = .int 0 ∧ e.progs = [] ∧ e.procs = [] ∧ e.active = [] ∧
     s' = { s with procs := s.procs.map (fun p => { p with names := p.names.erase n }),
                   progs := s.progs.map (fun p => { p with names := p.names.erase n }),
                   names := s.names.filter (fun m => m.name != e.name), nNames := s.nNames - 1 }) := by
  unfold destroyName at h
  split at h
  · rename_i heq
    cases Outcome.ok.inj h
    exact .inl ⟨heq, rfl, rfl⟩
  · rename_i e heq
    obtain ⟨s1, h1, h⟩ := bind_eq_ok.mp h
    obtain ⟨s2, h2, h⟩ := bind_eq_ok.mp h
    obtain ⟨u, h3, h⟩ := bind_eq_ok.mp h
    cases Outcome.ok.inj h
    cases delNameFromProcs_ok h1
    cases delNameFromProgs_ok h2
    obtain ⟨h4, h5, h6⟩ := nameDestroy_ok h3
    exact .inr ⟨e, heq, rfl, h4, h5, h6, rfl⟩

theorem createProc_ok {s s' : Reg} {p : Nat} {g : Str} {o : Out} (h : createProc s p g = .ok (s', o)) :
    (∃ e, getProc s p = some e ∧ s' = s ∧ o = .int (-1)) ∨
    (getProc s p = none ∧ o = .int 0 ∧
     ((getProg s g = none ∧
        s' = { s with procs := addAfter (fun q => decide (q.pid > p)) ⟨p, g, []⟩ s.procs, nProcs := s.nProcs + 1 }) ∨
      (∃ e q, getProg s g = some e ∧ q.pid = p ∧ q.prog = g ∧ q.names.Nodup ∧
        (∀ x, x ∈ q.names ↔ ∃ n ∈ s.names, n.name = x ∧ x ∈ e.names) ∧ (∀ n ∈ s.names, p ∉ n.procs) ∧
        s' = { s with names := s.names.map (joinName e p),
                      procs := addAfter (fun q => decide (q.pid > p)) q s.procs, nProcs := s.nProcs + 1 }))) := by
  unfold createProc at h
  split at h
  · rename_i e heq
    cases Outcome.ok.inj h
    exact .inl ⟨e, heq, rfl, rfl⟩
  · rename_i heq
    obtain ⟨⟨q, s1⟩, h1, h⟩ := bind_eq_ok.mp h
    cases Outcome.ok.inj h
    refine .inr ⟨heq, rfl, ?_⟩
    unfold procUpdateNames at h1
    obtain ⟨_, h1⟩ := assert_bind.mp h1
    simp only at h1
    split at h1
    · rename_i hg
      cases Outcome.ok.inj h1
      exact .inl ⟨hg, rfl⟩
    · rename_i e hg
      obtain ⟨⟨q', l⟩, h2, h1⟩ := bind_eq_ok.mp h1
      cases Outcome.ok.inj h1
      obtain ⟨i1, i2, i3, i4, i5, i6⟩ := updateNames_ok h2
      refine .inr ⟨e, q', hg, i1, i2, i5 List.nodup_nil, ?_, i6, by rw [i3]⟩
      intro x
      rw [i4 x]
      simp

/-- The registry after the process entry is gone. -/
def procGone (s : Reg) (p : Nat) : Reg :=
  { s with procs := s.procs.filter (fun q => q.pid != p), nProcs := s.nProcs - 1, names := s.names.map (dropProc p),
           flows := (cancelFlows s p).flows }

theorem destroyProcEntry_ok {s s' : Reg} {p : Nat} (h : destroyProcEntry s p = .ok s') :
    (getProc s p = none ∧ s' = s) ∨ (∃ e, getProc s p = some e ∧ s' = procGone s p) := by
  unfold destroyProcEntry at h
  split at h
  · rename_i heq
    cases Outcome.ok.inj h
    exact .inl ⟨heq, rfl⟩
  · rename_i e heq
    obtain ⟨s2, h2, h⟩ := bind_eq_ok.mp h
    cases Outcome.ok.inj h
    cases delProcFromNames_ok h2
    refine .inr ⟨e, heq, ?_⟩
    have hk : e.pid = p := by simpa using List.find?_some heq
    simp only [hk]
    rfl

theorem destroyProc_ok {s s' : Reg} {p : Nat} {o : Out} (h : destroyProc s p = .ok (s', o)) :
    0 < p ∧ o = .int 0 ∧ ∃ s1, ((getProc s p = none ∧ s1 = s) ∨ (∃ e, getProc s p = some e ∧ s1 = procGone s p)) ∧
      ((s1.ipcps.find? (fun i => i.info.pid == p) = none ∧ s' = destroySpawned s1 p) ∨
       (∃ i, s1.ipcps.find? (fun i => i.info.pid == p) = some i ∧
        s' = { destroySpawned s1 p with ipcps := s1.ipcps.filter (fun j => j.info.pid != i.info.pid), nIpcps := s1.nIpcps - 1 })) := by
  unfold destroyProc at h
  obtain ⟨s1, h1, h⟩ := bind_eq_ok.mp h
  simp only at h
  obtain ⟨i, hi, h⟩ := bind_eq_ok.mp h
  obtain ⟨hp, rfl⟩ := getIpcp_ok hi
  have hd : (destroySpawned s1 p).ipcps = s1.ipcps := by unfold destroySpawned; split <;> rfl
  have hd2 : (destroySpawned s1 p).nIpcps = s1.nIpcps := by unfold destroySpawned; split <;> rfl
  refine ⟨hp, ?_⟩
  split at h
  · rename_i heq
    cases Outcome.ok.inj h
    rw [hd] at heq
    exact ⟨rfl, s1, destroyProcEntry_ok h1, .inl ⟨heq, rfl⟩⟩
  · rename_i e heq
    cases Outcome.ok.inj h
    rw [hd] at heq
    refine ⟨rfl, s1, destroyProcEntry_ok h1, .inr ⟨e, heq, ?_⟩⟩
    rw [hd, hd2]

theorem createSpawned_ok {s s' : Reg} {p : Nat} {o : Out} (h : createSpawned s p = .ok (s', o)) :
    (∃ e, getSpawned s p = some e ∧ s' = s ∧ o = .int (-1)) ∨
    (getSpawned s p = none ∧ o = .int 0 ∧
     s' = { s with spawned := addAfter (fun q => decide (q > p)) p s.spawned, nSpawned := s.nSpawned + 1 }) := by
  unfold createSpawned at h
  split at h
  · rename_i e heq
    cases Outcome.ok.inj h
    exact .inl ⟨e, heq, rfl, rfl⟩
  · rename_i heq
    cases Outcome.ok.inj h
    exact .inr ⟨heq, rfl, rfl⟩

/-- A name with a newly bound process. -/
def boundName (s : Reg) (p : Nat) (n : Name) : Name :=
  match getAcceptFlow s p with
  | some _ => { n with procs := p :: n.procs, active := addPos n.pol n.active p }
  | none => { n with procs := p :: n.procs }

theorem bindProc_ok {s s' : Reg} {n : Str} {p : Nat} {o : Out} (h : bindProc s n p = .ok (s', o)) :
    0 < p ∧ ((s' = s ∧ o = .int (-1) ∧ (getName s n = none ∨ getProc s p = none ∨ ∃ m, getName s n = some m ∧ p ∈ m.procs)) ∨
      (∃ m q, getName s n = some m ∧ getProc s p = some q ∧ p ∉ m.procs ∧ n ∉ q.names ∧ o = .int 0 ∧
        s' = setProc (setName s (boundName s p m)) { q with names := n :: q.names })) := by
  unfold bindProc at h
  obtain ⟨h1, h⟩ := assert_bind.mp h
  refine ⟨by simpa using h1, ?_⟩
  split at h
  · rename_i heq
    cases Outcome.ok.inj h
    exact .inl ⟨rfl, rfl, .inl heq⟩
  · rename_i heq _
    cases Outcome.ok.inj h
    exact .inl ⟨rfl, rfl, .inr (.inl heq)⟩
  · rename_i m q hm hq
    obtain ⟨b, hb, h⟩ := bind_eq_ok.mp h
    obtain ⟨_, rfl⟩ := nameHasProc_ok hb
    split at h
    · rename_i hd
      cases Outcome.ok.inj h
      exact .inl ⟨rfl, rfl, .inr (.inr ⟨m, hm, by simpa using hd⟩)⟩
    · rename_i hd
      obtain ⟨n1, h2, h⟩ := bind_eq_ok.mp h
      obtain ⟨p1, h3, h⟩ := bind_eq_ok.mp h
      obtain ⟨n2, h4, h⟩ := bind_eq_ok.mp h
      cases Outcome.ok.inj h
      obtain ⟨_, h5, rfl⟩ := nameAddProc_ok h2
      obtain ⟨h6, rfl⟩ := procAddName_ok h3
      refine .inr ⟨m, q, hm, hq, h5, h6, rfl, ?_⟩
      have : n2 = boundName s p m := by
        unfold boundName
        split at h4
        · rename_i f hf
          obtain ⟨_, _, _, rfl⟩ := nameAddActive_ok h4
          rw [hf]
        · rename_i hf
          cases Outcome.ok.inj h4
          rw [hf]
      rw [this]

theorem unbindProc_ok {s s' : Reg} {n : Str} {p : Nat} {o : Out} (h : unbindProc s n p = .ok (s', o)) :
    0 < p ∧ ((s' = s ∧ o = .int (-1) ∧ (getName s n = none ∨ getProc s p = none ∨
        ∃ m q, getName s n = some m ∧ getProc s p = some q ∧ (p ∉ m.procs ∨ n ∉ q.names))) ∨
      (∃ m q, getName s n = some m ∧ getProc s p = some q ∧ p ∈ m.procs ∧ n ∈ q.names ∧ o = .int 0 ∧
        s' = setProc (setName s (dropProc p m)) { q with names := q.names.erase n })) := by
  unfold unbindProc at h
  obtain ⟨h1, h⟩ := assert_bind.mp h
  refine ⟨by simpa using h1, ?_⟩
  split at h
  · rename_i heq
    cases Outcome.ok.inj h
    exact .inl ⟨rfl, rfl, .inl heq⟩
  · rename_i heq _
    cases Outcome.ok.inj h
    exact .inl ⟨rfl, rfl, .inr (.inl heq)⟩
  · rename_i m q hm hq
    obtain ⟨b, hb, h⟩ := bind_eq_ok.mp h
    obtain ⟨_, rfl⟩ := nameHasProc_ok hb
    split at h
    · rename_i hd
      cases Outcome.ok.inj h
      exact .inl ⟨rfl, rfl, .inr (.inr ⟨m, q, hm, hq, .inl (by simpa using hd)⟩)⟩
    · rename_i hd
      split at h
      · rename_i hd2
        cases Outcome.ok.inj h
        refine .inl ⟨rfl, rfl, .inr (.inr ⟨m, q, hm, hq, .inr fun hx => ?_⟩)⟩
        rw [procHasName_iff.mpr hx] at hd2
        cases hd2
      · rename_i hd2
        obtain ⟨n1, h2, h⟩ := bind_eq_ok.mp h
        obtain ⟨p1, h3, h⟩ := bind_eq_ok.mp h
        cases Outcome.ok.inj h
        obtain ⟨_, rfl⟩ := nameDelProc_ok h2
        cases procDelName_ok h3
        exact .inr ⟨m, q, hm, hq, by simpa using hd, procHasName_iff.mp (by simpa using hd2), rfl, rfl⟩

theorem createProg_ok {s s' : Reg} {n p : Str} {o : Out} (h : createProg s n p = .ok (s', o)) :
    o = .int 0 ∧ ((∃ e, getProg s n = some e ∧ s' = s) ∨
    (getProg s n = none ∧
     s' = { s with progs := addAfter (fun m => strGt m.name n) { name := n, path := p, names := [] } s.progs, nProgs := s.nProgs + 1 })) := by
  unfold createProg at h
  split at h
  · rename_i e heq
    cases Outcome.ok.inj h
    exact ⟨rfl, .inl ⟨e, heq, rfl⟩⟩
  · rename_i heq
    cases Outcome.ok.inj h
    exact ⟨rfl, .inr ⟨heq, rfl⟩⟩

theorem destroyProg_ok {s s' : Reg} {n : Str} {o : Out} (h : destroyProg s n = .ok (s', o)) :
    (getProg s n = none ∧ s' = s ∧ o = .int (-1)) ∨
    (∃ e, getProg s n = some e ∧ o = .int 0 ∧
     s' = { s with names := s.names.map (dropProg e.path),
                   progs := s.progs.filter (fun m => m.name != e.name), nProgs := s.nProgs - 1 }) := by
  unfold destroyProg at h
  split at h
  · rename_i heq
    cases Outcome.ok.inj h
    exact .inl ⟨heq, rfl, rfl⟩
  · rename_i e heq
    obtain ⟨s1, h1, h⟩ := bind_eq_ok.mp h
    cases Outcome.ok.inj h
    cases delProgFromNames_ok h1
    exact .inr ⟨e, heq, rfl, rfl⟩

theorem bindProg_ok {s s' : Reg} {n : Str} {ex : List Str} {a : Bool} {o : Out} (h : bindProg s n ex a = .ok (s', o)) :
    ∃ e0 rest, ex = e0 :: rest ∧
     ((s' = s ∧ o = .int (-1) ∧ (getName s n = none ∨ getProg s (strip e0) = none ∨
        ∃ m g, getName s n = some m ∧ getProg s (strip e0) = some g ∧ (nameHasProg m e0 = true ∨ n ∈ g.names))) ∨
      (∃ m g, getName s n = some m ∧ getProg s (strip e0) = some g ∧ nameHasProg m e0 = false ∧ n ∉ g.names ∧ o = .int 0 ∧
        s' = setProg (setName s (if a then { m with progs := ex :: m.progs } else m)) { g with names := n :: g.names })) := by
  unfold bindProg at h
  split at h
  · cases h
  · rename_i e0 rest
    refine ⟨e0, rest, rfl, ?_⟩
    split at h
    · rename_i heq
      cases Outcome.ok.inj h
      exact .inl ⟨rfl, rfl, .inl heq⟩
    · rename_i heq _
      cases Outcome.ok.inj h
      exact .inl ⟨rfl, rfl, .inr (.inl heq)⟩
    · rename_i m g hm hg
      split at h
      · rename_i hd
        cases Outcome.ok.inj h
        exact .inl ⟨rfl, rfl, .inr (.inr ⟨m, g, hm, hg, .inl hd⟩)⟩
      · rename_i hd
        split at h
        · rename_i hd2
          cases Outcome.ok.inj h
          exact .inl ⟨rfl, rfl, .inr (.inr ⟨m, g, hm, hg, .inr (progHasName_iff.mp hd2)⟩)⟩
        · rename_i hd2
          obtain ⟨n1, h2, h⟩ := bind_eq_ok.mp h
          obtain ⟨p1, h3, h⟩ := bind_eq_ok.mp h
          cases Outcome.ok.inj h
          obtain ⟨h6, rfl⟩ := progAddName_ok h3
          refine .inr ⟨m, g, hm, hg, by simpa using hd, h6, rfl, ?_⟩
          have : n1 = (if a then { m with progs := (e0 :: rest) :: m.progs } else m) := by
            cases a with
            | false => simp only [Bool.false_eq_true, if_false] at h2 ⊢; exact (Outcome.ok.inj h2).symm
            | true =>
              simp only [if_true] at h2 ⊢
              unfold nameAddProg at h2
              obtain ⟨_, h2⟩ := assert_bind.mp h2
              exact (Outcome.ok.inj h2).symm
          rw [this]

theorem unbindProg_ok {s s' : Reg} {n g : Str} {o : Out} (h : unbindProg s n g = .ok (s', o)) :
    (s' = s ∧ o = .int (-1) ∧ (getName s n = none ∨ getProg s g = none ∨
        ∃ m q, getName s n = some m ∧ getProg s g = some q ∧ n ∉ q.names)) ∨
      (∃ m q, getName s n = some m ∧ getProg s g = some q ∧ n ∈ q.names ∧ o = .int 0 ∧
        s' = setProg (setName s (dropProg g m)) { q with names := q.names.erase n }) := by
  unfold unbindProg at h
  split at h
  · rename_i heq
    cases Outcome.ok.inj h
    exact .inl ⟨rfl, rfl, .inl heq⟩
  · rename_i heq _
    cases Outcome.ok.inj h
    exact .inl ⟨rfl, rfl, .inr (.inl heq)⟩
  · rename_i m q hm hq
    split at h
    · rename_i hd2
      cases Outcome.ok.inj h
      refine .inl ⟨rfl, rfl, .inr (.inr ⟨m, q, hm, hq, fun hx => ?_⟩)⟩
      rw [progHasName_iff.mpr hx] at hd2
      cases hd2
    · rename_i hd2
      obtain ⟨n1, h2, h⟩ := bind_eq_ok.mp h
      obtain ⟨p1, h3, h⟩ := bind_eq_ok.mp h
      cases Outcome.ok.inj h
      cases nameDelProg_ok h2
      cases progDelName_ok h3
      exact .inr ⟨m, q, hm, hq, progHasName_iff.mp (by simpa using hd2), rfl, rfl⟩

theorem setLayer_ok {s s' : Reg} {i : IpcpInfo} {l : Layer} {o : Out} (h : setLayer s i l = .ok (s', o)) :
    (s.ipcps.find? (fun j => j.info.pid == i.pid) = none ∧ s' = s ∧ o = .int (-1)) ∨
    (∃ e, s.ipcps.find? (fun j => j.info.pid == i.pid) = some e ∧ o = .int 0 ∧
      s' = setIpcp s { info := { e.info with state := i.state }, layer := l }) := by
  unfold setLayer at h
  obtain ⟨h1, h⟩ := assert_bind.mp h
  obtain ⟨e, he, h⟩ := bind_eq_ok.mp h
  obtain ⟨hp, rfl⟩ := getIpcp_ok he
  split at h
  · rename_i heq
    cases Outcome.ok.inj h
    exact .inl ⟨heq, rfl, rfl⟩
  · rename_i e heq
    obtain ⟨_, h⟩ := assert_bind.mp h
    cases Outcome.ok.inj h
    exact .inr ⟨e, heq, rfl, rfl⟩

theorem respondIpcp_ok {s s' : Reg} {i : IpcpInfo} {o : Out} (h : respondIpcp s i = .ok (s', o)) :
    (s.ipcps.find? (fun j => j.info.pid == i.pid) = none ∧ s' = s ∧ o = .int (-EIPCP)) ∨
    (∃ e, s.ipcps.find? (fun j => j.info.pid == i.pid) = some e ∧ o = .int 0 ∧ s' = setIpcp s { e with info := i }) := by
  unfold respondIpcp at h
  obtain ⟨e, he, h⟩ := bind_eq_ok.mp h
  obtain ⟨hp, rfl⟩ := getIpcp_ok he
  split at h
  · rename_i heq
    cases Outcome.ok.inj h
    exact .inl ⟨heq, rfl, rfl⟩
  · rename_i e heq
    obtain ⟨_, h⟩ := assert_bind.mp h
    obtain ⟨_, h⟩ := assert_bind.mp h
    obtain ⟨_, h⟩ := assert_bind.mp h
    cases Outcome.ok.inj h
    exact .inr ⟨e, heq, rfl, rfl⟩

/-! ## Calls that only look -/

theorem hasFlow_ok {s s' : Reg} {i : Int} {o : Out} (h : hasFlow s i = .ok (s', o)) :
    1 ≤ i ∧ s' = s ∧ o = .bool (s.flows.find? (fun f => f.info.id == i)).isSome := by
  unfold hasFlow at h
  obtain ⟨e, he, h⟩ := bind_eq_ok.mp h
  obtain ⟨hp, rfl⟩ := getFlow_ok he
  cases Outcome.ok.inj h
  exact ⟨hp, rfl, rfl⟩

theorem hasIpcp_ok {s s' : Reg} {i : Nat} {o : Out} (h : hasIpcp s i = .ok (s', o)) :
    0 < i ∧ s' = s ∧ o = .bool (s.ipcps.find? (fun f => f.info.pid == i)).isSome := by
  unfold hasIpcp at h
  obtain ⟨e, he, h⟩ := bind_eq_ok.mp h
  obtain ⟨hp, rfl⟩ := getIpcp_ok he
  cases Outcome.ok.inj h
  exact ⟨hp, rfl, rfl⟩

theorem listIpcps_ok {s s' : Reg} {o : Out} (h : listIpcps s = .ok (s', o)) : s' = s := by
  unfold listIpcps at h
  split at h
  · cases Outcome.ok.inj h; rfl
  · obtain ⟨_, h⟩ := assert_bind.mp h
    cases Outcome.ok.inj h; rfl

theorem listNames_ok {s s' : Reg} {o : Out} (h : listNames s = .ok (s', o)) : s' = s := by
  unfold listNames at h
  split at h
  · cases Outcome.ok.inj h; rfl
  · obtain ⟨_, h⟩ := assert_bind.mp h
    cases Outcome.ok.inj h; rfl

theorem getExec_ok {s s' : Reg} {f : Str → Nat} {v : Nat} {o : Out} (h : getExec s f v = .ok (s', o)) : s' = s := by
  unfold getExec at h
  split at h <;> (cases Outcome.ok.inj h; rfl)

theorem findIpcp_ok {s s' : Reg} {i : Nat} {o : Out} (h : findIpcp s i = .ok (s', o)) : s' = s := by
  unfold findIpcp at h
  obtain ⟨e, he, h⟩ := bind_eq_ok.mp h
  split at h <;> (cases Outcome.ok.inj h; rfl)

theorem findIpcpByLayer_ok {s s' : Reg} {i : Str} {o : Out} (h : findIpcpByLayer s i = .ok (s', o)) : s' = s := by
  unfold findIpcpByLayer at h
  split at h <;> (cases Outcome.ok.inj h; rfl)

theorem pollAccepting_ok {s s' : Reg} {f : Str → Nat} {v : Nat} {o : Out} (h : pollAccepting s f v = .ok (s', o)) :
    s' = s ∧ ∃ r, pendingFor s f v = .ok r ∧ o = .int r := by
  unfold pollAccepting at h
  obtain ⟨e, he, h⟩ := bind_eq_ok.mp h
  cases Outcome.ok.inj h
  exact ⟨rfl, e, he, rfl⟩

end Ouro.Registry
