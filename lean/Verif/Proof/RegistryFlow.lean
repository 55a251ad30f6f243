import Verif.Proof.RegistryInv

/-!
# What the calls on flows do when they do not crash
-/

namespace Ouro.Registry

open Spec.Registry (Stage)

/-- The stage of a flow. -/
def stage : FState → Stage
  | .init => .created
  | .allocPending => .allocPending
  | .acceptPending => .acceptPending
  | .allocated => .allocated
  | .deallocPending => .deallocPending
  | .deallocated => .deallocated

theorem stage_inj {a b : FState} (h : stage a = stage b) : a = b := by
  cases a <;> cases b <;> first | rfl | cases h

/-- What holds of every flow in the registry. -/
structure FOk (f : Flow) : Prop where
  same : f.nRb = f.n1Rb
  early : f.info.state = .init ∨ f.info.state = .acceptPending → f.nRb = false ∧ f.info.n1pid = 0
  needed : (stage f.info.state).needsRings = true → f.nRb = true
  pid : f.info.npid ≠ 0

/-- The changes a call can make to a flow. -/
structure Chg (f g : Flow) : Prop where
  ptr : g.ptr = f.ptr
  id : g.info.id = f.info.id
  next : g.info.state = f.info.state ∨ Stage.Next (stage f.info.state) (stage g.info.state)
  ok : FOk f → FOk g
  clean : g.info.state = .deallocated → (f.info.state = .deallocated → f.nRb = false ∧ f.n1Rb = false) →
    g.nRb = false ∧ g.n1Rb = false

/-- A change after which a flow waits for a request only if it did so before, for the same process. -/
structure Chg' (f g : Flow) : Prop extends Chg f g where
  acc : g.info.state = .acceptPending → f.info.state = .acceptPending
  npid : g.info.npid = f.info.npid

theorem createRbuffs_ok {f g : Flow} {i : FlowInfo} (h : createRbuffs f i = .ok g) :
    f.info.n1pid = 0 ∧ f.n1Rb = false ∧ g = { f with info := { f.info with n1pid := i.n1pid }, nRb := true, n1Rb := true } := by
  unfold createRbuffs at h
  simp only at h
  obtain ⟨h1, h⟩ := assert_bind.mp h
  obtain ⟨h2, h⟩ := assert_bind.mp h
  cases Outcome.ok.inj h
  exact ⟨by simpa using h1, by simpa using h2, rfl⟩

theorem flowUpdate_accept {f g : Flow} {i : FlowInfo} (hi : i.state = .acceptPending) (h : flowUpdate f i = .ok g) :
    f.info.id = i.id ∧ f.info.state = .init ∧ g = { f with info := { f.info with npid := i.npid, state := .acceptPending } } := by
  unfold flowUpdate at h
  obtain ⟨h1, h⟩ := assert_bind.mp h
  obtain ⟨g1, hg, h⟩ := bind_eq_ok.mp h
  rw [hi] at hg
  obtain ⟨h2, hg⟩ := assert_bind.mp hg
  cases Outcome.ok.inj hg
  cases Outcome.ok.inj h
  exact ⟨by simpa using h1, by simpa using h2, by rw [hi]⟩

theorem flowUpdate_alloc {f g : Flow} {i : FlowInfo} (hi : i.state = .allocPending) (h : flowUpdate f i = .ok g) :
    f.info.id = i.id ∧ f.info.state = .init ∧ i.n1pid ≠ 0 ∧ f.info.n1pid = 0 ∧ f.n1Rb = false ∧
    g = { f with info := { f.info with n1pid := i.n1pid, state := .allocPending }, nRb := true, n1Rb := true } := by
  unfold flowUpdate at h
  obtain ⟨h1, h⟩ := assert_bind.mp h
  obtain ⟨g1, hg, h⟩ := bind_eq_ok.mp h
  rw [hi] at hg
  obtain ⟨h2, hg⟩ := assert_bind.mp hg
  obtain ⟨h3, hg⟩ := assert_bind.mp hg
  obtain ⟨h4, h5, rfl⟩ := createRbuffs_ok hg
  cases Outcome.ok.inj h
  exact ⟨by simpa using h1, by simpa using h2, by simpa using h3, h4, h5, by rw [hi]⟩

theorem flowUpdate_allocated {f g : Flow} {i : FlowInfo} (hi : i.state = .allocated) (h : flowUpdate f i = .ok g) :
    f.info.id = i.id ∧ i.n1pid ≠ 0 ∧ i.mpl ≠ 0 ∧
    ((f.info.state = .allocPending ∧ g = { f with info := { f.info with mpl := i.mpl, state := .allocated } }) ∨
     (f.info.state = .acceptPending ∧ f.info.n1pid = 0 ∧ f.n1Rb = false ∧
      g = { f with info := { f.info with mpl := i.mpl, qs := i.qs, cypher := i.cypher, n1pid := i.n1pid, state := .allocated }, nRb := true, n1Rb := true })) := by
  unfold flowUpdate at h
  obtain ⟨h1, h⟩ := assert_bind.mp h
  obtain ⟨g1, hg, h⟩ := bind_eq_ok.mp h
  rw [hi] at hg
  obtain ⟨h2, hg⟩ := assert_bind.mp hg
  obtain ⟨h3, hg⟩ := assert_bind.mp hg
  obtain ⟨h4, hg⟩ := assert_bind.mp hg
  obtain ⟨h5, hg⟩ := assert_bind.mp hg
  cases Outcome.ok.inj h
  refine ⟨by simpa using h1, by simpa using h2, by simpa using h5, ?_⟩
  simp only at hg
  split at hg
  · rename_i hs
    cases Outcome.ok.inj hg
    exact .inl ⟨by simpa using hs, by rw [hi]⟩
  · rename_i hs
    obtain ⟨h6, h7, rfl⟩ := createRbuffs_ok hg
    refine .inr ⟨?_, h6, h7, by rw [hi]⟩
    simp only [Bool.or_eq_true, beq_iff_eq] at h3 hs
    exact h3.resolve_left hs

theorem flowUpdate_dealloc {f g : Flow} {i : FlowInfo} (hi : i.state = .deallocated) (h : flowUpdate f i = .ok g) :
    f.info.id = i.id ∧ g = { f with info := { f.info with state := .deallocated }, nRb := false, n1Rb := false } := by
  unfold flowUpdate at h
  obtain ⟨h1, h⟩ := assert_bind.mp h
  obtain ⟨g1, hg, h⟩ := bind_eq_ok.mp h
  rw [hi] at hg
  cases Outcome.ok.inj hg
  cases Outcome.ok.inj h
  exact ⟨by simpa using h1, by rw [hi]; rfl⟩

theorem flowUpdate_deallocPending {f g : Flow} {i : FlowInfo} (hi : i.state = .deallocPending) (h : flowUpdate f i = .ok g) :
    f.info.id = i.id ∧ g = { f with info := { f.info with state := .deallocPending } } := by
  unfold flowUpdate at h
  obtain ⟨h1, h⟩ := assert_bind.mp h
  obtain ⟨g1, hg, h⟩ := bind_eq_ok.mp h
  rw [hi] at hg
  cases Outcome.ok.inj hg
  cases Outcome.ok.inj h
  exact ⟨by simpa using h1, by rw [hi]⟩

theorem flowSetData_ok {f g : Flow} {b : Option Nat} (h : flowSetData f b = .ok g) : f.data = none ∧ g = { f with data := b } := by
  unfold flowSetData at h
  obtain ⟨h1, h⟩ := assert_bind.mp h
  cases Outcome.ok.inj h
  exact ⟨by simpa using h1, rfl⟩

/-! ## Changes -/

theorem next_dealloc {x : FState} (h : x ≠ .deallocated) : Stage.Next (stage x) .deallocated := by
  cases x with
  | init => exact .abandoned
  | allocPending => exact .refused
  | acceptPending => exact .cancelled
  | allocated => exact .late
  | deallocPending => exact .released
  | deallocated => exact absurd rfl h

theorem chg_data {f : Flow} {d : Option Nat} : Chg' f { f with data := d } :=
  ⟨⟨rfl, rfl, .inl rfl, fun h => ⟨h.same, h.early, h.needed, h.pid⟩, fun h1 h2 => h2 h1⟩, id, rfl⟩

theorem chg_dealloc {f : Flow} {d : Option Nat} :
    Chg' f { f with info := { f.info with state := .deallocated }, nRb := false, n1Rb := false, data := d } := by
  refine ⟨⟨rfl, rfl, ?_, fun h => ⟨rfl, ?_, ?_, h.pid⟩, fun _ _ => ⟨rfl, rfl⟩⟩, ?_, rfl⟩
  · by_cases hd : f.info.state = .deallocated
    · exact .inl hd.symm
    · exact .inr (next_dealloc hd)
  · simp
  · simp [stage, Stage.needsRings]
  · simp

theorem chg_accept {f : Flow} {p : Nat} {d : Option Nat} (hs : f.info.state = .init) (hp : p ≠ 0) :
    Chg f { f with info := { f.info with npid := p, state := .acceptPending }, data := d } := by
  refine ⟨rfl, rfl, ?_, fun h => ⟨h.same, fun _ => h.early (.inl hs), ?_, hp⟩, ?_⟩
  · rw [hs]; exact .inr .accept
  · simp [stage, Stage.needsRings]
  · simp

theorem chg_alloc {f : Flow} {q : Nat} (hs : f.info.state = .init) :
    Chg' f { f with info := { f.info with n1pid := q, state := .allocPending }, nRb := true, n1Rb := true } := by
  refine ⟨⟨rfl, rfl, ?_, fun h => ⟨rfl, ?_, fun _ => rfl, h.pid⟩, ?_⟩, ?_, rfl⟩
  · rw [hs]; exact .inr .alloc
  · simp
  · simp
  · simp

theorem chg_allocated {f : Flow} {m : Nat} {d : Option Nat} (hs : f.info.state = .allocPending) :
    Chg' f { f with info := { f.info with mpl := m, state := .allocated }, data := d } := by
  refine ⟨⟨rfl, rfl, ?_, fun h => ⟨h.same, ?_, fun _ => h.needed (by rw [hs]; rfl), h.pid⟩, ?_⟩, ?_, rfl⟩
  · rw [hs]; exact .inr .allocated
  · simp
  · simp
  · simp

theorem chg_accepted {f : Flow} {m a b q : Nat} {d : Option Nat} (hs : f.info.state = .acceptPending) :
    Chg' f { f with info := { f.info with mpl := m, qs := a, cypher := b, n1pid := q, state := .allocated }, nRb := true, n1Rb := true, data := d } := by
  refine ⟨⟨rfl, rfl, ?_, fun h => ⟨rfl, ?_, fun _ => rfl, h.pid⟩, ?_⟩, ?_, rfl⟩
  · rw [hs]; exact .inr .accepted
  · simp
  · simp
  · simp

theorem chg_deallocPending {f : Flow} (hs : f.info.state = .allocated) :
    Chg' f { f with info := { f.info with state := .deallocPending } } := by
  refine ⟨⟨rfl, rfl, ?_, fun h => ⟨h.same, ?_, fun _ => h.needed (by rw [hs]; rfl), h.pid⟩, ?_⟩, ?_, rfl⟩
  · rw [hs]; exact .inr .release
  · simp
  · simp
  · simp

/-! ## Calls -/

theorem createFlow_ok {s s' : Reg} {i : FlowInfo} {o : Out} (h : createFlow s i = .ok (s', o)) :
    i.state = .init ∧ i.npid ≠ 0 ∧ ∃ b id, Bitmap.allocate s.ids = .ok (b, id) ∧
    ((Bitmap.isIdValid b id = false ∧ s' = { s with ids := b } ∧ o = .flow (-1) { i with id := id } none) ∨
     (Bitmap.isIdValid b id = true ∧ 0 < id ∧ i.n1pid = 0 ∧ o = .flow 0 { i with id := id } none ∧
      s' = { s with ids := b, flows := addAfter (fun g => decide (g.info.id > id)) ⟨s.fresh, { i with id := id }, false, false, none⟩ s.flows, nFlows := s.nFlows + 1, fresh := s.fresh + 1 })) := by
  unfold createFlow at h
  obtain ⟨_, h⟩ := assert_bind.mp h
  obtain ⟨h2, h⟩ := assert_bind.mp h
  obtain ⟨h3, h⟩ := assert_bind.mp h
  obtain ⟨⟨b, id⟩, hb, h⟩ := bind_eq_ok.mp h
  refine ⟨by simpa using h3, by simpa using h2, b, id, hb, ?_⟩
  simp only at h
  split at h
  · rename_i hv
    cases Outcome.ok.inj h
    exact .inl ⟨by simpa using hv, rfl, rfl⟩
  · rename_i hv
    obtain ⟨f, hf, h⟩ := bind_eq_ok.mp h
    cases Outcome.ok.inj h
    unfold flowCreate at hf
    obtain ⟨h4, hf⟩ := assert_bind.mp hf
    obtain ⟨_, hf⟩ := assert_bind.mp hf
    obtain ⟨h5, hf⟩ := assert_bind.mp hf
    obtain ⟨_, hf⟩ := assert_bind.mp hf
    obtain ⟨_, hf⟩ := assert_bind.mp hf
    cases Outcome.ok.inj hf
    exact .inr ⟨by simpa using hv, by simpa using h4, by simpa using h5, rfl, rfl⟩

theorem destroyFlow_ok {s s' : Reg} {id : Int} {o : Out} (h : destroyFlow s id = .ok (s', o)) :
    1 ≤ id ∧ ((s.flows.find? (fun f => f.info.id == id) = none ∧ s' = s ∧ o = .int (-1)) ∨
     (∃ f b r, s.flows.find? (fun f => f.info.id == id) = some f ∧ Bitmap.release s.ids id = .ok (b, r) ∧ o = .int 0 ∧
      s' = { s with flows := s.flows.filter (fun g => g.ptr != f.ptr), nFlows := s.nFlows - 1, ids := b })) := by
  unfold destroyFlow at h
  obtain ⟨e, he, h⟩ := bind_eq_ok.mp h
  obtain ⟨hp, rfl⟩ := getFlow_ok he
  refine ⟨hp, ?_⟩
  split at h
  · rename_i heq
    cases Outcome.ok.inj h
    exact .inl ⟨heq, rfl, rfl⟩
  · rename_i f heq
    obtain ⟨⟨b, r⟩, hb, h⟩ := bind_eq_ok.mp h
    obtain ⟨u, hu, h⟩ := bind_eq_ok.mp h
    cases Outcome.ok.inj h
    exact .inr ⟨f, b, r, heq, hb, rfl, rfl⟩

theorem prepareAlloc_ok {s s' : Reg} {i : FlowInfo} {o : Out} (h : prepareAlloc s i = .ok (s', o)) :
    ∃ f g, s.flows.find? (fun f => f.info.id == i.id) = some f ∧ f.info.state = .init ∧ Chg' f g ∧
      g.info.state = .allocPending ∧ s' = setFlow s g ∧ o = .flow 0 g.info none := by
  unfold prepareAlloc at h
  obtain ⟨e, he, h⟩ := bind_eq_ok.mp h
  obtain ⟨hp, rfl⟩ := getFlow_ok he
  split at h
  · cases h
  · rename_i f heq
    obtain ⟨h1, h⟩ := assert_bind.mp h
    obtain ⟨g, hg, h⟩ := bind_eq_ok.mp h
    cases Outcome.ok.inj h
    obtain ⟨_, h2, _, _, _, rfl⟩ := flowUpdate_alloc rfl hg
    exact ⟨f, _, heq, h2, chg_alloc h2, rfl, rfl, rfl⟩

theorem waitAllocatedStart_ok {s s' : Reg} {i : FlowInfo} {o : Out} (h : waitAllocatedStart s i = .ok (s', o)) :
    s' = s ∧ ∃ f, s.flows.find? (fun f => f.info.id == i.id) = some f ∧ o = .ptr f.ptr := by
  unfold waitAllocatedStart at h
  obtain ⟨_, h⟩ := assert_bind.mp h
  obtain ⟨e, he, h⟩ := bind_eq_ok.mp h
  obtain ⟨hp, rfl⟩ := getFlow_ok he
  split at h
  · cases h
  · rename_i f heq
    obtain ⟨_, h⟩ := assert_bind.mp h
    obtain ⟨_, h⟩ := assert_bind.mp h
    cases Outcome.ok.inj h
    exact ⟨rfl, f, heq, rfl⟩

theorem find_ptr {s : Reg} {ptr : Nat} {f0 f : Flow} (hn : (s.flows.map (·.info.id)).Nodup)
    (h0 : s.flows.find? (fun f => f.ptr == ptr) = some f0) (h : s.flows.find? (fun f => f.info.id == f0.info.id) = some f) :
    f = f0 ∧ f0 ∈ s.flows ∧ f0.ptr = ptr := by
  have hm := List.mem_of_find?_eq_some h0
  rw [find_iff (key := fun f : Flow => f.info.id) hn] at h
  exact ⟨List.inj_on_of_nodup_map hn h.1 hm h.2, hm, by simpa using List.find?_some h0⟩

theorem waitAllocatedWake_ok {s s' : Reg} {p : Nat} {i : FlowInfo} {t : Bool} {o : Out} (hn : (s.flows.map (·.info.id)).Nodup)
    (h : waitAllocatedWake s p i t = .ok (s', o)) :
    (s' = s ∧ o = .waiting ∧ t = false ∧ ∃ f ∈ s.flows, f.ptr = p ∧ f.info.state = .allocPending) ∨
    (∃ f g r d, f ∈ s.flows ∧ f.ptr = p ∧ Chg' f g ∧ s' = setFlow s g ∧ o = .flow r g.info d ∧ g.data = none ∧
      ((t = true ∧ r = -ETIMEDOUT ∧ g.info.state = .deallocated) ∨
       (t = false ∧ f.info.state = .allocated ∧ r = 0 ∧ g.info = f.info) ∨
       (t = false ∧ f.info.state = .deallocated ∧ r = -1 ∧ g.info = f.info))) := by
  unfold waitAllocatedWake at h
  split at h
  · cases h
  · rename_i f0 h0
    obtain ⟨e, he, h'⟩ := bind_eq_ok.mp h
    clear h
    rename' h' => h
    obtain ⟨hp, rfl⟩ := getFlow_ok he
    split at h
    · rename_i hnone
      have := List.find?_eq_none.mp hnone f0 (List.mem_of_find?_eq_some h0)
      simp at this
    · rename_i f hf
      obtain ⟨rfl, hm, hptr⟩ := find_ptr hn h0 hf
      split at h
      · rename_i ht
        obtain ⟨g, hg, h⟩ := bind_eq_ok.mp h
        cases Outcome.ok.inj h
        obtain ⟨_, rfl⟩ := flowUpdate_dealloc rfl hg
        exact .inr ⟨f, _, _, _, hm, hptr, chg_dealloc, rfl, rfl, rfl, .inl ⟨ht, rfl, rfl⟩⟩
      · rename_i ht
        simp only [Bool.not_eq_true] at ht
        split at h
        · rename_i hst
          cases Outcome.ok.inj h
          exact .inl ⟨rfl, rfl, ht, f, hm, hptr, hst⟩
        · rename_i hst
          cases Outcome.ok.inj h
          exact .inr ⟨f, _, _, _, hm, hptr, chg_data, rfl, rfl, rfl, .inr (.inl ⟨ht, hst, rfl, rfl⟩)⟩
        · rename_i hst
          cases Outcome.ok.inj h
          exact .inr ⟨f, _, _, _, hm, hptr, chg_data, rfl, rfl, rfl, .inr (.inr ⟨ht, hst, rfl, rfl⟩)⟩
        · cases h

theorem respondAlloc_ok {s s' : Reg} {i : FlowInfo} {b : Option Nat} {o : Out} (h : respondAlloc s i b = .ok (s', o)) :
    1 ≤ i.id ∧ ((s' = s ∧ o = .int (-1) ∧ ∀ f, s.flows.find? (fun f => f.info.id == i.id) = some f → f.info.state = .deallocated) ∨
    (∃ f g, s.flows.find? (fun f => f.info.id == i.id) = some f ∧ f.info.state = .allocPending ∧ Chg' f g ∧
      g.info.state = i.state ∧ (i.state = .allocated → g.data = b ∧ g.info.mpl = i.mpl) ∧ s' = setFlow s g ∧ o = .int 0)) := by
  unfold respondAlloc at h
  obtain ⟨h1, h⟩ := assert_bind.mp h
  obtain ⟨_, h⟩ := assert_bind.mp h
  obtain ⟨e, he, h⟩ := bind_eq_ok.mp h
  obtain ⟨hp, rfl⟩ := getFlow_ok he
  refine ⟨hp, ?_⟩
  split at h
  · rename_i heq
    cases Outcome.ok.inj h
    exact .inl ⟨rfl, rfl, fun f hf => by rw [heq] at hf; cases hf⟩
  · rename_i f heq
    split at h
    · rename_i hst
      cases Outcome.ok.inj h
      refine .inl ⟨rfl, rfl, fun f' hf => ?_⟩
      rw [heq] at hf
      cases hf
      simpa using hst
    · obtain ⟨h2, h⟩ := assert_bind.mp h
      have hst : f.info.state = .allocPending := by simpa using h2
      obtain ⟨h3, h⟩ := assert_bind.mp h
      obtain ⟨g, hg, h⟩ := bind_eq_ok.mp h
      obtain ⟨g', hg', h⟩ := bind_eq_ok.mp h
      cases Outcome.ok.inj h
      simp only [Bool.or_eq_true, beq_iff_eq] at h1
      rcases h1 with hi | hi
      · obtain ⟨_, _, _, h4 | h4⟩ := flowUpdate_allocated (i := { i with npid := f.info.npid, n1pid := f.info.npid }) hi hg
        · obtain ⟨_, rfl⟩ := h4
          simp only [beq_self_eq_true, if_true] at hg'
          obtain ⟨_, rfl⟩ := flowSetData_ok hg'
          exact .inr ⟨f, _, heq, hst, chg_allocated hst, hi.symm, fun _ => ⟨rfl, rfl⟩, rfl, rfl⟩
        · rw [hst] at h4
          exact absurd h4.1 (by decide)
      · obtain ⟨_, rfl⟩ := flowUpdate_dealloc (i := { i with npid := f.info.npid, n1pid := f.info.npid }) hi hg
        rw [if_neg (by simp)] at hg'
        cases Outcome.ok.inj hg'
        refine .inr ⟨f, _, heq, hst, chg_dealloc (d := f.data), hi.symm, ?_, rfl, rfl⟩
        intro hx
        rw [hi] at hx
        cases hx

theorem prepareAccept_ok {s s' : Reg} {i : FlowInfo} {b : Option Nat} {o : Out} (h : prepareAccept s i b = .ok (s', o)) :
    ∃ f g, s.flows.find? (fun f => f.info.id == i.id) = some f ∧ f.info.state = .init ∧ Chg f g ∧
      g.info.state = .acceptPending ∧ g.info.npid = i.npid ∧ s' = setFlow s g ∧ o = .flow 0 g.info none := by
  unfold prepareAccept at h
  obtain ⟨e, he, h⟩ := bind_eq_ok.mp h
  obtain ⟨hp, rfl⟩ := getFlow_ok he
  split at h
  · cases h
  · rename_i f heq
    obtain ⟨h1, h⟩ := assert_bind.mp h
    obtain ⟨g, hg, h⟩ := bind_eq_ok.mp h
    obtain ⟨g', hg', h⟩ := bind_eq_ok.mp h
    cases Outcome.ok.inj h
    obtain ⟨_, h2, rfl⟩ := flowUpdate_accept rfl hg
    obtain ⟨_, rfl⟩ := flowSetData_ok hg'
    exact ⟨f, _, heq, h2, chg_accept h2 (by simpa using h1), rfl, rfl, rfl, rfl⟩

theorem waitAcceptedStart_ok {s s' : Reg} {i : FlowInfo} {o : Out} (h : waitAcceptedStart s i = .ok (s', o)) :
    ∃ f, s.flows.find? (fun f => f.info.id == i.id) = some f ∧ f.info.state = .acceptPending ∧ f.info.npid = i.npid ∧
      s' = { s with names := s.names.map (markActive i.npid) } ∧ o = .ptr f.ptr := by
  unfold waitAcceptedStart at h
  obtain ⟨_, h⟩ := assert_bind.mp h
  obtain ⟨e, he, h⟩ := bind_eq_ok.mp h
  obtain ⟨hp, rfl⟩ := getFlow_ok he
  split at h
  · cases h
  · rename_i f heq
    obtain ⟨h1, h⟩ := assert_bind.mp h
    obtain ⟨_, h⟩ := assert_bind.mp h
    obtain ⟨h2, h⟩ := assert_bind.mp h
    obtain ⟨s1, hs, h⟩ := bind_eq_ok.mp h
    cases Outcome.ok.inj h
    obtain ⟨_, rfl⟩ := addActiveProc_ok hs
    exact ⟨f, heq, by simpa using h2, (by simpa using h1 : i.npid = f.info.npid).symm, rfl, rfl⟩

theorem setFlow_twice {l : List Flow} {g g' : Flow} (hp : g'.ptr = g.ptr) :
    (l.map (fun x => if x.ptr = g.ptr then g else x)).map (fun x => if x.ptr = g'.ptr then g' else x) =
      l.map (fun x => if x.ptr = g'.ptr then g' else x) := by
  rw [List.map_map]
  apply List.map_congr_left
  intro x _
  simp only [Function.comp]
  by_cases hx : x.ptr = g.ptr
  · rw [if_pos hx, hp, if_pos rfl, if_pos hx]
  · rw [if_neg hx]

theorem setFlow_setFlow {s : Reg} {l : List Name} {g g' : Flow} (hp : g'.ptr = g.ptr) :
    setFlow { setFlow s g with names := l } g' = setFlow { s with names := l } g' := by
  unfold setFlow
  dsimp only
  rw [setFlow_twice hp]

theorem waitAcceptedWake_ok {s s' : Reg} {p : Nat} {i : FlowInfo} {t : Bool} {o : Out} (hn : (s.flows.map (·.info.id)).Nodup)
    (h : waitAcceptedWake s p i t = .ok (s', o)) :
    (s' = s ∧ o = .waiting ∧ t = false ∧ ∃ f ∈ s.flows, f.ptr = p ∧ f.info.state = .acceptPending) ∨
    (∃ f g r d, f ∈ s.flows ∧ f.ptr = p ∧ Chg' f g ∧ s' = setFlow { s with names := s.names.map (unmark f.info.npid) } g ∧
      o = .flow r g.info d ∧ g.data = none ∧
      ((t = true ∧ r = -ETIMEDOUT ∧ g.info.state = .deallocated) ∨
       (t = false ∧ f.info.state = .allocated ∧ r = 0 ∧ g.info = f.info) ∨
       (t = false ∧ f.info.state = .deallocated ∧ r = -1 ∧ g.info = f.info))) := by
  unfold waitAcceptedWake at h
  split at h
  · cases h
  · rename_i f0 h0
    obtain ⟨e, he, h'⟩ := bind_eq_ok.mp h
    clear h
    rename' h' => h
    obtain ⟨hp, rfl⟩ := getFlow_ok he
    split at h
    · cases h
    · rename_i f hf
      obtain ⟨rfl, hm, hptr⟩ := find_ptr hn h0 hf
      split at h
      · rename_i ht
        obtain ⟨g, hg, h⟩ := bind_eq_ok.mp h
        obtain ⟨s1, hs, h⟩ := bind_eq_ok.mp h
        obtain ⟨_, rfl⟩ := flowUpdate_dealloc rfl hg
        obtain ⟨_, rfl⟩ := delActiveProc_ok hs
        cases Outcome.ok.inj h
        refine .inr ⟨f, _, _, _, hm, hptr, chg_dealloc, ?_, rfl, rfl, .inl ⟨ht, rfl, rfl⟩⟩
        exact setFlow_setFlow rfl
      · rename_i ht
        simp only [Bool.not_eq_true] at ht
        split at h
        · rename_i hst
          cases Outcome.ok.inj h
          exact .inl ⟨rfl, rfl, ht, f, hm, hptr, hst⟩
        · rename_i hst
          obtain ⟨s1, hs, h⟩ := bind_eq_ok.mp h
          obtain ⟨_, rfl⟩ := delActiveProc_ok hs
          cases Outcome.ok.inj h
          exact .inr ⟨f, _, _, _, hm, hptr, chg_data, rfl, rfl, rfl, .inr (.inl ⟨ht, hst, rfl, rfl⟩)⟩
        · rename_i hst
          obtain ⟨s1, hs, h⟩ := bind_eq_ok.mp h
          obtain ⟨_, rfl⟩ := delActiveProc_ok hs
          cases Outcome.ok.inj h
          exact .inr ⟨f, _, _, _, hm, hptr, chg_data, rfl, rfl, rfl, .inr (.inr ⟨ht, hst, rfl, rfl⟩)⟩
        · cases h

theorem respondAccept_ok {s s' : Reg} {i : FlowInfo} {b : Option Nat} {o : Out} (h : respondAccept s i b = .ok (s', o)) :
    1 ≤ i.id ∧ ((s.flows.find? (fun f => f.info.id == i.id) = none ∧ s' = s ∧ o = .flow (-1) i b) ∨
    (∃ f g b', s.flows.find? (fun f => f.info.id == i.id) = some f ∧ f.info.state = .acceptPending ∧ Chg' f g ∧
      g.info.state = .allocated ∧ s' = setFlow s g ∧ o = .flow 0 g.info b')) := by
  unfold respondAccept at h
  obtain ⟨h1, h⟩ := assert_bind.mp h
  have hi : i.state = .allocated := by simpa using h1
  obtain ⟨e, he, h⟩ := bind_eq_ok.mp h
  obtain ⟨hp, rfl⟩ := getFlow_ok he
  refine ⟨hp, ?_⟩
  split at h
  · rename_i heq
    cases Outcome.ok.inj h
    exact .inl ⟨heq, rfl, rfl⟩
  · rename_i f heq
    obtain ⟨h2, h⟩ := assert_bind.mp h
    have hst : f.info.state = .acceptPending := by simpa using h2
    obtain ⟨⟨f1, b'⟩, hf1, h⟩ := bind_eq_ok.mp h
    obtain ⟨g, hg, h⟩ := bind_eq_ok.mp h
    cases Outcome.ok.inj h
    have hf : ∃ d, f1 = { f with data := d } := by
      split at hf1
      · obtain ⟨f2, hf2, hf1⟩ := bind_eq_ok.mp hf1
        cases Outcome.ok.inj hf1
        obtain ⟨_, rfl⟩ := flowSetData_ok hf2
        exact ⟨b, rfl⟩
      · cases Outcome.ok.inj hf1
        exact ⟨_, rfl⟩
    obtain ⟨d, rfl⟩ := hf
    obtain ⟨_, _, _, h4 | h4⟩ := flowUpdate_allocated (i := { i with npid := f.info.npid }) hi hg
    · have := h4.1
      simp only [hst] at this
      cases this
    · obtain ⟨_, _, _, rfl⟩ := h4
      exact .inr ⟨f, _, b', heq, hst, chg_accepted hst, rfl, rfl, rfl⟩

theorem deallocFlow_ok {s s' : Reg} {i : FlowInfo} {o : Out} (h : deallocFlow s i = .ok (s', o)) :
    ∃ f g, s.flows.find? (fun f => f.info.id == i.id) = some f ∧ f.info.state = .allocated ∧ Chg' f g ∧
      g.info.state = .deallocPending ∧ s' = setFlow s g ∧ o = .flow 0 g.info none := by
  unfold deallocFlow at h
  obtain ⟨_, h⟩ := assert_bind.mp h
  obtain ⟨_, h⟩ := assert_bind.mp h
  obtain ⟨e, he, h⟩ := bind_eq_ok.mp h
  obtain ⟨hp, rfl⟩ := getFlow_ok he
  split at h
  · cases h
  · rename_i f heq
    obtain ⟨_, h⟩ := assert_bind.mp h
    obtain ⟨h2, h⟩ := assert_bind.mp h
    have hst : f.info.state = .allocated := by simpa using h2
    obtain ⟨g, hg, h⟩ := bind_eq_ok.mp h
    cases Outcome.ok.inj h
    obtain ⟨_, rfl⟩ := flowUpdate_deallocPending rfl hg
    exact ⟨f, _, heq, hst, chg_deallocPending hst, rfl, rfl, rfl⟩

theorem deallocFlowResp_ok {s s' : Reg} {i : FlowInfo} {o : Out} (h : deallocFlowResp s i = .ok (s', o)) :
    ∃ f g, s.flows.find? (fun f => f.info.id == i.id) = some f ∧ f.info.state = .deallocPending ∧ Chg' f g ∧
      g.info.state = .deallocated ∧ s' = setFlow s g ∧ o = .flow 0 g.info none := by
  unfold deallocFlowResp at h
  obtain ⟨_, h⟩ := assert_bind.mp h
  obtain ⟨_, h⟩ := assert_bind.mp h
  obtain ⟨e, he, h⟩ := bind_eq_ok.mp h
  obtain ⟨hp, rfl⟩ := getFlow_ok he
  split at h
  · cases h
  · rename_i f heq
    obtain ⟨_, h⟩ := assert_bind.mp h
    obtain ⟨h2, h⟩ := assert_bind.mp h
    have hst : f.info.state = .deallocPending := by simpa using h2
    obtain ⟨g, hg, h⟩ := bind_eq_ok.mp h
    cases Outcome.ok.inj h
    obtain ⟨_, rfl⟩ := flowUpdate_dealloc rfl hg
    exact ⟨f, _, heq, hst, chg_dealloc (d := f.data), rfl, rfl, rfl⟩

end Ouro.Registry
