import Verif.Proof.RegistryApi
import Verif.Model.IrmdFlow
import Verif.Spec.IrmdFlow

/-!
# The flow table of the registry as a map, and what each call does to it
-/

namespace Ouro.Registry

open Spec.FiniteMap

/-- The flow with an id. -/
def flowAt (s : Reg) (id : Int) : Option Flow := s.flows.find? (fun f => f.info.id == id)

variable {s s' : Reg} {o : Out}

theorem flowAt_iff (hn : (s.flows.map (·.info.id)).Nodup) {id : Int} {f : Flow} : flowAt s id = some f ↔ f ∈ s.flows ∧ f.info.id = id :=
  find_iff (key := fun f : Flow => f.info.id) hn

theorem flowAt_ext (hn : (s.flows.map (·.info.id)).Nodup) {M : Map Int Flow} (h : ∀ f, f ∈ s.flows ↔ M f.info.id = some f)
    (hk : ∀ id f, M id = some f → f.info.id = id) : flowAt s = M := by
  funext id
  cases hm : M id with
  | none =>
    cases hf : flowAt s id with
    | none => rfl
    | some f =>
      obtain ⟨h1, h2⟩ := (flowAt_iff hn).mp hf
      rw [h, h2, hm] at h1
      cases h1
  | some f =>
    rw [flowAt_iff hn]
    have := hk id f hm
    subst this
    exact ⟨(h f).mpr hm, rfl⟩

theorem flowAt_id (hn : (s.flows.map (·.info.id)).Nodup) {id : Int} {f : Flow} (h : flowAt s id = some f) : f.info.id = id :=
  ((flowAt_iff hn).mp h).2

theorem set_at (hi : FlowInv s) {id : Int} {f g : Flow} (h : flowAt s id = some f) (hp : g.ptr = f.ptr) (hid : g.info.id = f.info.id)
    (hs : s'.flows = s.flows.map (fun x => if x.ptr = g.ptr then g else x)) (hi' : FlowInv s') : flowAt s' = put (flowAt s) id g := by
  obtain ⟨h1, h2⟩ := (flowAt_iff hi.ids).mp h
  refine flowAt_ext hi'.ids (fun x => ?_) (fun i x hx => ?_)
  · rw [hs, List.mem_map]
    unfold put
    constructor
    · rintro ⟨y, hy, rfl⟩
      by_cases hyg : y.ptr = g.ptr
      · rw [if_pos hyg]
        simp [hid, h2]
      · rw [if_neg hyg]
        have : y.info.id ≠ id := by
          intro hc
          exact hyg (by rw [hi.id_inj hy h1 (hc.trans h2.symm), hp])
        rw [if_neg this, flowAt_iff hi.ids]
        exact ⟨hy, rfl⟩
    · intro hx
      split at hx
      · cases hx
        exact ⟨f, h1, if_pos hp.symm⟩
      · rename_i hne
        obtain ⟨h3, _⟩ := (flowAt_iff hi.ids).mp hx
        refine ⟨x, h3, if_neg ?_⟩
        intro hc
        exact hne (by rw [hi.ptr_inj h3 h1 (hc.trans hp), h2])
  · unfold put at hx
    split at hx
    · rename_i he
      cases hx
      rw [hid, h2, he]
    · exact flowAt_id hi.ids hx

theorem createFlow_at (hi : FlowInv s) {i : FlowInfo} (h : createFlow s i = .ok (s', o)) :
    FlowInv s' ∧ ((∃ id, o = .flow 0 { i with id := id } none ∧ i.state = .init ∧ i.n1pid = 0 ∧ flowAt s id = none ∧
        flowAt s' = put (flowAt s) id ⟨s.fresh, { i with id := id }, false, false, none⟩) ∨
      (∃ j, o = .flow (-1) j none ∧ flowAt s' = flowAt s)) := by
  have hi' : FlowInv s' := hi.step (step_eff (op := .createFlow i) hi.ids h)
  refine ⟨hi', ?_⟩
  obtain ⟨h1, h2, b, id, h3, ⟨h4, rfl, rfl⟩ | ⟨h4, _, h5, rfl, rfl⟩⟩ := createFlow_ok h
  · exact .inr ⟨_, rfl, rfl⟩
  · obtain ⟨_, _, _, ⟨_, _, _, h6, _⟩ | ⟨h7, _⟩⟩ := alloc_spec hi h3
    · refine .inl ⟨id, rfl, h1, h5, find_none_iff.mpr h6, ?_⟩
      refine flowAt_ext hi'.ids (fun x => ?_) (fun j x hx => ?_)
      · simp only [mem_addAfter]
        unfold put
        constructor
        · rintro (rfl | hm)
          · simp
          · rw [if_neg (h6 x hm), flowAt_iff hi.ids]; exact ⟨hm, rfl⟩
        · intro hx
          split at hx
          · cases hx; exact .inl rfl
          · exact .inr ((flowAt_iff hi.ids).mp hx).1
      · unfold put at hx
        split at hx
        · rename_i he; cases hx; exact he.symm
        · exact flowAt_id hi.ids hx
    · rw [h4] at h7; cases h7

theorem destroyFlow_at (hi : FlowInv s) {id : Int} (h : destroyFlow s id = .ok (s', o)) :
    FlowInv s' ∧ flowAt s' = remove (flowAt s) id := by
  have hi' : FlowInv s' := hi.step (step_eff (op := .destroyFlow id) hi.ids h)
  refine ⟨hi', ?_⟩
  obtain ⟨_, ⟨h1, rfl, rfl⟩ | ⟨f, b, r, h1, h2, rfl, rfl⟩⟩ := destroyFlow_ok h
  · funext j
    unfold remove
    split
    · rename_i he; rw [he]; exact h1
    · rfl
  · obtain ⟨hm, hid⟩ := find_mem h1
    refine flowAt_ext hi'.ids (fun x => ?_) (fun j x hx => ?_)
    · rw [show ({ s with flows := s.flows.filter (fun g => g.ptr != f.ptr), nFlows := s.nFlows - 1, ids := b } : Reg).flows =
        s.flows.filter (fun g => g.ptr != f.ptr) from rfl, filter_ptr hi hm, List.mem_filter]
      unfold remove
      simp only [bne_iff_ne, ne_eq]
      constructor
      · rintro ⟨h3, h4⟩
        rw [if_neg (by rw [← hid]; exact h4), flowAt_iff hi.ids]
        exact ⟨h3, rfl⟩
      · intro hx
        split at hx
        · cases hx
        · rename_i hne
          exact ⟨((flowAt_iff hi.ids).mp hx).1, by rw [hid]; exact hne⟩
    · unfold remove at hx
      split at hx
      · cases hx
      · exact flowAt_id hi.ids hx

theorem prepareAccept_at (hi : FlowInv s) {i : FlowInfo} {b : Option Nat} (h : prepareAccept s i b = .ok (s', o)) :
    FlowInv s' ∧ ∃ f g, flowAt s i.id = some f ∧ f.info.state = .init ∧
      g = { f with info := { f.info with npid := i.npid, state := .acceptPending }, data := b } ∧ o = .flow 0 g.info none ∧
      flowAt s' = put (flowAt s) i.id g := by
  have hi' : FlowInv s' := hi.step (step_eff (op := .prepareAccept i b) hi.ids h)
  refine ⟨hi', ?_⟩
  unfold prepareAccept at h
  obtain ⟨e, he, h⟩ := bind_eq_ok.mp h
  obtain ⟨hp, rfl⟩ := getFlow_ok he
  split at h
  · cases h
  · rename_i f heq
    obtain ⟨h1, h⟩ := assert_bind.mp h
    obtain ⟨g, hg, h⟩ := bind_eq_ok.mp h
    obtain ⟨g', hg', h⟩ := bind_eq_ok.mp h
    cases Outcome.ok.inj h
    obtain ⟨_, h2, rfl⟩ := flowUpdate_accept rfl hg
    obtain ⟨_, rfl⟩ := flowSetData_ok hg'
    exact ⟨f, _, heq, h2, rfl, rfl, set_at hi heq rfl rfl rfl hi'⟩

theorem waitAcceptedStart_at (hi : FlowInv s) {i : FlowInfo} (h : waitAcceptedStart s i = .ok (s', o)) :
    FlowInv s' ∧ flowAt s' = flowAt s ∧ ∃ f, flowAt s i.id = some f ∧ f.info.state = .acceptPending ∧ f.info.npid = i.npid ∧ o = .ptr f.ptr := by
  have hi' : FlowInv s' := hi.step (step_eff (op := .waitAcceptedStart i) hi.ids h)
  obtain ⟨f, h1, h2, h3, rfl, rfl⟩ := waitAcceptedStart_ok h
  exact ⟨hi', rfl, f, h1, h2, h3, rfl⟩

theorem waitAcceptedWake_at (hi : FlowInv s) {p : Nat} {i : FlowInfo} {t : Bool} (h : waitAcceptedWake s p i t = .ok (s', o)) :
    FlowInv s' ∧ ∃ f, flowAt s f.info.id = some f ∧ f.ptr = p ∧
      ((o = .waiting ∧ t = false ∧ s' = s) ∨
       (t = true ∧ o = .flow (-ETIMEDOUT) { f.info with state := .deallocated } f.data ∧
        flowAt s' = put (flowAt s) f.info.id { f with info := { f.info with state := .deallocated }, nRb := false, n1Rb := false, data := none }) ∨
       (t = false ∧ f.info.state = .allocated ∧ o = .flow 0 f.info f.data ∧ flowAt s' = put (flowAt s) f.info.id { f with data := none }) ∨
       (t = false ∧ f.info.state = .deallocated ∧ o = .flow (-1) f.info f.data ∧ flowAt s' = put (flowAt s) f.info.id { f with data := none })) := by
  have hi' : FlowInv s' := hi.step (step_eff (op := .waitAcceptedWake p i t) hi.ids h)
  refine ⟨hi', ?_⟩
  unfold waitAcceptedWake at h
  split at h
  · cases h
  · rename_i f0 h0
    obtain ⟨e, he, h'⟩ := bind_eq_ok.mp h
    clear h
    rename' h' => h
    obtain ⟨hp, rfl⟩ := getFlow_ok he
    split at h
    · cases h
    · rename_i f hf
      obtain ⟨rfl, hm, hptr⟩ := find_ptr hi.ids h0 hf
      refine ⟨f, hf, hptr, ?_⟩
      split at h
      · rename_i ht
        obtain ⟨g, hg, h⟩ := bind_eq_ok.mp h
        obtain ⟨s1, hs, h⟩ := bind_eq_ok.mp h
        obtain ⟨_, rfl⟩ := flowUpdate_dealloc rfl hg
        obtain ⟨_, rfl⟩ := delActiveProc_ok hs
        cases Outcome.ok.inj h
        refine .inr (.inl ⟨ht, rfl, set_at hi (id := f.info.id) hf rfl rfl ?_ hi'⟩)
        exact setFlow_twice rfl
      · rename_i ht
        simp only [Bool.not_eq_true] at ht
        split at h
        · cases Outcome.ok.inj h
          exact .inl ⟨rfl, ht, rfl⟩
        · rename_i hst
          obtain ⟨s1, hs, h⟩ := bind_eq_ok.mp h
          obtain ⟨_, rfl⟩ := delActiveProc_ok hs
          cases Outcome.ok.inj h
          exact .inr (.inr (.inl ⟨ht, hst, rfl, set_at hi (id := f.info.id) hf rfl rfl rfl hi'⟩))
        · rename_i hst
          obtain ⟨s1, hs, h⟩ := bind_eq_ok.mp h
          obtain ⟨_, rfl⟩ := delActiveProc_ok hs
          cases Outcome.ok.inj h
          exact .inr (.inr (.inr ⟨ht, hst, rfl, set_at hi (id := f.info.id) hf rfl rfl rfl hi'⟩))
        · cases h

theorem prepareAlloc_at (hi : FlowInv s) {i : FlowInfo} (h : prepareAlloc s i = .ok (s', o)) :
    FlowInv s' ∧ ∃ f g, flowAt s i.id = some f ∧ f.info.state = .init ∧ i.n1pid ≠ 0 ∧
      g = { f with info := { f.info with n1pid := i.n1pid, state := .allocPending }, nRb := true, n1Rb := true } ∧ o = .flow 0 g.info none ∧
      flowAt s' = put (flowAt s) i.id g := by
  have hi' : FlowInv s' := hi.step (step_eff (op := .prepareAlloc i) hi.ids h)
  refine ⟨hi', ?_⟩
  unfold prepareAlloc at h
  obtain ⟨e, he, h⟩ := bind_eq_ok.mp h
  obtain ⟨hp, rfl⟩ := getFlow_ok he
  split at h
  · cases h
  · rename_i f heq
    obtain ⟨h1, h⟩ := assert_bind.mp h
    obtain ⟨g, hg, h⟩ := bind_eq_ok.mp h
    cases Outcome.ok.inj h
    obtain ⟨_, h2, h3, _, _, rfl⟩ := flowUpdate_alloc rfl hg
    exact ⟨f, _, heq, h2, h3, rfl, rfl, set_at hi heq rfl rfl rfl hi'⟩

theorem waitAllocatedStart_at (hi : FlowInv s) {i : FlowInfo} (h : waitAllocatedStart s i = .ok (s', o)) :
    s' = s ∧ ∃ f, flowAt s i.id = some f ∧ o = .ptr f.ptr := by
  obtain ⟨rfl, f, h1, rfl⟩ := waitAllocatedStart_ok h
  exact ⟨rfl, f, h1, rfl⟩

theorem waitAllocatedWake_at (hi : FlowInv s) {p : Nat} {i : FlowInfo} {t : Bool} (h : waitAllocatedWake s p i t = .ok (s', o)) :
    FlowInv s' ∧ ∃ f, flowAt s f.info.id = some f ∧ f.ptr = p ∧
      ((o = .waiting ∧ t = false ∧ s' = s) ∨
       (t = true ∧ o = .flow (-ETIMEDOUT) { f.info with state := .deallocated } f.data ∧
        flowAt s' = put (flowAt s) f.info.id { f with info := { f.info with state := .deallocated }, nRb := false, n1Rb := false, data := none }) ∨
       (t = false ∧ f.info.state = .allocated ∧ o = .flow 0 f.info f.data ∧ flowAt s' = put (flowAt s) f.info.id { f with data := none }) ∨
       (t = false ∧ f.info.state = .deallocated ∧ o = .flow (-1) f.info f.data ∧ flowAt s' = put (flowAt s) f.info.id { f with data := none })) := by
  have hi' : FlowInv s' := hi.step (step_eff (op := .waitAllocatedWake p i t) hi.ids h)
  refine ⟨hi', ?_⟩
  unfold waitAllocatedWake at h
  split at h
  · cases h
  · rename_i f0 h0
    obtain ⟨e, he, h'⟩ := bind_eq_ok.mp h
    clear h
    rename' h' => h
    obtain ⟨hp, rfl⟩ := getFlow_ok he
    split at h
    · rename_i hnone
      have := List.find?_eq_none.mp hnone f0 (List.mem_of_find?_eq_some h0)
      simp at this
    · rename_i f hf
      obtain ⟨rfl, hm, hptr⟩ := find_ptr hi.ids h0 hf
      refine ⟨f, hf, hptr, ?_⟩
      split at h
      · rename_i ht
        obtain ⟨g, hg, h⟩ := bind_eq_ok.mp h
        cases Outcome.ok.inj h
        obtain ⟨_, rfl⟩ := flowUpdate_dealloc rfl hg
        exact .inr (.inl ⟨ht, rfl, set_at hi (id := f.info.id) hf rfl rfl rfl hi'⟩)
      · rename_i ht
        simp only [Bool.not_eq_true] at ht
        split at h
        · cases Outcome.ok.inj h
          exact .inl ⟨rfl, ht, rfl⟩
        · rename_i hst
          cases Outcome.ok.inj h
          exact .inr (.inr (.inl ⟨ht, hst, rfl, set_at hi (id := f.info.id) hf rfl rfl rfl hi'⟩))
        · rename_i hst
          cases Outcome.ok.inj h
          exact .inr (.inr (.inr ⟨ht, hst, rfl, set_at hi (id := f.info.id) hf rfl rfl rfl hi'⟩))
        · cases h

theorem respondAlloc_at (hi : FlowInv s) {i : FlowInfo} {b : Option Nat} (h : respondAlloc s i b = .ok (s', o)) :
    FlowInv s' ∧ ((s' = s ∧ o = .int (-1)) ∨
      (∃ f g, flowAt s i.id = some f ∧ f.info.state = .allocPending ∧ o = .int 0 ∧ flowAt s' = put (flowAt s) i.id g ∧
        ((i.state = .allocated ∧ g = { f with info := { f.info with mpl := i.mpl, state := .allocated }, data := b }) ∨
         (i.state = .deallocated ∧ g = { f with info := { f.info with state := .deallocated }, nRb := false, n1Rb := false })))) := by
  have hi' : FlowInv s' := hi.step (step_eff (op := .respondAlloc i b) hi.ids h)
  refine ⟨hi', ?_⟩
  unfold respondAlloc at h
  obtain ⟨h1, h⟩ := assert_bind.mp h
  obtain ⟨_, h⟩ := assert_bind.mp h
  obtain ⟨e, he, h⟩ := bind_eq_ok.mp h
  obtain ⟨hp, rfl⟩ := getFlow_ok he
  split at h
  · cases Outcome.ok.inj h
    exact .inl ⟨rfl, rfl⟩
  · rename_i f heq
    split at h
    · cases Outcome.ok.inj h
      exact .inl ⟨rfl, rfl⟩
    · obtain ⟨h2, h⟩ := assert_bind.mp h
      have hst : f.info.state = .allocPending := by simpa using h2
      obtain ⟨h3, h⟩ := assert_bind.mp h
      obtain ⟨g, hg, h⟩ := bind_eq_ok.mp h
      obtain ⟨g', hg', h⟩ := bind_eq_ok.mp h
      cases Outcome.ok.inj h
      simp only [Bool.or_eq_true, beq_iff_eq] at h1
      rcases h1 with hs | hs
      · obtain ⟨_, _, _, h4 | h4⟩ := flowUpdate_allocated (i := { i with npid := f.info.npid, n1pid := f.info.npid }) hs hg
        · obtain ⟨_, rfl⟩ := h4
          simp only [beq_self_eq_true, if_true] at hg'
          obtain ⟨_, rfl⟩ := flowSetData_ok hg'
          refine .inr ⟨f, _, heq, hst, rfl, ?_, .inl ⟨hs, rfl⟩⟩
          exact set_at hi heq rfl rfl rfl hi'
        · rw [hst] at h4
          exact absurd h4.1 (by decide)
      · obtain ⟨_, rfl⟩ := flowUpdate_dealloc (i := { i with npid := f.info.npid, n1pid := f.info.npid }) hs hg
        rw [if_neg (by simp)] at hg'
        cases Outcome.ok.inj hg'
        refine .inr ⟨f, _, heq, hst, rfl, ?_, .inr ⟨hs, rfl⟩⟩
        exact set_at hi heq rfl rfl rfl hi'

theorem respondAccept_at (hi : FlowInv s) {i : FlowInfo} {b : Option Nat} (h : respondAccept s i b = .ok (s', o)) :
    FlowInv s' ∧ ((s' = s ∧ o = .flow (-1) i b) ∨
      (∃ f g b', flowAt s i.id = some f ∧ f.info.state = .acceptPending ∧ i.n1pid ≠ 0 ∧ o = .flow 0 g.info b' ∧ flowAt s' = put (flowAt s) i.id g ∧
        g = { f with info := { f.info with mpl := i.mpl, qs := i.qs, cypher := i.cypher, n1pid := i.n1pid, state := .allocated },
                     nRb := true, n1Rb := true, data := if 0 < i.cypher then b else f.data })) := by
  have hi' : FlowInv s' := hi.step (step_eff (op := .respondAccept i b) hi.ids h)
  refine ⟨hi', ?_⟩
  unfold respondAccept at h
  obtain ⟨h1, h⟩ := assert_bind.mp h
  have hs : i.state = .allocated := by simpa using h1
  obtain ⟨e, he, h⟩ := bind_eq_ok.mp h
  obtain ⟨hp, rfl⟩ := getFlow_ok he
  split at h
  · cases Outcome.ok.inj h
    exact .inl ⟨rfl, rfl⟩
  · rename_i f heq
    obtain ⟨h2, h⟩ := assert_bind.mp h
    have hst : f.info.state = .acceptPending := by simpa using h2
    obtain ⟨⟨f1, b'⟩, hf1, h⟩ := bind_eq_ok.mp h
    obtain ⟨g, hg, h⟩ := bind_eq_ok.mp h
    cases Outcome.ok.inj h
    have hf : f1 = { f with data := if 0 < i.cypher then b else f.data } := by
      split at hf1
      · rename_i hc
        obtain ⟨f2, hf2, hf1⟩ := bind_eq_ok.mp hf1
        cases Outcome.ok.inj hf1
        obtain ⟨_, rfl⟩ := flowSetData_ok hf2
        rw [if_pos hc]
      · rename_i hc
        cases Outcome.ok.inj hf1
        rw [if_neg hc]
    subst hf
    obtain ⟨_, h5, _, h4 | h4⟩ := flowUpdate_allocated (i := { i with npid := f.info.npid }) hs hg
    · have := h4.1
      simp only [hst] at this
      cases this
    · obtain ⟨_, _, _, rfl⟩ := h4
      exact .inr ⟨f, _, b', heq, hst, h5, rfl, set_at hi heq rfl rfl rfl hi', rfl⟩

theorem deallocFlow_at (hi : FlowInv s) {i : FlowInfo} (h : deallocFlow s i = .ok (s', o)) :
    FlowInv s' ∧ ∃ f g, flowAt s i.id = some f ∧ f.info.state = .allocated ∧ g = { f with info := { f.info with state := .deallocPending } } ∧
      o = .flow 0 g.info none ∧ flowAt s' = put (flowAt s) i.id g := by
  have hi' : FlowInv s' := hi.step (step_eff (op := .deallocFlow i) hi.ids h)
  refine ⟨hi', ?_⟩
  unfold deallocFlow at h
  obtain ⟨_, h⟩ := assert_bind.mp h
  obtain ⟨_, h⟩ := assert_bind.mp h
  obtain ⟨e, he, h⟩ := bind_eq_ok.mp h
  obtain ⟨hp, rfl⟩ := getFlow_ok he
  split at h
  · cases h
  · rename_i f heq
    obtain ⟨_, h⟩ := assert_bind.mp h
    obtain ⟨h2, h⟩ := assert_bind.mp h
    have hst : f.info.state = .allocated := by simpa using h2
    obtain ⟨g, hg, h⟩ := bind_eq_ok.mp h
    cases Outcome.ok.inj h
    obtain ⟨_, rfl⟩ := flowUpdate_deallocPending rfl hg
    exact ⟨f, _, heq, hst, rfl, rfl, set_at hi heq rfl rfl rfl hi'⟩

theorem deallocFlowResp_at (hi : FlowInv s) {i : FlowInfo} (h : deallocFlowResp s i = .ok (s', o)) :
    FlowInv s' ∧ ∃ f g, flowAt s i.id = some f ∧ f.info.state = .deallocPending ∧
      g = { f with info := { f.info with state := .deallocated }, nRb := false, n1Rb := false } ∧
      o = .flow 0 g.info none ∧ flowAt s' = put (flowAt s) i.id g := by
  have hi' : FlowInv s' := hi.step (step_eff (op := .deallocFlowResp i) hi.ids h)
  refine ⟨hi', ?_⟩
  unfold deallocFlowResp at h
  obtain ⟨_, h⟩ := assert_bind.mp h
  obtain ⟨_, h⟩ := assert_bind.mp h
  obtain ⟨e, he, h⟩ := bind_eq_ok.mp h
  obtain ⟨hp, rfl⟩ := getFlow_ok he
  split at h
  · cases h
  · rename_i f heq
    obtain ⟨_, h⟩ := assert_bind.mp h
    obtain ⟨h2, h⟩ := assert_bind.mp h
    have hst : f.info.state = .deallocPending := by simpa using h2
    obtain ⟨g, hg, h⟩ := bind_eq_ok.mp h
    cases Outcome.ok.inj h
    obtain ⟨_, rfl⟩ := flowUpdate_dealloc rfl hg
    exact ⟨f, _, heq, hst, rfl, rfl, set_at hi heq rfl rfl rfl hi'⟩

theorem setName_flows (s : Reg) (n : Name) : (setName s n).flows = s.flows := rfl

/-- The other calls leave the flows alone, except that the pending flows of a process that is gone are cancelled. -/
theorem table_at (hi : FlowInv s) {op : Op} (ht : IrmdFlow.isTable op = true) (h : step s op = .ok (s', o)) :
    FlowInv s' ∧ (flowAt s' = flowAt s ∨ ∃ p, flowAt s' = fun id => (flowAt s id).map (cancelled p)) := by
  have hi' : FlowInv s' := hi.step (step_eff hi.ids h)
  refine ⟨hi', ?_⟩
  have key : s'.flows = s.flows ∨ ∃ p, s'.flows = s.flows.map (cancelled p) := by
    cases op with
    | createIpcp i => obtain ⟨_, _, ⟨e, _, rfl, rfl⟩ | ⟨h1, rfl, rfl⟩⟩ := createIpcp_ok h <;> exact .inl rfl
    | updateIpcp i => obtain ⟨rfl, _⟩ := updateIpcp_ok h; exact .inl rfl
    | hasIpcp i => obtain ⟨_, rfl, _⟩ := hasIpcp_ok h; exact .inl rfl
    | listIpcps => cases listIpcps_ok h; exact .inl rfl
    | createName n p => obtain ⟨e, _, rfl, rfl⟩ | ⟨h1, rfl, rfl⟩ := createName_ok h <;> exact .inl rfl
    | destroyName n => obtain ⟨_, rfl, rfl⟩ | ⟨e, h1, rfl, h2, h3, h4, rfl⟩ := destroyName_ok h <;> exact .inl rfl
    | hasName n => cases Outcome.ok.inj h; exact .inl rfl
    | listNames => cases listNames_ok h; exact .inl rfl
    | createProc p g =>
      obtain ⟨e, _, rfl, rfl⟩ | ⟨h1, rfl, ⟨h2, rfl⟩ | ⟨e, q, h2, h3, h4, h5, h6, h7, rfl⟩⟩ := createProc_ok h <;> exact .inl rfl
    | destroyProc p =>
      obtain ⟨_, _, _, _, _, _, _, _, ⟨_, h1, _⟩ | ⟨_, _, h1, _⟩, _⟩ := destroyProc_parts h
      · exact .inl h1
      · exact .inr ⟨p, h1⟩
    | hasProc p => cases Outcome.ok.inj h; exact .inl rfl
    | createSpawned p => obtain ⟨e, _, rfl, rfl⟩ | ⟨h1, rfl, rfl⟩ := createSpawned_ok h <;> exact .inl rfl
    | hasSpawned p => cases Outcome.ok.inj h; exact .inl rfl
    | bindProc n p => obtain ⟨_, ⟨rfl, rfl, _⟩ | ⟨m, q, h1, h2, h3, h4, rfl, rfl⟩⟩ := bindProc_ok h <;> exact .inl rfl
    | unbindProc n p => obtain ⟨_, ⟨rfl, rfl, _⟩ | ⟨m, q, h1, h2, h3, h4, rfl, rfl⟩⟩ := unbindProc_ok h <;> exact .inl rfl
    | createProg n p => obtain ⟨rfl, ⟨e, h1, rfl⟩ | ⟨h1, rfl⟩⟩ := createProg_ok h <;> exact .inl rfl
    | destroyProg n => obtain ⟨_, rfl, rfl⟩ | ⟨e, h1, rfl, rfl⟩ := destroyProg_ok h <;> exact .inl rfl
    | hasProg n => cases Outcome.ok.inj h; exact .inl rfl
    | getExec f v => cases getExec_ok h; exact .inl rfl
    | bindProg n ex a =>
      obtain ⟨e0, rest, rfl, ⟨rfl, rfl, _⟩ | ⟨m, g, h1, h2, h3, h4, rfl, rfl⟩⟩ := bindProg_ok h <;> exact .inl rfl
    | unbindProg n g => obtain ⟨rfl, rfl, _⟩ | ⟨m, q, h1, h2, h3, rfl, rfl⟩ := unbindProg_ok h <;> exact .inl rfl
    | setLayer i l => obtain ⟨_, rfl, rfl⟩ | ⟨e, h1, rfl, rfl⟩ := setLayer_ok h <;> exact .inl rfl
    | findIpcp p => cases findIpcp_ok h; exact .inl rfl
    | findIpcpByLayer l => cases findIpcpByLayer_ok h; exact .inl rfl
    | respondIpcp i => obtain ⟨_, rfl, rfl⟩ | ⟨e, h1, rfl, rfl⟩ := respondIpcp_ok h <;> exact .inl rfl
    | _ => cases ht
  rcases key with hk | ⟨p, hk⟩
  · left; unfold flowAt; rw [hk]
  · right
    refine ⟨p, flowAt_ext hi'.ids (fun x => ?_) (fun j x hx => ?_)⟩
    · rw [hk, List.mem_map]
      constructor
      · rintro ⟨y, hy, rfl⟩
        have : (cancelled p y).info.id = y.info.id := by unfold cancelled; split <;> rfl
        rw [this, (flowAt_iff hi.ids).mpr ⟨hy, rfl⟩]
        rfl
      · intro hx
        obtain ⟨y, hy, rfl⟩ := Option.map_eq_some_iff.mp hx
        exact ⟨y, ((flowAt_iff hi.ids).mp hy).1, rfl⟩
    · obtain ⟨y, hy, rfl⟩ := Option.map_eq_some_iff.mp hx
      have : (cancelled p y).info.id = y.info.id := by unfold cancelled; split <;> rfl
      rw [this]
      exact flowAt_id hi.ids hy

end Ouro.Registry
