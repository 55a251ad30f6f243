import Verif.Proof.RegistryApi
import Verif.Props.FlowIo

/-!
# Properties C21, C22 and C25: the registry of the IRM daemon

`run ops = .ok (s, log)`: the calls `ops`, made by any number of threads, were carried out in this order without a crash;
`log` pairs each call with its result and `s` is the state afterwards. The maps `live (log.filterMap …)` and the stages are
defined in `Verif/Spec/Registry.lean` from the log alone.
-/

namespace Ouro.Registry

open Spec.Registry Spec.FiniteMap

variable {ops : List Op} {s s' : Reg} {log : List (Op × Out)} {op : Op} {o : Out}

/-! ## C21: flow ids and the life cycle of a flow -/

/-- **C21, ids.** A new flow gets an id in `[1, SYS_MAX_FLOWS)` that no existing flow has, and it starts in the first stage. -/
theorem C21_new_id (h : run ops = .ok (s, log)) {i j : FlowInfo} {d : Option Nat} (hc : step s (.createFlow i) = .ok (s', .flow 0 j d)) :
    1 ≤ j.id ∧ j.id < SYS_MAX_FLOWS ∧ live (log.filterMap flowEv) j.id = none ∧ stageOf s' j.id = some .created := by
  have hi := flow_inv h
  have he := step_eff hi.ids hc
  have hi' := hi.step he
  obtain ⟨hst, _, b, id, ha, ⟨_, _, ho⟩ | ⟨hv, _, _, ho, rfl⟩⟩ := createFlow_ok hc
  · simp at ho
  · simp only [Out.flow.injEq, true_and] at ho
    obtain ⟨rfl, _⟩ := ho
    obtain ⟨_, _, _, ⟨_, h1, h2, h3, _⟩ | ⟨h1, _⟩⟩ := alloc_spec hi ha
    · refine ⟨h1, h2, (tables h).flows.none_iff.mpr h3, ?_⟩
      have := stageOf_mem hi' (mem_addAfter.mpr (.inl rfl))
      dsimp only at this ⊢
      rw [this, hst]
      rfl
    · rw [hv] at h1; cases h1

/-- **C21, ids.** Existing flows have different ids, all in `[1, SYS_MAX_FLOWS)`. -/
theorem C21_distinct_ids (h : run ops = .ok (s, log)) :
    (s.flows.map (·.info.id)).Nodup ∧ ∀ f ∈ s.flows, 1 ≤ f.info.id ∧ f.info.id < SYS_MAX_FLOWS :=
  ⟨(flow_inv h).ids, fun _ hf => (flow_inv h).range hf⟩

/-- **C21, ids.** A request for a new flow that is well formed does not crash, and it is refused only if every id is in use. -/
theorem C21_refused_only_when_full (h : run ops = .ok (s, log)) {i : FlowInfo} (h1 : i.id = 0) (h2 : i.npid ≠ 0) (h3 : i.state = .init)
    (h4 : i.n1pid = 0) (h5 : i.mpl = 0) : ∃ s' r j d, step s (.createFlow i) = .ok (s', .flow r j d) ∧
      (r = 0 ∨ ∀ id : Int, 1 ≤ id → id < SYS_MAX_FLOWS → (live (log.filterMap flowEv) id).isSome) := by
  have hi := flow_inv h
  obtain ⟨b, id, ha, _⟩ := Bitmap.allocate_spec s.ids hi.bmp
  obtain ⟨_, _, _, ⟨hv, h6, _⟩ | ⟨hv, h6, _⟩⟩ := alloc_spec hi ha
  · have : ∃ s', step s (.createFlow i) = .ok (s', .flow 0 { i with id := id } none) := by
      simp [step, createFlow, assert, h1, h2, h3, ha, hv, flowCreate, h4, h5, show (0 : Int) < id by omega]
    obtain ⟨s', hs⟩ := this
    exact ⟨s', _, _, _, hs, .inl rfl⟩
  · have : ∃ s', step s (.createFlow i) = .ok (s', .flow (-1) { i with id := id } none) := by
      simp [step, createFlow, assert, h1, h2, h3, ha, hv]
    obtain ⟨s', hs⟩ := this
    refine ⟨s', _, _, _, hs, .inr ?_⟩
    intro j hj1 hj2
    obtain ⟨f, hf, hfj⟩ := h6 j hj1 hj2
    rw [((tables h).flows.agrees j f.info.npid).mpr ⟨f, hf, hfj, rfl⟩]
    rfl

/-- **C21, life cycle.** In one call, a flow comes into being (in the first stage, by its creation), stays in its stage, moves on to a
stage that may follow, or is destroyed on request. -/
theorem C21_life_cycle (h : run ops = .ok (s, log)) (hs : step s op = .ok (s', o)) (id : Int) :
    match stageOf s id, stageOf s' id with
    | none, none => True
    | none, some y => y = .created ∧ ∃ i j d, op = .createFlow i ∧ o = .flow 0 j d ∧ j.id = id
    | some x, some y => y = x ∨ x.Next y
    | some _, none => op = .destroyFlow id ∧ o = .int 0 := by
  have hi := flow_inv h
  have := stage_step hi (step_eff hi.ids hs) id
  revert this
  generalize stageOf s id = x
  generalize stageOf s' id = y
  intro this
  cases this with
  | absent => trivial
  | new h1 h2 h3 => exact ⟨rfl, _, _, _, h1, h2, h3⟩
  | same => exact .inl rfl
  | next h1 => exact .inr h1
  | gone h1 h2 => exact ⟨h1, h2⟩

/-- **C21, life cycle.** Whatever happens, until it is destroyed a flow is there and never goes back to an earlier stage. -/
theorem C21_never_back {more : List Op} {log' : List (Op × Out)} (h : run ops = .ok (s, log)) (hm : runFrom s more = .ok (s', log'))
    {id : Int} (hd : .destroyFlow id ∉ more) {x : Stage} (hx : stageOf s id = some x) :
    ∃ y, stageOf s' id = some y ∧ (y = x ∨ x.rank < y.rank) :=
  stage_mono (flow_inv h) hm hd hx

/-- **C21, rings.** A flow that is being allocated, in use or being released has both its packet rings. -/
theorem C21_rings_present (h : run ops = .ok (s, log)) {id : Int} {x : Stage} (hx : stageOf s id = some x) (hn : x.needsRings = true) :
    ringsOf s id = some (true, true) := by
  have hi := flow_inv h
  rcases stageOf_cases s id with ⟨f, hf, rfl⟩ | hno
  · rw [stageOf_mem hi hf] at hx
    cases Option.some.inj hx
    unfold ringsOf
    rw [find_flow hi hf]
    have h1 := (hi.ok f hf).needed hn
    simp only [Option.map_some, ← (hi.ok f hf).same, h1]
  · rw [stageOf_none hno] at hx; cases hx

/-- **C21, rings (part).** In a history in which no process is destroyed, a flow has its packet rings exactly in these stages.
What is missing: the rings of a flow that is cancelled because its process is gone, see `C21_rings_violated`. -/
theorem C21_rings_partial (h : run ops = .ok (s, log)) (hd : ∀ p, .destroyProc p ∉ ops) {id : Int} {x : Stage} (hx : stageOf s id = some x) :
    ringsOf s id = some (x.needsRings, x.needsRings) := by
  have hi := flow_inv h
  cases hn : x.needsRings with
  | true => exact C21_rings_present h hx hn
  | false =>
    rcases stageOf_cases s id with ⟨f, hf, rfl⟩ | hno
    · rw [stageOf_mem hi hf] at hx
      cases Option.some.inj hx
      have := rings_clean h hd f hf hn
      unfold ringsOf
      rw [find_flow hi hf]
      simp [this]
    · rw [stageOf_none hno] at hx; cases hx

/-- A request for a flow of process `p`. -/
def flowReq (p : Nat) : FlowInfo := ⟨0, p, 0, 0, 0, 0, .init⟩

/-- The flow `id` of process `p` over the IPCP with process id `n`, in some state. -/
def flowIs (id : Int) (p n mpl : Nat) (st : FState) : FlowInfo := ⟨id, p, n, mpl, 0, 0, st⟩

/-- Process 7 asks for a flow, which is established over IPCP 9, used and given up. -/
def allocOps : List Op :=
  [.createFlow (flowReq 7), .prepareAlloc (flowIs 1 7 9 0 .init), .waitAllocatedStart (flowIs 1 7 9 0 .allocPending),
   .respondAlloc (flowIs 1 7 9 60 .allocated) (some 5), .waitAllocatedWake 0 (flowIs 1 7 9 0 .allocPending) false,
   .deallocFlow (flowIs 1 7 0 0 .allocated), .deallocFlowResp (flowIs 1 0 9 0 .deallocPending), .destroyFlow 1]

/-- The stages on the way, with the rings: every stage of a flow that is allocated, and a second flow at the same time. -/
example : ∃ s log, run (allocOps.take 5 ++ [.createFlow (flowReq 8)]) = .ok (s, log) ∧
    (decide (stageOf s 1 = some .allocated ∧ ringsOf s 1 = some (true, true) ∧ stageOf s 2 = some .created ∧ ringsOf s 2 = some (false, false))) = true :=
  checkRun_ex (f := fun s _ => decide (stageOf s 1 = some .allocated ∧ ringsOf s 1 = some (true, true) ∧ stageOf s 2 = some .created ∧ ringsOf s 2 = some (false, false)))
    (by decide +kernel)

example : ∃ s log, run allocOps = .ok (s, log) ∧ decide (stageOf s 1 = none) = true :=
  checkRun_ex (f := fun s _ => decide (stageOf s 1 = none)) (by decide +kernel)

/-- **C21 fails for the rings of a cancelled flow**: process 7 dies while its flow is being allocated; the flow is over, and both its
packet rings are still there. -/
theorem C21_rings_violated : ∃ s log, run [.createProc 7 [], .createFlow (flowReq 7), .prepareAlloc (flowIs 1 7 9 0 .init), .destroyProc 7] = .ok (s, log) ∧
    decide (stageOf s 1 = some .deallocated ∧ ringsOf s 1 = some (true, true)) = true :=
  checkRun_ex (f := fun s _ => decide (stageOf s 1 = some .deallocated ∧ ringsOf s 1 = some (true, true))) (by decide +kernel)

/-- **C21 fails when the wait for a flow times out at the wrong moment**: the flow is already allocated, the waiter is told that the
request timed out, and the flow goes straight to its last stage (the other end is not told). -/
theorem C21_timeout_violated : ∃ s log, run (allocOps.take 4 ++ [.waitAllocatedWake 0 (flowIs 1 7 9 0 .allocPending) true]) = .ok (s, log) ∧
    decide (stageOf s 1 = some .deallocated) = true :=
  checkRun_ex (f := fun s _ => decide (stageOf s 1 = some .deallocated)) (by decide +kernel)

/-- **C21: a client can crash the daemon** by giving up a flow that does not exist, in every state. -/
theorem C21_bad_id_violated (h : run ops = .ok (s, log)) {i : FlowInfo} (hno : live (log.filterMap flowEv) i.id = none) :
    step s (.deallocFlow i) = .ub := by
  have hn := (tables h).flows.none_iff.mp hno
  cases hs : step s (.deallocFlow i) with
  | ub => rfl
  | ok r =>
    obtain ⟨s', o⟩ := r
    obtain ⟨f, g, hf, _⟩ := deallocFlow_ok hs
    exact absurd (find_mem hf).2 (hn f (find_mem hf).1)

/-! ## C22: the tables -/

/-- **C22, flows.** A flow exists from its creation to its destruction; destroying one that does not exist fails; the counter is the
number of flows. -/
theorem C22_flows (h : run ops = .ok (s, log)) :
    (∀ id, 1 ≤ id → step s (.hasFlow id) = .ok (s, .bool (live (log.filterMap flowEv) id).isSome)) ∧
    (∀ id, 1 ≤ id → live (log.filterMap flowEv) id = none → step s (.destroyFlow id) = .ok (s, .int (-1))) ∧
    (∀ id s' o, (live (log.filterMap flowEv) id).isSome → step s (.destroyFlow id) = .ok (s', o) → o = .int 0) ∧
    ∃ l, Lists l (live (log.filterMap flowEv)) ∧ s.nFlows = l.length := by
  have ht := (tables h).flows
  refine ⟨?_, ?_, ?_, ⟨_, ht.lists.1, ht.lists.2⟩⟩
  · intro id hid
    rw [ht.find id]
    simp [step, hasFlow, getFlow_eq hid]
  · intro id hid hn
    have : s.flows.find? (fun f => f.info.id == id) = none := find_none_iff.mpr (ht.none_iff.mp hn)
    simp [step, destroyFlow, getFlow_eq hid, this]
  · intro id s' o hsome hs
    obtain ⟨_, ⟨h1, _, _⟩ | ⟨f, b, r, _, _, rfl, _⟩⟩ := destroyFlow_ok hs
    · rw [ht.find id, h1] at hsome; cases hsome
    · rfl

/-- **C22, names.** A name exists, with its policy, from its creation to its destruction; creating it again fails and changes nothing;
destroying a name that does not exist fails and changes nothing; the list of names and the counter are those of the existing names. -/
theorem C22_names (h : run ops = .ok (s, log)) :
    (∀ x, step s (.hasName x) = .ok (s, .bool (live (log.filterMap nameEv) x).isSome)) ∧
    (∀ x pol, (live (log.filterMap nameEv) x).isSome → step s (.createName x pol) = .ok (s, .int (-EEXIST))) ∧
    (∀ x pol, live (log.filterMap nameEv) x = none → ∃ s', step s (.createName x pol) = .ok (s', .int 0)) ∧
    (∀ x, live (log.filterMap nameEv) x = none → step s (.destroyName x) = .ok (s, .int (-1))) ∧
    (∀ x s' o, (live (log.filterMap nameEv) x).isSome → step s (.destroyName x) = .ok (s', o) → o = .int 0) ∧
    (∃ l, step s .listNames = .ok (s, .names l) ∧ (l.map (·.1)).Nodup ∧ ∀ x pol, (x, pol) ∈ l ↔ live (log.filterMap nameEv) x = some pol) ∧
    ∃ l, Lists l (live (log.filterMap nameEv)) ∧ s.nNames = l.length := by
  have ht := (tables h).names
  have hfind : ∀ x, live (log.filterMap nameEv) x = (getName s x).map (fun n => n.pol) := fun x => ht.find x
  refine ⟨?_, ?_, ?_, ?_, ?_, ?_, ⟨_, ht.lists.1, ht.lists.2⟩⟩
  · intro x
    rw [hfind x]
    simp [step, hasName]
  · intro x pol hx
    rw [hfind x] at hx
    cases hg : getName s x with
    | none => rw [hg] at hx; cases hx
    | some n => simp [step, createName, hg]
  · intro x pol hx
    rw [hfind x, Option.map_eq_none_iff] at hx
    simp only [step, createName, hx]
    exact ⟨_, rfl⟩
  · intro x hx
    rw [hfind x, Option.map_eq_none_iff] at hx
    simp [step, destroyName, hx]
  · intro x s' o hx hs
    obtain ⟨h1, _, _⟩ | ⟨e, _, rfl, _⟩ := destroyName_ok hs
    · rw [hfind x, h1] at hx; cases hx
    · rfl
  · refine ⟨s.names.map (fun n => (n.name, n.pol)), ?_, ?_, ?_⟩
    · have hl := ht.keyed.len
      simp only [step, listNames]
      by_cases h0 : s.nNames = 0
      · have : s.names = [] := List.eq_nil_of_length_eq_zero (by omega)
        simp [h0, this]
      · simp [assert, hl]
    · rw [List.map_map]
      exact ht.keyed.nodup
    · intro x pol
      rw [ht.agrees x pol, List.mem_map]
      simp only [Prod.mk.injEq]

/-- **C22, processes (part).** A process exists from its announcement to its end; announcing it again fails and changes nothing; neither
call crashes; the counter is the number of processes. What is missing: ending a process that does not exist succeeds, see
`C22_destroy_proc_violated`. -/
theorem C22_procs_partial (h : run ops = .ok (s, log)) :
    (∀ p, step s (.hasProc p) = .ok (s, .bool (live (log.filterMap procEv) p).isSome)) ∧
    (∀ p g, (live (log.filterMap procEv) p).isSome → step s (.createProc p g) = .ok (s, .int (-1))) ∧
    (∀ p g, 0 < p → live (log.filterMap procEv) p = none → ∃ s', step s (.createProc p g) = .ok (s', .int 0)) ∧
    (∀ p, 0 < p → ∃ s', step s (.destroyProc p) = .ok (s', .int 0)) ∧
    ∃ l, Lists l (live (log.filterMap procEv)) ∧ s.nProcs = l.length := by
  have ht := (tables h).procs
  have hb := bnd_inv h
  have hfind : ∀ x, live (log.filterMap procEv) x = (getProc s x).map (fun n => n.prog) := fun x => ht.find x
  refine ⟨?_, ?_, ?_, ?_, ⟨_, ht.lists.1, ht.lists.2⟩⟩
  · intro p
    rw [hfind p]
    simp [step, hasProc]
  · intro p g hx
    rw [hfind p] at hx
    cases hg : getProc s p with
    | none => rw [hg] at hx; cases hx
    | some n => simp [step, createProc, hg]
  · intro p g hp hx
    rw [hfind p, Option.map_eq_none_iff] at hx
    obtain ⟨⟨s', o⟩, hr⟩ := createProc_total hb hp g
    obtain ⟨e, h1, _⟩ | ⟨_, rfl, _⟩ := createProc_ok hr
    · rw [hx] at h1; cases h1
    · exact ⟨s', hr⟩
  · intro p hp
    exact destroyProc_total hb hp

/-- **C22, programs.** A program exists from its creation to its destruction, with the path it was first given; creating it again
succeeds without effect; destroying a program that does not exist fails and changes nothing; the counter is the number of programs. -/
theorem C22_progs (h : run ops = .ok (s, log)) :
    (∀ x, step s (.hasProg x) = .ok (s, .bool (live (log.filterMap progEv) x).isSome)) ∧
    (∀ x y, (live (log.filterMap progEv) x).isSome → step s (.createProg x y) = .ok (s, .int 0)) ∧
    (∀ x y, live (log.filterMap progEv) x = none → ∃ s', step s (.createProg x y) = .ok (s', .int 0)) ∧
    (∀ x, live (log.filterMap progEv) x = none → step s (.destroyProg x) = .ok (s, .int (-1))) ∧
    (∀ x s' o, (live (log.filterMap progEv) x).isSome → step s (.destroyProg x) = .ok (s', o) → o = .int 0) ∧
    ∃ l, Lists l (live (log.filterMap progEv)) ∧ s.nProgs = l.length := by
  have ht := (tables h).progs
  have hfind : ∀ x, live (log.filterMap progEv) x = (getProg s x).map (fun n => n.path) := fun x => ht.find x
  refine ⟨?_, ?_, ?_, ?_, ?_, ⟨_, ht.lists.1, ht.lists.2⟩⟩
  · intro x
    rw [hfind x]
    simp [step, hasProg]
  · intro x y hx
    rw [hfind x] at hx
    cases hg : getProg s x with
    | none => rw [hg] at hx; cases hx
    | some n => simp [step, createProg, hg]
  · intro x y hx
    rw [hfind x, Option.map_eq_none_iff] at hx
    simp only [step, createProg, hx]
    exact ⟨_, rfl⟩
  · intro x hx
    rw [hfind x, Option.map_eq_none_iff] at hx
    simp [step, destroyProg, hx]
  · intro x s' o hx hs
    obtain ⟨h1, _, _⟩ | ⟨e, _, rfl, _⟩ := destroyProg_ok hs
    · rw [hfind x, h1] at hx; cases hx
    · rfl

/-- **C22, IPCPs.** An IPCP exists from its creation to the end of its process, and looking it up gives the information last stored;
creating it again fails and changes nothing; the list of IPCPs and the counter are those of the existing IPCPs. -/
theorem C22_ipcps (h : run ops = .ok (s, log)) :
    (∀ p, 0 < p → step s (.hasIpcp p) = .ok (s, .bool (live (log.filterMap ipcpEv) p).isSome)) ∧
    (∀ p, 0 < p → step s (.findIpcp p) = .ok (s, .ipcp (if (live (log.filterMap ipcpEv) p).isSome then 0 else -1) (live (log.filterMap ipcpEv) p))) ∧
    (∀ i, 0 < i.pid → i.state = .boot → (live (log.filterMap ipcpEv) i.pid).isSome → step s (.createIpcp i) = .ok (s, .int (-1))) ∧
    (∀ i, 0 < i.pid → i.state = .boot → live (log.filterMap ipcpEv) i.pid = none → ∃ s', step s (.createIpcp i) = .ok (s', .int 0)) ∧
    (∃ l, step s .listIpcps = .ok (s, .ipcps l) ∧ (l.map (·.info.pid)).Nodup ∧ ∀ i, i ∈ l ↔ live (log.filterMap ipcpEv) i.info.pid = some i) ∧
    ∃ l, Lists l (live (log.filterMap ipcpEv)) ∧ s.nIpcps = l.length := by
  have ht := (tables h).ipcps
  have hfind : ∀ x, live (log.filterMap ipcpEv) x = s.ipcps.find? (fun j => j.info.pid == x) := by
    intro x
    rw [ht.find x]
    exact Option.map_id'
  refine ⟨?_, ?_, ?_, ?_, ?_, ⟨_, ht.lists.1, ht.lists.2⟩⟩
  · intro p hp
    rw [hfind p]
    simp [step, hasIpcp, getIpcp_eq hp]
  · intro p hp
    rw [hfind p]
    simp only [step, findIpcp, getIpcp_eq hp, Outcome.bind_ok]
    cases s.ipcps.find? (fun j => j.info.pid == p) <;> simp
  · intro i hi hst hx
    rw [hfind] at hx
    cases hg : s.ipcps.find? (fun j => j.info.pid == i.pid) with
    | none => rw [hg] at hx; cases hx
    | some e => simp [step, createIpcp, assert, getIpcp_eq hi, hg, hst, Nat.ne_of_gt hi]
  · intro i hi hst hx
    rw [hfind] at hx
    simp [step, createIpcp, assert, getIpcp_eq hi, hx, hst, Nat.ne_of_gt hi]
  · refine ⟨s.ipcps, ?_, ht.keyed.nodup, ?_⟩
    · have hl := ht.keyed.len
      simp only [step, listIpcps]
      by_cases h0 : s.nIpcps = 0
      · have : s.ipcps = [] := List.eq_nil_of_length_eq_zero (by omega)
        simp [h0, this]
      · simp [assert, hl]
    · intro i
      rw [ht.agrees]
      constructor
      · intro hi; exact ⟨i, hi, rfl, rfl⟩
      · rintro ⟨j, hj, _, rfl⟩; exact hj

/-- A history with entries in all the tables. -/
def tableOps : List Op :=
  [.createName ['a'] .rr, .createName ['b'] .spill, .createProg ['p'] ['/', 'p'], .createProc 7 ['p'], .createProc 8 ['q'],
   .createIpcp ⟨1, 9, ['i'], .boot⟩, .respondIpcp ⟨1, 9, ['i'], .operational⟩, .setLayer ⟨1, 9, ['i'], .bootstrapped⟩ ⟨['l'], 3⟩,
   .createFlow (flowReq 7), .createName ['a'] .spill, .destroyName ['b'], .destroyProc 8]

example : ∃ s log, run tableOps = .ok (s, log) ∧
    decide (log.map (·.2) = [.int 0, .int 0, .int 0, .int 0, .int 0, .int 0, .int 0, .int 0, .flow 0 { flowReq 7 with id := 1 } none, .int (-17), .int 0, .int 0] ∧
      s.nNames = 1 ∧ s.nProcs = 1 ∧ s.nProgs = 1 ∧ s.nIpcps = 1 ∧ s.nFlows = 1) = true := by
  have := checkRun_ex (ops := tableOps) (f := fun s l => decide (l = [.int 0, .int 0, .int 0, .int 0, .int 0, .int 0, .int 0, .int 0, .flow 0 { flowReq 7 with id := 1 } none, .int (-17), .int 0, .int 0] ∧
      s.nNames = 1 ∧ s.nProcs = 1 ∧ s.nProgs = 1 ∧ s.nIpcps = 1 ∧ s.nFlows = 1)) (by decide +kernel)
  exact this

/-- **C22 fails for processes**: destroying a process that does not exist succeeds, in every state. -/
theorem C22_destroy_proc_violated (h : run ops = .ok (s, log)) {p : Nat} (hp : 0 < p) (_hno : live (log.filterMap procEv) p = none) :
    ∃ s', step s (.destroyProc p) = .ok (s', .int 0) :=
  destroyProc_total (bnd_inv h) hp

/-- **C22 fails for IPCPs**: updating an IPCP that exists crashes the daemon, in every state. -/
theorem C22_update_ipcp_violated (h : run ops = .ok (s, log)) {i : IpcpInfo} (hx : (live (log.filterMap ipcpEv) i.pid).isSome) :
    step s (.updateIpcp i) = .ub := by
  cases hs : step s (.updateIpcp i) with
  | ub => rfl
  | ok r =>
    obtain ⟨s', o⟩ := r
    obtain ⟨_, _, h1⟩ := updateIpcp_ok hs
    have : live (log.filterMap ipcpEv) i.pid = none := (tables h).ipcps.none_iff.mpr (find_none_iff.mp h1)
    rw [this] at hx
    cases hx

/-- **C22: the spawned processes are not a set**: an IPCP that was spawned is recorded twice, and is still recorded as spawned after it
was destroyed. -/
theorem C22_spawned_twice_violated : ∃ s log, run [.createSpawned 9, .createIpcp ⟨1, 9, ['i'], .boot⟩, .destroyProc 9] = .ok (s, log) ∧
    decide (s.spawned = [9]) = true :=
  checkRun_ex (f := fun s _ => decide (s.spawned = [9])) (by decide +kernel)

/-! ## C25: the end of a process -/

/-- A process is bound to a name. -/
def boundTo (s : Reg) (x : Str) (p : Nat) : Prop := ∃ n ∈ s.names, n.name = x ∧ p ∈ n.procs

/-- A process is in the list of those that accept flows for a name. -/
def acceptsFor (s : Reg) (x : Str) (p : Nat) : Prop := ∃ n ∈ s.names, n.name = x ∧ p ∈ n.active

/-- **C25.** Ending a process never crashes. The flows of this process that are being allocated or accepted are cancelled; every other
flow is as it was. The process is no longer bound to, and no longer accepts for, any name; other processes are and do as before. -/
theorem C25_exit (h : run ops = .ok (s, log)) {p : Nat} (hp : 0 < p) (hx : (live (log.filterMap procEv) p).isSome) :
    ∃ s', step s (.destroyProc p) = .ok (s', .int 0) ∧
      (∀ id, s'.flows.find? (fun f => f.info.id == id) = (s.flows.find? (fun f => f.info.id == id)).map (fun f =>
        if f.info.npid = p ∧ (f.info.state = .allocPending ∨ f.info.state = .acceptPending)
        then { f with info := { f.info with state := .deallocated } } else f)) ∧
      (∀ x q, boundTo s' x q ↔ boundTo s x q ∧ q ≠ p) ∧
      (∀ x q, acceptsFor s' x q ↔ acceptsFor s x q ∧ q ≠ p) ∧
      (∀ q, getProc s' q = if q = p then none else getProc s q) := by
  have hb := bnd_inv h
  obtain ⟨s', hs⟩ := destroyProc_total hb hp
  refine ⟨s', hs, ?_⟩
  obtain ⟨_, _, _, _, _, _, _, _, ⟨h1, _⟩ | ⟨e, h1, h2, h3, h4, _⟩, _⟩ := destroyProc_parts hs
  · have ht : live (log.filterMap procEv) p = none := (tables h).procs.none_iff.mpr (find_none_iff.mp h1)
    rw [ht] at hx; cases hx
  · refine ⟨?_, ?_, ?_, ?_⟩
    · intro id
      rw [h2, List.find?_map]
      have : ((fun f : Flow => f.info.id == id) ∘ cancelled p) = (fun f => f.info.id == id) := by
        funext f
        simp only [Function.comp, (cancelled_next p f).1]
      rw [this]
      rfl
    · intro x q
      simp only [boundTo, h3, List.mem_map, exists_exists_and_eq_and, (dropProc_name p _).1]
      constructor
      · rintro ⟨n, hn, h5, h6⟩
        obtain ⟨h7, h8⟩ := (dropProc_procs (hb.nd n hn)).mp h6
        exact ⟨⟨n, hn, h5, h7⟩, h8⟩
      · rintro ⟨⟨n, hn, h5, h6⟩, h7⟩
        exact ⟨n, hn, h5, (dropProc_procs (hb.nd n hn)).mpr ⟨h6, h7⟩⟩
    · intro x q
      simp only [acceptsFor, h3, List.mem_map, exists_exists_and_eq_and, (dropProc_name p _).1]
      constructor
      · rintro ⟨n, hn, h5, h6⟩
        obtain ⟨h7, h8⟩ := (dropProc_active (hb.act n hn)).mp h6
        exact ⟨⟨n, hn, h5, h7⟩, h8⟩
      · rintro ⟨⟨n, hn, h5, h6⟩, h7⟩
        exact ⟨n, hn, h5, (dropProc_active (hb.act n hn)).mpr ⟨h6, h7⟩⟩
    · intro q
      unfold getProc
      rw [h4]
      by_cases hq : q = p
      · subst hq
        rw [if_pos rfl]
        apply find_none_iff.mpr
        intro a ha
        simpa using (List.mem_filter.mp ha).2
      · rw [if_neg hq, List.find?_filter]
        congr 1
        funext a
        by_cases ha : a.pid = q
        · simp [ha, hq]
        · simp [ha]

/-- The flow of a waiter after the flow was cancelled. -/
theorem wake_cancelled (hi : FlowInv s) {f : Flow} (hf : f ∈ s.flows) (hst : f.info.state = .deallocated) (i : FlowInfo) :
    step s (.waitAllocatedWake f.ptr i false) = .ok (setFlow s { f with data := none }, .flow (-1) f.info f.data) ∧
    step s (.waitAcceptedWake f.ptr i false) =
      .ok (setFlow { s with names := s.names.map (unmark f.info.npid) } { f with data := none }, .flow (-1) f.info f.data) := by
  have h1 : s.flows.find? (fun g => g.ptr == f.ptr) = some f := (find_iff (key := fun f : Flow => f.ptr) hi.ptrs).mpr ⟨hf, rfl⟩
  have h2 := find_flow hi hf
  have h3 := (hi.range hf).1
  have h4 : 0 < f.info.npid := Nat.pos_of_ne_zero (hi.ok f hf).pid
  have h5 : mapM' (fun n => nameDelActive n f.info.npid) s.names = .ok (s.names.map (unmark f.info.npid)) :=
    mapM'_total (fun n _ => by simp [nameDelActive, assert, h4, unmark])
  constructor
  · simp [step, waitAllocatedWake, h1, getFlow_eq h3, h2, hst, flowGetData]
  · simp [step, waitAcceptedWake, h1, getFlow_eq h3, h2, hst, flowGetData, delActiveProc, assert, h4, h5]

/-- **C25.** When a process ends, each call that waits for one of its flows returns an error as soon as it wakes up; the flow can then be
destroyed and its id is free again. -/
theorem C25_released (h : run ops = .ok (s, log)) {p : Nat} (hp : 0 < p) (hx : (live (log.filterMap procEv) p).isSome) {f : Flow}
    (hf : f ∈ s.flows) (hfp : f.info.npid = p) (hst : f.info.state = .allocPending ∨ f.info.state = .acceptPending) (i : FlowInfo) :
    ∃ s1, step s (.destroyProc p) = .ok (s1, .int 0) ∧
      ∀ wake ∈ [Op.waitAllocatedWake f.ptr i false, Op.waitAcceptedWake f.ptr i false],
        ∃ s2 j d s3, step s1 wake = .ok (s2, .flow (-1) j d) ∧ j.id = f.info.id ∧
          step s2 (.destroyFlow f.info.id) = .ok (s3, .int 0) ∧ stageOf s3 f.info.id = none := by
  obtain ⟨s1, h1, h2, _⟩ := C25_exit h hp hx
  have hi := flow_inv h
  have hi1 := hi.step (step_eff hi.ids h1)
  refine ⟨s1, h1, ?_⟩
  have hg := h2 f.info.id
  rw [find_flow hi hf, Option.map_some, if_pos ⟨hfp, hst⟩] at hg
  obtain ⟨hg1, _⟩ := find_mem hg
  have hw := wake_cancelled hi1 hg1 rfl i
  dsimp only at hw
  have key : ∀ {wake : Op} {s2 : Reg}, step s1 wake = .ok (s2, .flow (-1) { f.info with state := .deallocated } f.data) →
      (∃ l, s2.flows = (setFlow { s1 with names := l } { f with info := { f.info with state := .deallocated }, data := none }).flows) →
      ∃ s2 j d s3, step s1 wake = .ok (s2, .flow (-1) j d) ∧ j.id = f.info.id ∧
          step s2 (.destroyFlow f.info.id) = .ok (s3, .int 0) ∧ stageOf s3 f.info.id = none := by
    intro wake s2 h3 hl
    obtain ⟨l, hl⟩ := hl
    have hi2 := hi1.step (step_eff hi1.ids h3)
    have hg2 : (⟨f.ptr, { f.info with state := .deallocated }, f.nRb, f.n1Rb, none⟩ : Flow) ∈ s2.flows := by
      rw [hl]
      exact List.mem_map.mpr ⟨_, hg1, by rw [if_pos rfl]⟩
    have hr := hi2.range hg2
    have hfind := find_flow hi2 hg2
    dsimp only at hr hfind
    have hne : f.info.id ≠ s2.ids.offset + s2.ids.size := by
      rw [hi2.offset, hi2.size]
      simp only [SYS_MAX_FLOWS] at hr ⊢
      omega
    obtain ⟨b, r, h4, _⟩ := Bitmap.release_spec s2.ids hi2.bmp f.info.id hne
    have h5 : ∃ s3, step s2 (.destroyFlow f.info.id) = .ok (s3, .int 0) := by
      simp [step, destroyFlow, getFlow_eq hr.1, hfind, h4, flowDestroy, destroyRbuffs, assert]
    obtain ⟨s3, h5⟩ := h5
    refine ⟨s2, _, _, s3, h3, rfl, h5, ?_⟩
    obtain ⟨_, ⟨h6, _⟩ | ⟨f', b', r', h6, _, _, rfl⟩⟩ := destroyFlow_ok h5
    · rw [hfind] at h6; cases h6
    · rw [hfind] at h6
      cases Option.some.inj h6
      apply stageOf_none
      intro k hk hkid
      obtain ⟨hk1, hk2⟩ := List.mem_filter.mp hk
      rw [hi2.id_inj hk1 hg2 hkid] at hk2
      simp at hk2
  intro wake hwake
  simp only [List.mem_cons, List.not_mem_nil, or_false] at hwake
  rcases hwake with rfl | rfl
  · exact key hw.1 ⟨s1.names, rfl⟩
  · exact key hw.2 ⟨_, rfl⟩

/-- Process 7, bound to `a`, waits for a flow; process 8 has a flow under allocation. -/
def exitOps : List Op :=
  [.createName ['a'] .rr, .createProc 7 ['p'], .createProc 8 ['q'], .bindProc ['a'] 7, .createFlow (flowReq 7), .createFlow (flowReq 8),
   .prepareAccept (flowIs 1 7 0 0 .init) none, .waitAcceptedStart (flowIs 1 7 0 0 .acceptPending), .prepareAlloc (flowIs 2 8 9 0 .init),
   .waitAllocatedStart (flowIs 2 8 9 0 .allocPending)]

example : ∃ s log, run (exitOps ++ [.destroyProc 7, .waitAcceptedWake 0 (flowIs 1 7 0 0 .acceptPending) false]) = .ok (s, log) ∧
    decide (stageOf s 1 = some .deallocated ∧ stageOf s 2 = some .allocPending ∧ s.names.map (·.active) = [[]]) = true :=
  checkRun_ex (f := fun s _ => decide (stageOf s 1 = some .deallocated ∧ stageOf s 2 = some .allocPending ∧ s.names.map (·.active) = [[]])) (by decide +kernel)

/-- **C25 fails for flows in use**: after the process has ended its allocated flow stays allocated, and its id stays taken. -/
theorem C25_leak_violated : ∃ s log, run ([.createProc 7 ['p']] ++ allocOps.take 5 ++ [.destroyProc 7]) = .ok (s, log) ∧
    decide (stageOf s 1 = some .allocated) = true :=
  checkRun_ex (f := fun s _ => decide (stageOf s 1 = some .allocated)) (by decide +kernel)

/-- **C25 fails for a request in progress**: a request from the network has picked the flow of process 7; the process ends before the
answer is recorded, and the daemon crashes. -/
theorem C25_race_violated : run (exitOps ++ [.pollAccepting (fun _ => 5) 5, .destroyProc 7, .respondAccept (flowIs 1 0 9 60 .allocated) none]) = .ub :=
  FlowIo.isUb_eq (by decide +kernel)

/-- The history up to the answer runs. -/
example : ∃ s log, run (exitOps ++ [.pollAccepting (fun _ => 5) 5, .destroyProc 7]) = .ok (s, log) ∧
    decide ((log.map (·.2)).getLast? = some (.int 0) ∧ (log.map (·.2))[10]? = some (.int 1)) = true :=
  checkRun_ex (f := fun _ l => decide (l.getLast? = some (.int 0) ∧ l[10]? = some (.int 1))) (by decide +kernel)

end Ouro.Registry
