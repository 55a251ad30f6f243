import Verif.Proof.FlowTable

/-!
# C70: the flow descriptors of a process
-/

namespace Ouro.FlowTable

/-- Every history of proper use gives exactly the results of the ledger, whatever the interleaving of the
threads: no step is undefined, new flows get the lowest free descriptor, a descriptor stands for its flow
and for no other, the request to the daemon names the flow of the descriptor, errors change nothing. -/
theorem C70_history_partial (ops : List Op) (hp : ProperAll Ledger.empty ops) :
    ∃ s, run start ops = .ok (s, Ledger.empty.outs ops) := by
  obtain ⟨s, h, _⟩ := run_sim start_R ops hp
  exact ⟨s, h⟩

/-- The descriptors and the flows of a process are different at any time, and in the process's range. -/
theorem C70_distinct (ops : List Op) (hp : ProperAll Ledger.empty ops) :
    ((Ledger.empty.run ops).live.map Prod.fst).Nodup ∧ ((Ledger.empty.run ops).live.map Prod.snd).Nodup ∧
      ∀ p ∈ (Ledger.empty.run ops).live, 64 ≤ p.1 ∧ p.1 < 4096 := by
  obtain ⟨s, _, h⟩ := run_sim start_R ops hp
  exact ⟨h.nodup, h.nodup2, fun p hp => (h.range p hp).1⟩

section
attribute [local irreducible] Ledger.free lowest

/-- After any history of proper use, a call that the daemon grants a fresh flow returns the lowest
descriptor from 64 up that is not live, and from then on that descriptor gives that flow; the call returns
-EBADF only when all 4032 descriptors are live. -/
theorem C70_new_descriptor (ops : List Op) (hp : ProperAll Ledger.empty ops) (c : Api) (r : Int) (hr : 0 ≤ r) (id : Nat)
    (rel : Bool) (hid : Fresh (Ledger.empty.run ops) id) :
    ∃ s, run start ops = .ok (s, Ledger.empty.outs ops) ∧
      ((∃ s' fd, step s (.open c (.result r (some (id, rel, false)) false) .none) = .ok (s', .ret ((fd : Nat) : Int)) ∧
          InRange fd ∧ fd ∉ (Ledger.empty.run ops).live.map Prod.fst ∧
          (∀ e, InRange e → e < fd → e ∈ (Ledger.empty.run ops).live.map Prod.fst) ∧
          step s' (.use fd) = .ok (s', .flow id)) ∨
        (step s (.open c (.result r (some (id, rel, false)) false) .none) = .ok (s, .ret (-9)) ∧
          ∀ e, InRange e → e ∈ (Ledger.empty.run ops).live.map Prod.fst)) := by
  obtain ⟨s, h, hR⟩ := run_sim start_R ops hp
  refine ⟨s, h, ?_⟩
  have hd : replyDes (takesKey c) (.result r (some (id, rel, false)) false) = .ok (id, rel) := by
    simp [replyDes, show ¬ r < 0 by omega]
  have hst : step s (.open c (.result r (some (id, rel, false)) false) .none) = opened s id rel .none := by
    simp only [step, hd]
  rw [hst]
  obtain ⟨s', h1, h2⟩ := opened_sim hR (rel := rel) hid
  rw [h1]
  clear hst hd
  generalize Ledger.empty.run ops = L at *
  rcases hf : L.free with _ | fd
  · right
    have hop : opened s id rel .none = .ok (s, .ret (-9)) := by
      unfold opened flowInit; rw [lowest_eq hR.used, hf]; rfl
    rw [← h1, hop]
    exact ⟨rfl, free_none hf⟩
  · left
    obtain ⟨hr1, hr2, hr3⟩ := free_some hf
    have hadd : L.add id = ({ L with live := (fd, id) :: L.live, known := id :: L.known }, .ret (fd : Int)) := by
      unfold Ledger.add; rw [hf]
    rw [hadd] at h2
    refine ⟨s', fd, by rw [hadd], hr1, hr2, hr3, ?_⟩
    obtain ⟨x, _, hs⟩ := h2.slot fd id (by simp)
    simp only [step]
    rw [if_neg (by have := hr1.2; unfold MAX_FLOWS; omega)]
    simp [hs]

end

/-- A descriptor stands for its flow until a thread deallocates it, whatever the process does meanwhile. -/
theorem C70_stable (ops later : List Op) (hp : ProperAll Ledger.empty (ops ++ later)) (fd id : Nat)
    (hl : (fd, id) ∈ (Ledger.empty.run ops).live) (hc : ∀ t st, (Ledger.empty.run ops).calls t ≠ some (fd, st))
    (hn : ∀ op ∈ later, ∀ t b, op ≠ .check t b (fd : Int)) :
    ∃ s, run start (ops ++ later) = .ok (s, Ledger.empty.outs (ops ++ later)) ∧ step s (.use fd) = .ok (s, .flow id) := by
  obtain ⟨s, h, hR⟩ := run_sim start_R (ops ++ later) hp
  refine ⟨s, h, ?_⟩
  rw [run_append] at hR
  have hm := keep later hl hc hn
  obtain ⟨x, _, hs⟩ := hR.slot fd id hm
  have hrange := (hR.range _ hm).1
  simp only [step]
  rw [if_neg (by have := hrange.2; unfold MAX_FLOWS; simp only at this; omega)]
  simp [hs]

/-- After any history of proper use, leaving the process releases everything. -/
theorem C70_exit (ops : List Op) (hp : ProperAll Ledger.empty ops) :
    ∃ s s', run start ops = .ok (s, Ledger.empty.outs ops) ∧ exit s = .ok s' ∧ Empty s' := by
  obtain ⟨s, h, hR⟩ := run_sim start_R ops hp
  obtain ⟨s', h1, h2⟩ := exitLoop_ok (quiet_R hR) (fun _ => rfl) (fun _ => rfl) (List.range MAX_FLOWS)
  refine ⟨s, s', h, h1, empty_of_R h2 ?_⟩
  rw [List.filter_eq_nil_iff]
  intro p hp'
  have := (hR.range p hp').1.2
  simp only [decide_eq_true_eq, not_not, List.mem_range]
  exact this

/-- A history that meets the hypotheses: two flows are opened, one is deallocated by a thread while another
thread waits for a third flow, which then takes over the descriptor. -/
def sample : List Op :=
  [.open .alloc (.result 0 (some (7, true, true)) true) .none, .open .accept (.result 0 (some (9, false, false)) false) .none,
   .check 1 false 64, .await 2 3, .flush 1, .use 64, .send 1, .open .join (.result (-1000) none false) .none, .done 1 (some 0),
   .np1 3 .none, .wake 2, .use 65, .use 64, .fdOf 7, .check 1 true 65, .done 1 none, .use 65]

theorem sample_outs : Ledger.empty.outs sample =
    [.ret 64, .ret 65, .more, .more, .more, .flow 7, .sent (some 7), .ret (-1000), .ret 0, .ret 64, .ret 64, .flow 9,
     .flow 3, .ret (-1), .more, .ret (-1), .flow 9] := by decide +kernel

theorem sample_proper : ProperAll Ledger.empty sample :=
  properAllB_sound (empty_below 3) (by decide +kernel)

example : ∃ s, run start sample = .ok (s, Ledger.empty.outs sample) := C70_history_partial sample sample_proper
example : ∃ s s', run start sample = .ok (s, Ledger.empty.outs sample) ∧ exit s = .ok s' ∧ Empty s' :=
  C70_exit sample sample_proper
example : (65, 9) ∈ (Ledger.empty.run sample).live ∧ (64, 3) ∈ (Ledger.empty.run sample).live := by decide +kernel
example : Fresh (Ledger.empty.run sample) 7 := ⟨by decide, by decide +kernel⟩
example : (Ledger.empty.run sample).free = some 66 := by decide +kernel

/-! ## Where the code departs from the property -/

/-- When a resource runs out while a flow is set up, the descriptor is released but the flow's fields keep
the id and pointers to closed objects: after any history of proper use, a call that fails this way makes
the exit of the process, and any use of that descriptor, undefined (src/lib/dev.c:515-530, 712-720). -/
theorem C70_failed_call_violated (ops : List Op) (hp : ProperAll Ledger.empty ops) (id : Nat) (rel : Bool) (f : Fail)
    (hf : f ≠ .none) (fd : Nat) (hfree : (Ledger.empty.run ops).free = some fd) :
    ∃ s s', run start ops = .ok (s, Ledger.empty.outs ops) ∧ opened s id rel f = .ok (s', .ret (-12)) ∧
      exit s' = .ub ∧ step s' (.use fd) = .ub := by
  obtain ⟨s, h, hR⟩ := run_sim start_R ops hp
  obtain ⟨hr1, hr2, _⟩ := free_some hfree
  have hclr := hR.free fd hr2
  have hb : (leftover (s.slots fd) id f).id = some id ∧ (leftover (s.slots fd) id f).rx ≠ .opened := by
    rw [hclr]; cases f <;> first | exact absurd rfl hf | exact ⟨rfl, by simp [leftover, clear]⟩
  refine ⟨s, { s with slots := upd s.slots fd (leftover (s.slots fd) id f) }, h, ?_, ?_, ?_⟩
  · unfold opened flowInit
    rw [lowest_eq hR.used, hfree]
    simp [hf, ENOMEM]
  · exact exitLoop_bad (quiet_R hR) (fun _ => rfl) (fun _ => rfl) (by rw [hb.1]; simp) hb.2 _
      (List.mem_range.mpr hr1.2)
  · simp only [step]
    rw [if_neg (by have := hr1.2; unfold MAX_FLOWS; omega)]
    simp [upd_same, hb.1, hb.2]

/-- Deallocating a descriptor from 4096 to 10239 reads outside of the table instead of failing
(src/lib/dev.c:602, 897-905, 969-977). -/
theorem C70_range_violated (s : St) (t : Nat) (b : Bool) (fd : Int) (h1 : 4096 ≤ fd) (h2 : fd < 10240) :
    step s (.check t b fd) = .ub := by
  simp only [step]
  rw [if_neg (by unfold SYS_MAX_FLOWS; omega), if_pos (by unfold MAX_FLOWS; omega)]

/-- Two threads that deallocate the same descriptor: neither is told that it is not allocated, and the
second unlinks a flow that is in no list (src/lib/dev.c:902-952). -/
theorem C70_double_dealloc_violated :
    run start [.np1 5 .none, .check 1 false 64, .check 2 false 64, .flush 1, .flush 2, .send 1, .send 2,
      .done 1 (some 0), .done 2 (some 0)] = .ub := by rfl

/-- ... and if the descriptor was handed out again in between, the second thread destroys the new flow. -/
theorem C70_double_dealloc_other_violated :
    ∃ s, run start [.np1 5 .none, .check 1 false 64, .check 2 false 64, .flush 1, .flush 2, .send 1, .send 2,
      .done 1 (some 0), .np1 9 .none, .use 64, .done 2 (some 0), .use 64]
      = .ok (s, [.ret 64, .more, .more, .more, .more, .sent (some 5), .sent (some 5), .ret 0, .ret 64, .flow 9, .ret 0,
        .ret (-1000)]) := ⟨_, rfl⟩

/-- A thread that waits for the descriptor of a flow and is scheduled only after that flow came and went
trips an assertion (src/lib/dev.c:205-222). -/
theorem C70_late_waiter_violated :
    run start [.await 1 7, .np1 7 .none, .check 2 true 64, .done 2 (some 0), .wake 1] = .ub := by rfl

/-- The descriptor of a flow that never had one is whatever was in memory (src/lib/dev.c:611-618, 1762). -/
theorem C70_unknown_flow_violated (id : Nat) (h : id < 10240) : step start (.fdOf id) = .ok (start, .junk) := by
  simp only [step]
  rw [if_neg (by unfold SYS_MAX_FLOWS; omega)]
  rfl

/-- No call of the library asks the daemon to join: `flow_join` sends a request for an allocation
(src/lib/dev.c:866). -/
theorem C70_join_violated : ∀ c : Api, request c ≠ .flowJoin := by
  intro c; cases c <;> decide

end Ouro.FlowTable
