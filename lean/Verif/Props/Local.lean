import Verif.Proof.Local

/-!
# C37 — local flows are isolated

Ends of flows are numbered in the order in which they got their descriptors (`.opened n`); `.linked n m` in a history says that `n` and `m` are the two ends of a flow
(`SameFlow`, `Verif/Spec/Local.lean`). The property holds for careful histories (`Careful`: a descriptor is given to a new flow only after both ends of
the flow that used it are deallocated and the packet loop holds no packet of it, and a flow is not deallocated before its allocation is complete). The daemon
and the library do not ensure this; without it the property fails, as shown below.
-/

namespace Ouro.Local

/-- C37, partial: missing are histories that are not careful. A packet written on one end of a flow is delivered to the other end of the same flow. -/
theorem C37_isolated_partial (ops : List Op) (hc : Careful init ops) {x : State × List (Op × Out)} (h : run init ops = .ok x)
    {pre post : List (Op × Out)} {op : Op} {n m p : Nat} (hd : x.2 = pre ++ (op, .delivered n m p) :: post) : SameFlow pre n m := by
  have := run_delivered init_inv ops hc h [] (by simp [init]) hd
  simpa using this

/-- C37, every history. Nothing is made up or duplicated: packet `p` of end `n` was taken from that end as often as it was delivered or lost, except for
the one the loop holds. -/
theorem C37_once (ops : List Op) {x : State × List (Op × Out)} (h : run init ops = .ok x) (n p : Nat) :
    x.2.countP (isGone n p) ≤ x.2.countP (isTook n p) ∧ x.2.countP (isTook n p) ≤ x.2.countP (isGone n p) + 1 := by
  have := run_held ops h n p
  have h2 : held n p x.1.loop ≤ 1 := by
    unfold held; split
    · simp
    · split <;> simp
    · split <;> simp
  have h3 : held n p init.loop = 0 := rfl
  omega

/-- C37, partial: missing are histories that are not careful. While both ends of a flow are there, a packet taken from one of them and handled without
interruption reaches the other. -/
theorem C37_delivers_partial (ops : List Op) (hc : Careful init ops) {x : State × List (Op × Out)} (h : run init ops = .ok x) {n m : Nat}
    (hf : SameFlow x.2 n m) (hn : IsOpen x.1 n) (hm : IsOpen x.1 m) (hl : x.1.loop = .idle) (p : Nat) :
    ∃ y, run init (ops ++ [.read (x.1.home n) p, .look, .write]) = .ok y ∧
      y.2 = x.2 ++ [(.read (x.1.home n) p, .took n p), (.look, .done), (.write, .delivered n m p)] := by
  obtain ⟨h1, _, h3⟩ := run_linked init_inv (by intro n m h; simp [init] at h) ops hc h
  have hp := h3 n m hf
  have hio := h1 n m hp hn
  have hne : x.1.inOut (x.1.home n) ≠ -1 := by rw [hio]; omega
  have ht : (x.1.inOut (x.1.home n)).toNat = x.1.home m := by rw [hio]; simp
  unfold IsOpen at hn hm
  have : run x.1 [.read (x.1.home n) p, .look, .write] =
      .ok ({ x.1 with loop := .idle }, [(.read (x.1.home n) p, .took n p), (.look, .done), (.write, .delivered n m p)]) := by
    simp [run, step, hl, hn, hne, ht, hm]
  exact ⟨_, run_append_ok ops _ h this, rfl⟩

/-- C37, partial: missing are histories that are not careful. The reply to an allocation goes to the end that asked for the flow. -/
theorem C37_reply_partial (ops : List Op) (hc : Careful init ops) {x : State × List (Op × Out)} (h : run init ops = .ok x) (fd m : Nat)
    {r : State × Out} (hs : step x.1 (.respond fd) = .ok r) (hr : r.2 = .replied m) :
    ∃ e, x.1.ends fd = some e ∧ SameFlow x.2 e.num m := by
  have hi := run_careful_inv init_inv ops hc h
  obtain ⟨e, h1, h2⟩ := (step_inv hi hs trivial).2.2 fd m rfl hr
  have := run_peer ops h [] (by simp [init]) e.num m h2
  exact ⟨e, h1, by simpa using this⟩

/-- The outputs of a history. -/
def outs (ops : List Op) : Option (List Out) := match run init ops with
  | .ok x => some (x.2.map (·.2))
  | .ub => none

/-- Non-vacuity: a flow with descriptors 64 and 65, a packet in both directions. This history is careful. -/
example : outs [.alloc 64, .arrived 64 (some 65), .link 64, .respond 65, .read 64 7, .look, .write, .read 65 8, .look, .write] =
    some [.opened 0, .opened 1, .linked 0 1, .replied 0, .took 0 7, .done, .delivered 0 1 7, .took 1 8, .done, .delivered 1 0 8] := by decide +kernel
example : Careful init [.alloc 64, .arrived 64 (some 65), .link 64, .clear 64] := by
  have h0 : Reusable init 64 := ⟨by simp [init], by simp [init], by simp [init]⟩
  refine ⟨h0, ?_⟩
  intro r hr
  simp [step, init, maxFlows, openEnd] at hr
  subst hr
  refine ⟨⟨by simp, by simp, by simp⟩, ?_⟩
  intro r hr
  simp [step, upd, openEnd, maxFlows] at hr
  subst hr
  refine ⟨trivial, ?_⟩
  intro r hr
  simp [step] at hr
  subst hr
  refine ⟨by simp [CarefulStep], fun _ _ => trivial⟩

/-- C37 does not hold in full: after one end (0) is deallocated its descriptor is given to a new flow (end 2); a packet of the former peer (1) reaches the new flow.
`local_ipcp_flow_dealloc` clears only the entry of its own descriptor. -/
theorem C37_reuse_violated : outs [.alloc 64, .arrived 64 (some 65), .link 64, .clear 64, .free 64, .alloc 64, .read 65 7, .look, .write] =
    some [.opened 0, .opened 1, .linked 0 1, .done, .done, .opened 2, .took 1 7, .done, .delivered 1 2 7] := by decide +kernel

/-- C37 does not hold in full: the same by a race, although both ends are deallocated before the descriptor is used again: the packet loop looked up the
descriptor before and writes after. -/
theorem C37_race_violated : outs [.alloc 64, .arrived 64 (some 65), .link 64, .read 65 7, .look, .clear 65, .free 65, .clear 64, .free 64, .alloc 64, .write] =
    some [.opened 0, .opened 1, .linked 0 1, .took 1 7, .done, .done, .done, .done, .done, .opened 2, .delivered 1 2 7] := by decide +kernel

/-- C37 does not hold in full: an end that is deallocated before the allocation is complete leaves an entry behind; the next flow on its descriptor (end 2) sends its
packets to the requester of the old one (end 0). -/
theorem C37_early_dealloc_violated : outs [.alloc 64, .arrived 64 (some 65), .clear 65, .free 65, .link 64, .alloc 65, .read 65 7, .look, .write] =
    some [.opened 0, .opened 1, .done, .done, .linked 0 1, .opened 2, .took 2 7, .done, .delivered 2 0 7] := by decide +kernel

/-- C37 does not hold in full: a negative response that is processed reads and writes `in_out[-1]`. -/
theorem C37_reject_violated (s : State) : step s .reject = .ub := rfl

end Ouro.Local
