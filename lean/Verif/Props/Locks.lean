import Verif.Proof.Locks

/-!
# C75: threads do not block each other for ever
-/

namespace Ouro.Locks

/-- **C75, partial.**  For any number of threads that make any calls on any paths, except reads of the statistics of FRCT
flows: in every state that can be reached, every thread that has something left to do waits, directly or through others,
only for a thread that can go on, or for something that another process has to provide.  No set of threads waits for
each other.  Full statement: with those reads; see `C75_statistics_violated`. -/
theorem C75_no_deadlock_partial (cs : Nat → List Call) (h : ∀ i, ∀ c ∈ cs i, c.noStatistics) (s : State)
    (hr : Reach (start cs) s) (i : Nat) (hu : Unfinished s i) : Alive s i :=
  alive (b := false) (inv_reach (inv_start (fun i c hc => ⟨h i c hc, by simp⟩)) hr) hu

/-- Many threads, each with a write that blocks and makes a retransmission, a read, a deallocation, the timer and the
allocation of a flow. -/
example : ∀ i, ∀ c ∈ (fun i => [Call.write i (.wait [none] false) (some ([.rtx 3 true, .ack 4 (some .sent)], true)) true true,
    .read i true true [⟨some true, some (.rdv .sent)⟩] .whole, .tick [.rtx i false], .alloc true,
    .dealloc i true true [([], .whole, some .sent)], .event true [.pkt 7 true (.drop true (some .sent))],
    .keepalive [.send 3 true true]] : Nat → List Call) i, c.noStatistics := by
  intro i c hc
  simp only [List.mem_cons, List.not_mem_nil, or_false] at hc
  rcases hc with rfl | rfl | rfl | rfl | rfl | rfl | rfl <;> trivial

/-- **C75, partial.**  If all threads make quiet calls only - blocking and non-blocking reads for which FRCT sends nothing,
non-blocking writes, and everything around them - a thread never waits for another process on behalf of another thread:
whoever waits holds no lock.  Full statement: for all calls; see `C75_full_flow_violated` and the theorems after it. -/
theorem C75_independent_partial (cs : Nat → List Call) (h : ∀ i, ∀ c ∈ cs i, c.noStatistics ∧ c.quiet) (s : State)
    (hr : Reach (start cs) s) (i : Nat) (hu : Unfinished s i) : Independent s i := by
  have hi : Inv true s := inv_reach (inv_start (fun i c hc => ⟨(h i c hc).1, fun _ => (h i c hc).2⟩)) hr
  obtain ⟨j, hj, he⟩ := alive hi hu
  refine ⟨j, hj, ?_⟩
  rcases he with he | he
  · exact Or.inl he
  · rcases last_held hj with rfl | hh
    · exact Or.inr ⟨rfl, he⟩
    · exact absurd (held_of_waiting hi he) hh

/-- Readers that block, writers that do not, events, and the timer. -/
example : ∀ i, ∀ c ∈ (fun i => [Call.read i true true [⟨some true, some (.keep true true)⟩] .part,
    .write i (.test none) (some ([.acked 3, .ack 5 none], true)) false true, .np1Write i true, .ipcpFini i,
    .event true [.pkt 3 true (.keep false false)], .tick [.expired 9]] : Nat → List Call) i,
    c.noStatistics ∧ c.quiet := by
  intro i c hc
  simp only [List.mem_cons, List.not_mem_nil, or_false] at hc
  rcases hc with rfl | rfl | rfl | rfl | rfl | rfl <;> simp [Call.noStatistics, Call.quiet, Rcv.silent, Entry.silent]

/-- In such a program a thread that waits for another process is waited for by nobody. -/
theorem C75_waits_without_locks_partial (cs : Nat → List Call) (h : ∀ i, ∀ c ∈ cs i, c.noStatistics ∧ c.quiet) (s : State)
    (hr : Reach (start cs) s) (i : Nat) (hw : Waiting s i) : (s.thr i).held = [] :=
  held_of_waiting (inv_reach (inv_start (fun i c hc => ⟨(h i c hc).1, fun _ => (h i c hc).2⟩)) hr) hw

/-- **C75 violated: statistics.**  Whenever one thread reads the statistics of an FRCT flow and another allocates an FRCT
flow, both can stop for ever, whatever all others do; and with them every other thread that wants to use a flow. -/
theorem C75_statistics_violated (cs : Nat → List Call) (f : Nat) (xs ys : List Call)
    (h0 : cs 0 = .ribRead f :: xs) (h1 : cs 1 = .alloc true :: ys) :
    ∃ s, Reach (start cs) s ∧ Dead s 0 ∧ Dead s 1 ∧
      ∀ j x zs, 1 < j → cs j = x :: zs → x.exclusive → Dead s j := by
  -- the thread of the file system has `rib.lock`
  have r1 : Reach (start cs) (put (start cs) 0
      (.acq .ai .rd :: (touch (.frcti f) .rd ++ [.rel .ai] ++ [.rel .rib]) ++ xs.flatMap trace) [(.rib, .wr)]) := by
    have := put_acq (s := start cs) (i := 0) (l := .rib) (m := .wr) (h := [])
      (p := .acq .ai .rd :: (touch (.frcti f) .rd ++ [.rel .ai] ++ [.rel .rib]) ++ xs.flatMap trace)
      (fun j _ => start_held cs j) (by simp)
    rwa [show put (start cs) 0 (.acq .rib .wr :: (.acq .ai .rd :: (touch (.frcti f) .rd ++ [.rel .ai] ++ [.rel .rib]) ++
      xs.flatMap trace)) [] = start cs from (put_start cs 0 h0).symm] at this
  -- the other has `ai.lock`
  generalize hs1 : put (start cs) 0
    (.acq .ai .rd :: (touch (.frcti f) .rd ++ [.rel .ai] ++ [.rel .rib]) ++ xs.flatMap trace) [(.rib, .wr)] = s1 at r1
  have e0 : s1.thr 0 =
      ⟨.acq .ai .rd :: (touch (.frcti f) .rd ++ [.rel .ai] ++ [.rel .rib]) ++ xs.flatMap trace, [(.rib, .wr)]⟩ := by
    rw [← hs1]; simp [put]
  have ej : ∀ j, j ≠ 0 → s1.thr j = thread (cs j) := by
    intro j hj
    rw [← hs1]
    simp [put, Function.update_of_ne hj, start]
  have e1 : (s1.thr 1).prog = .acq .ai .wr :: .acq .rib .wr ::
      ([.rel .rib] ++ fsetTouch ++ touch .aiMtx .wr ++ [.rel .ai] ++ ys.flatMap trace) := by
    rw [ej 1 (by decide)]
    simp [thread, h1, trace, flowInit, under, ribReg, touch]
  have hfree : free s1 .ai .wr := by
    intro j m
    by_cases hj : j = 0
    · subst hj
      rw [e0]
      simp
    · rw [ej j hj]
      simp [thread]
  have r2 := r1.tail (.step (.acq e1 hfree))
  refine ⟨_, r2, ?_⟩
  generalize hs2 : ({ s1 with thr := Function.update s1.thr 1 ⟨_, (Lock.ai, Mode.wr) :: (s1.thr 1).held⟩ } : State) = s2
  have f0 : s2.thr 0 = s1.thr 0 := by rw [← hs2]; simp
  have f1 : s2.thr 1 = ⟨.acq .rib .wr ::
      ([.rel .rib] ++ fsetTouch ++ touch .aiMtx .wr ++ [.rel .ai] ++ ys.flatMap trace), [(.ai, .wr)]⟩ := by
    rw [← hs2]
    simp only [Function.update_self, ej 1 (by decide)]
    rfl
  have fj : ∀ j, 1 < j → s2.thr j = thread (cs j) := by
    intro j hj
    rw [← hs2]
    simp only [Function.update_of_ne (show j ≠ 1 by omega)]
    exact ej j (by omega)
  have stuck : ∀ t, Reach s2 t → t.thr 0 = s2.thr 0 ∧ t.thr 1 = s2.thr 1 := fun t ht =>
    stuck_pair (i := 0) (j := 1) (l := .ai) (l' := .rib) (m := .rd) (m' := .wr) (n := .wr) (n' := .wr)
      (by rw [f0, e0]; rfl) (by rw [f1]) (by rw [f0, e0]; simp) (by rw [f1]; simp) (Or.inr rfl) (Or.inl rfl) ht
  refine ⟨⟨by rw [Unfinished, f0, e0]; simp, fun t ht => (stuck t ht).1⟩,
    ⟨by rw [Unfinished, f1]; simp, fun t ht => (stuck t ht).2⟩, ?_⟩
  intro j x zs hj hx he
  obtain ⟨q, hq⟩ := exclusive_first he
  have hp : (s2.thr j).prog = .acq .ai .wr :: (q ++ zs.flatMap trace) := by
    rw [fj j hj]
    simp [thread, hx, hq]
  refine ⟨by rw [Unfinished, hp]; simp, fun t ht => ?_⟩
  induction ht with
  | refl => rfl
  | @tail t u ht hn ih =>
    cases hn with
    | env av => exact ih
    | @step k u h =>
      have hk : k ≠ j := by
        rintro rfl
        refine no_step_acq (j := 1) (m' := .wr) (by rw [ih]; exact hp) ?_ (Or.inl rfl) h
        rw [(stuck t ht).2, f1]
        simp
      rw [step_other h (Ne.symm hk)]
      exact ih

example : (Call.write 3 .noFrct none false true).exclusive := trivial

/-- **C75 violated: a full flow stops all flows.**  A blocking write to a flow whose ring buffer is full waits with the flows
locked: no other thread can write to any flow, not even without blocking, allocate a flow, or change a flag. -/
theorem C75_full_flow_violated (cs : Nat → List Call) (f : Nat) (written : Bool) (xs : List Call)
    (h : cs 0 = .write f .noFrct none true written :: xs) : Stalls cs (.room f) := by
  have ho : ∀ j, j ≠ 0 → ((start cs).thr j).held = [] := fun j _ => start_held cs j
  refine stalls_of (h := [(.ai, .rd)])
    (p := touch (.txRing f) .wr ++ ((if written then fsetTouch else rdrbRemove) ++ (.rel .ai :: xs.flatMap trace)))
    (from_start h (p := touch .ai .wr ++ (.wait .memory :: (touch .rdrb .wr ++ (touch .ai .wr ++ (.acq .ai .rd ::
      .wait (.room f) :: (touch (.txRing f) .wr ++ ((if written then fsetTouch else rdrbRemove) ++
          (.rel .ai :: xs.flatMap trace)))))))) ?_ ?_)
    (by simp)
  · simp [trace, window, flowTx, rdrbAllocB, ringWriteB, under, touch]
  refine (put_touch ho (by simp)).trans ?_
  refine (put_wait (s := start cs) trivial).trans ?_
  refine (put_touch ho (by simp)).trans ?_
  refine (put_touch ho (by simp)).trans ?_
  exact put_acq ho (by simp)

/-- **C75 violated: forwarding.**  The same holds for every packet that an IPCP writes, since it always blocks: one full
flow stops an IPCP from sending on all others. -/
theorem C75_forwarding_violated (cs : Nat → List Call) (f : Nat) (written : Bool) (xs : List Call)
    (h : cs 0 = .ipcpWrite f none written :: xs) : Stalls cs (.room f) := by
  have ho : ∀ j, j ≠ 0 → ((start cs).thr j).held = [] := fun j _ => start_held cs j
  refine stalls_of (h := [(.ai, .rd)])
    (p := touch (.txRing f) .wr ++ ((if written then fsetTouch else rdrbRemove) ++ (.rel .ai :: xs.flatMap trace)))
    (from_start h (p := touch .ai .wr ++ (touch .ai .wr ++ (.acq .ai .rd ::
      .wait (.room f) :: (touch (.txRing f) .wr ++ ((if written then fsetTouch else rdrbRemove) ++
          (.rel .ai :: xs.flatMap trace)))))) ?_ ?_)
    (by simp)
  · simp [trace, flowTx, ringWriteB, under, touch]
  refine (put_touch ho (by simp)).trans ?_
  refine (put_touch ho (by simp)).trans ?_
  exact put_acq ho (by simp)

/-- **C75 violated: non-blocking writes block.**  A write with `FLOWFWNOBLOCK` to a reliable flow `f` first handles the
timer wheel; when a packet of another flow `g` is due again, and the ring buffer of `g` is full, it waits for `g`, and
all other threads with it. -/
theorem C75_nonblocking_write_violated (cs : Nat → List Call) (f g : Nat) (rtx written : Bool) (es : List Entry)
    (xs : List Call)
    (h : cs 0 = .write f (.test none) (some (.rtx g true :: es, rtx)) false written :: xs) : Stalls cs (.room g) := by
  have ho : ∀ j, j ≠ 0 → ((start cs).thr j).held = [] := fun j _ => start_held cs j
  refine stalls_of (h := [(.rw, .wr), (.ai, .rd)])
    (p := touch (.txRing g) .wr ++ (fsetTouch ++ (es.flatMap entry ++ (.rel .rw :: (touch (.frcti f) .wr ++
      ((if rtx then wheelRxm f else []) ++ (ringWrite f ++ ((if written then fsetTouch else rdrbRemove) ++
        (.rel .ai :: xs.flatMap trace)))))))))
    (from_start h (p := touch .ai .wr ++ (touch (.frcti f) .rd ++ (touch .rdrb .wr ++ (touch .ai .wr ++ (.acq .ai .rd ::
      .acq .rw .wr :: (touch (.frcti g) .rd ++ (touch (.frcti g) .wr ++ (.wait .memory :: (touch .rdrb .wr ++
      (touch .rdrb .wr ++ (.wait (.room g) :: (touch (.txRing g) .wr ++ (fsetTouch ++ (es.flatMap entry ++ (.rel .rw ::
      (touch (.frcti f) .wr ++ ((if rtx then wheelRxm f else []) ++ (ringWrite f ++
      ((if written then fsetTouch else rdrbRemove) ++ (.rel .ai :: xs.flatMap trace)))))))))))))))))))) ?_ ?_)
    (by simp)
  · simp [trace, window, isWindowOpen, flowTx, frctiSnd, wheelMove, entry, rdrbAlloc, rdrbRemove, rdrbAllocB, ringWriteB,
      under, touch]
  refine (put_touch ho (by simp)).trans ?_
  refine (put_touch ho (by simp)).trans ?_
  refine (put_touch ho (by simp)).trans ?_
  refine (put_touch ho (by simp)).trans ?_
  refine (put_acq ho (by simp)).trans ?_
  refine (put_acq ho (by simp)).trans ?_
  refine (put_touch ho (by simp)).trans ?_
  refine (put_touch ho (by simp)).trans ?_
  refine (put_wait (s := start cs) trivial).trans ?_
  refine (put_touch ho (by simp)).trans ?_
  exact put_touch ho (by simp)

/-- **C75 violated: non-blocking reads block.**  A read with `FLOWFRNOBLOCK` of an FRCT flow that finds a rendez-vous packet
answers it, and waits until there is room for the answer, with the flows locked. -/
theorem C75_nonblocking_read_violated (cs : Nat → List Call) (f : Nat) (rounds : List Round) (e : ReadEnd)
    (xs : List Call)
    (h : cs 0 = .read f true false (⟨some true, some (.rdv .sent)⟩ :: rounds) e :: xs) : Stalls cs (.room f) := by
  have ho : ∀ j, j ≠ 0 → ((start cs).thr j).held = [] := fun j _ => start_held cs j
  refine stalls_of (h := [(.ai, .rd)])
    (p := touch (.txRing f) .wr ++ (fsetTouch ++ (rdrbRemove ++ (.rel .ai ::
      (flowRead f true false rounds e ++ xs.flatMap trace)))))
    (from_start h (p := .acq .ai .rd :: (touch (.frcti f) .wr ++ (.rel .ai :: (touch (.rxRing f) .wr ++ (touch .ai .wr ++
      (.acq .ai .rd :: (touch (.frcti f) .wr ++ (.wait .memory :: (touch .rdrb .wr ++ (.wait (.room f) ::
      (touch (.txRing f) .wr ++ (fsetTouch ++ (rdrbRemove ++ (.rel .ai ::
      (flowRead f true false rounds e ++ xs.flatMap trace))))))))))))))) ?_ ?_)
    (by simp)
  · simp [trace, flowRead, readRound, flowRx, frctiRcv, sendPkt, queuedPdu, rxTouch, rdrbAllocB, ringWriteB, under, touch]
  refine (put_acq ho (by simp)).trans ?_
  refine (put_touch ho (by simp)).trans ?_
  refine put_rel.trans ?_
  refine (put_touch ho (by simp)).trans ?_
  refine (put_touch ho (by simp)).trans ?_
  refine (put_acq ho (by simp)).trans ?_
  refine (put_touch ho (by simp)).trans ?_
  refine (put_wait (s := start cs) trivial).trans ?_
  exact put_touch ho (by simp)

/-- **C75 violated: deallocation.**  Deallocating a flow waits with the flows locked until the other side has read all
packets. -/
theorem C75_dealloc_violated (cs : Nat → List Call) (f : Nat) (xs : List Call)
    (h : cs 0 = .dealloc f false false [([⟨none, none⟩], .empty, none)] :: xs) : Stalls cs (.drained f) := by
  have ho : ∀ j, j ≠ 0 → ((start cs).thr j).held = [] := fun j _ => start_held cs j
  refine stalls_of (h := [(.ai, .rd)])
    (p := touch (.txRing f) .wr ++ (.rel .ai :: (flowFini f false false ++ xs.flatMap trace)))
    (from_start h (p := touch .ai .rd ++ (touch .ai .rd ++ (.wait (.packet f) :: (touch (.rxRing f) .wr ++
      (touch .ai .rd ++ (.acq .ai .rd :: .wait (.drained f) ::
      (touch (.txRing f) .wr ++ (.rel .ai :: (flowFini f false false ++ xs.flatMap trace))))))))) ?_ ?_)
    (by simp)
  · simp [trace, flowRead, readRound, flowRx, ringReadB, ringFini, under, touch]
  refine (put_touch ho (by simp)).trans ?_
  refine (put_touch ho (by simp)).trans ?_
  refine (put_wait (s := start cs) trivial).trans ?_
  refine (put_touch ho (by simp)).trans ?_
  refine (put_touch ho (by simp)).trans ?_
  exact put_acq ho (by simp)

/-- Two threads that write to different flows, the second without blocking. -/
example : ∃ cs : Nat → List Call, cs 0 = [.write 3 .noFrct none true true] ∧
    cs 1 = [.write 4 .noFrct none false true] ∧ Stalls cs (.room 3) :=
  ⟨fun i => if i = 0 then [.write 3 .noFrct none true true] else [.write 4 .noFrct none false true], rfl, rfl,
    C75_full_flow_violated _ 3 true [] rfl⟩

end Ouro.Locks
