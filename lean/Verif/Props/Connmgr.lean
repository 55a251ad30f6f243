import Verif.Proof.Connmgr

/-!
# C49: the connection manager
-/

namespace Ouro.Connmgr

/-- **C49, once.** In every history without a crash, an incoming connection is accepted once at most and returned at most as often as it is accepted: never twice, and never one
that did not come in; it is returned to the component that it was accepted for. -/
theorem C49_once (ops : List Op) {x : State × Log} (h : run init ops = .ok x) (id : Nat) (c : Conn) :
    seen x.2 (.returned id c) ≤ seen x.2 (.accepted id c) ∧ seen x.2 (.accepted id c) ≤ 1 := by
  have hI := inv_run ops h
  have h1 := hI.pend_ id c
  have h2 := hI.one id c
  omega

theorem waits (n : Nat) : ∀ (s : State) (id : Nat) (c : Comp), s.comps id = some c → n ≤ c.pending.length →
    ∃ y c', run s (List.replicate n (.wait id)) = .ok y ∧ y.1.comps id = some c' ∧ c'.pending = c.pending.drop n := by
  induction n with
  | zero => intro s id c hc _; exact ⟨(s, []), c, rfl, hc, by simp⟩
  | succ n ih =>
    intro s id c hc hn
    cases hp : c.pending with
    | nil => rw [hp] at hn; simp at hn
    | cons a l =>
      have hs : step s (.wait id) = .ok ({ s with comps := upd s.comps id (some { c with pending := l, conns := a :: c.conns }) }, .returned id a) := by
        simp only [step, hc, hp]
      obtain ⟨y, c', h1, h2, h3⟩ := ih { s with comps := upd s.comps id (some { c with pending := l, conns := a :: c.conns }) } id _ (upd_same _ _ _)
        (by rw [hp] at hn; simpa using hn)
      refine ⟨(y.1, (.wait id, .returned id a) :: y.2), c', ?_, h2, by simpa using h3⟩
      rw [List.replicate_succ]
      simp only [run, hs, Outcome.bind_ok, h1, Outcome.pure_eq]

/-- **C49, all.** After every history without a crash, as many calls of `connmgr_wait` as there are connections waiting for a component succeed, and then every connection accepted
for that component was returned, exactly once. -/
theorem C49_all (ops : List Op) {x : State × Log} (h : run init ops = .ok x) (id : Nat) (info : Info) (hr : (Op.compInit id info, Out.done) ∈ x.2) :
    ∃ y, run init (ops ++ List.replicate (waiting x.2 id) (.wait id)) = .ok y ∧ ∀ c, seen y.2 (.accepted id c) = seen y.2 (.returned id c) := by
  have hI := inv_run ops h
  have hlen := hI.len id
  have hreg : ∃ c, x.1.comps id = some c := by
    clear hlen hI
    induction ops using List.reverseRecOn generalizing x with
    | nil => simp only [run] at h; cases h; simp at hr
    | append_singleton ops op ih =>
      obtain ⟨y, r, h1, h2, rfl⟩ := run_snoc ops op h
      rcases List.mem_append.1 hr with h3 | h3
      · obtain ⟨c, hc⟩ := ih h1 h3
        obtain ⟨c', hc', _⟩ := comps_mono h2 hc
        exact ⟨c', hc'⟩
      · simp only [List.mem_singleton] at h3
        obtain ⟨s', o⟩ := r
        simp only [Prod.mk.injEq] at h3
        obtain ⟨rfl, rfl⟩ := h3
        simp only [step] at h2
        split at h2
        · cases h2; exact ⟨_, upd_same _ _ _⟩
        · cases h2
  obtain ⟨c, hc⟩ := hreg
  have hw : waiting x.2 id = c.pending.length := by
    have : pend x.1 id = c.pending := by simp [pend, hc]
    rw [this] at hlen
    unfold waiting; omega
  obtain ⟨y, c', h1, h2, h3⟩ := waits (waiting x.2 id) x.1 id c hc (by omega)
  have hrun := run_append ops _ h h1
  refine ⟨_, hrun, ?_⟩
  intro d
  have := (inv_run _ hrun).pend_ id d
  have hp : pend y.1 id = [] := by simp [pend, h2, h3, hw]
  simp only [hp, List.count_nil] at this
  exact this

theorem held_open {s : State} {l : Log} (hI : Inv s l) (id : Nat) (c : Conn) : c ∈ held s id ↔ open_ l id c := by
  have h1 := hI.held_ id c
  have h2 := hI.pend_ id c
  have h3 := hI.open_ id c
  have h4 := hI.one id c
  rw [← List.count_pos_iff]
  unfold open_
  rw [seen_pos, seen_pos, seen_zero]
  omega

/-- **C49, found.** After every history without a crash, an event of a flow finds a connection if and only if some connection on that descriptor was handed to the data transfer
component and not disconnected since, and the connection found is one of these. -/
theorem C49_found (ops : List Op) {x : State × Log} (h : run init ops = .ok x) (fd : Nat) {r : State × Out} (hr : step x.1 (.event fd) = .ok r) :
    (∀ c, r.2 = .found (some c) → c.fd = fd ∧ open_ x.2 DT c) ∧ (r.2 = .found none → ∀ c, open_ x.2 DT c → c.fd ≠ fd) ∧ ∃ o, r.2 = .found o := by
  have hI := inv_run ops h
  simp only [step] at hr
  split at hr
  · cases hr
  · rename_i d hd
    cases hr
    have hh : held x.1 DT = d.conns := by simp [held, hd]
    refine ⟨?_, ?_, _, rfl⟩
    · intro c hc
      simp only [Out.found.injEq] at hc
      refine ⟨by simpa using List.find?_some hc, ?_⟩
      rw [← held_open hI, hh]; exact List.mem_of_find?_eq_some hc
    · intro hn c hc
      simp only [Out.found.injEq, List.find?_eq_none] at hn
      rw [← held_open hI, hh] at hc
      simpa using hn c hc

/-- **C49, found, by itself.** From the time it is handed to the data transfer component until it is disconnected, a connection is found by its descriptor, if it is the only such
connection on that descriptor. What is missing: the component can close a flow without telling the connection manager, and then the descriptor may be used again. -/
theorem C49_found_partial (ops : List Op) {x : State × Log} (h : run init ops = .ok x) (c : Conn) (ho : open_ x.2 DT c)
    (hu : ∀ c', open_ x.2 DT c' → c'.fd = c.fd → c' = c) : step x.1 (.event c.fd) = .ok (x.1, .found (some c)) := by
  have hI := inv_run ops h
  have hm := (held_open hI DT c).2 ho
  have : ∃ d, x.1.comps DT = some d := by
    cases hd : x.1.comps DT with
    | none => simp [held, hd] at hm
    | some d => exact ⟨d, rfl⟩
  obtain ⟨d, hd⟩ := this
  have hs : step x.1 (.event c.fd) = .ok (x.1, .found (d.conns.find? (fun y => y.fd = c.fd))) := by simp only [step, hd]
  have hf := C49_found ops h c.fd hs
  cases hfd : d.conns.find? (fun y => y.fd = c.fd) with
  | none => rw [hfd] at hf; exact absurd rfl (hf.2.1 rfl c ho)
  | some c' =>
    rw [hfd] at hf hs
    obtain ⟨h1, h2⟩ := hf.1 c' rfl
    rw [hu c' h2 h1] at hs
    exact hs

/-- **C49, agreed.** A connect succeeds only if the component that was named is registered, the flow was allocated, the peer answered, and both sides have the same protocol, version
and syntax; the connection carries the descriptor of the flow and the information of the peer. -/
theorem C49_agreed (ops : List Op) {x : State × Log} (h : run init ops = .ok x) (dst comp : Str) (flow : Option Nat) (peer : Option Info) {r : State × Out}
    (hr : step x.1 (.connect dst comp flow peer) = .ok r) (id : Nat) (c : Conn) (ho : r.2 = .opened id c) :
    flow = some c.fd ∧ peer = some c.info ∧ ∃ info, (Op.compInit id info, Out.done) ∈ x.2 ∧ info.name = comp ∧ agree info c.info := by
  simp only [step] at hr
  split at hr
  · cases hr; cases ho
  · rename_i j hj
    split at hr
    · cases hr
    · rename_i d hd
      split at hr
      · cases hr; cases ho
      · split at hr
        · cases hr; cases ho
        · split at hr
          · rename_i hm
            cases hr
            simp only [Out.opened.injEq] at ho
            obtain ⟨rfl, rfl⟩ := ho
            refine ⟨rfl, rfl, d.info, registered ops h j d hd, ?_, by simpa [matches_, agree] using hm⟩
            have := List.find?_some hj
            simpa [hd, nameOf] using this
          · cases hr; cases ho

/-- **C49, refused.** If the sides do not agree, or the peer does not answer, the flow is deallocated and nothing else happens: there is no connection. -/
theorem C49_refused (ops : List Op) {x : State × Log} (h : run init ops = .ok x) (dst comp : Str) (fd : Nat) (peer : Option Info) {r : State × Out}
    (hr : step x.1 (.connect dst comp (some fd) peer) = .ok r)
    (hp : ∀ id info p, (Op.compInit id info, Out.done) ∈ x.2 → info.name = comp → peer = some p → ¬ agree info p) :
    r = (x.1, .refused fd) ∨ (r = (x.1, .ret (-1)) ∧ ∀ id info, id < maxId → (Op.compInit id info, Out.done) ∈ x.2 → info.name ≠ comp) := by
  simp only [step] at hr
  split at hr
  · rename_i hn
    cases hr
    refine .inr ⟨rfl, ?_⟩
    intro id info hid hm hname
    simp only [getId, List.find?_eq_none, List.mem_range] at hn
    refine hn id hid ?_
    have : ∃ c, x.1.comps id = some c ∧ c.info = info := by
      clear hn hp
      induction ops using List.reverseRecOn generalizing x with
      | nil => simp only [run] at h; cases h; simp at hm
      | append_singleton ops op ih =>
        obtain ⟨y, r, h1, h2, rfl⟩ := run_snoc ops op h
        rcases List.mem_append.1 hm with h3 | h3
        · obtain ⟨c, hc, hci⟩ := ih h1 h3
          obtain ⟨c', hc', hi⟩ := comps_mono h2 hc
          exact ⟨c', hc', hi.trans hci⟩
        · simp only [List.mem_singleton] at h3
          obtain ⟨s', o⟩ := r
          simp only [Prod.mk.injEq] at h3
          obtain ⟨rfl, rfl⟩ := h3
          simp only [step] at h2
          split at h2
          · cases h2; exact ⟨_, upd_same _ _ _, rfl⟩
          · cases h2
    obtain ⟨c, hc, rfl⟩ := this
    simpa [hc, nameOf] using hname
  · rename_i j hj
    split at hr
    · cases hr
    · rename_i d hd
      split at hr
      · cases hr; exact .inl rfl
      · rename_i p
        split at hr
        · rename_i hm
          exfalso
          refine hp j d.info p (registered ops h j d hd) ?_ rfl (by simpa [matches_, agree] using hm)
          have := List.find?_some hj
          simpa [hd, nameOf] using this
        · cases hr; exact .inl rfl

/-- **C49, refused, incoming.** An incoming connection for a component that is not registered is refused, if it has a name. (For the empty name see below.) -/
theorem C49_unknown_partial (ops : List Op) {x : State × Log} (h : run init ops = .ok x) (fd : Nat) (rcv : Info) (sent : Bool) (hne : rcv.name ≠ [])
    (hn : ∀ id info, (Op.compInit id info, Out.done) ∈ x.2 → info.name ≠ rcv.name) : step x.1 (.accept fd rcv sent) = .ok (x.1, .refused fd) := by
  have : getId x.1 rcv.name = none := by
    simp only [getId, List.find?_eq_none, List.mem_range]
    intro i hi
    cases hc : x.1.comps i with
    | none => simpa [nameOf] using hne.symm
    | some c => intro hh; exact hn i c.info (registered ops h i c hc) (of_decide_eq_true hh)
  simp only [step, this]

/-- **C49, incoming.** A connection is accepted only if it was answered, for a component registered under the name that was asked for; it carries the descriptor of the flow and the
information of the peer. -/
theorem C49_incoming (ops : List Op) {x : State × Log} (h : run init ops = .ok x) (fd : Nat) (rcv : Info) (sent : Bool) {r : State × Out}
    (hr : step x.1 (.accept fd rcv sent) = .ok r) : r = (x.1, .refused fd) ∨
      ∃ id c, r.2 = .accepted id c ∧ sent = true ∧ c.fd = fd ∧ c.info = rcv ∧ ∃ info, (Op.compInit id info, Out.done) ∈ x.2 ∧ info.name = rcv.name := by
  simp only [step] at hr
  split at hr
  · cases hr; exact .inl rfl
  · rename_i j hj
    split at hr
    · cases hr; exact .inl rfl
    · rename_i hs
      split at hr
      · cases hr
      · rename_i d hd
        cases hr
        refine .inr ⟨j, _, rfl, by simpa using hs, rfl, rfl, d.info, registered ops h j d hd, ?_⟩
        have := List.find?_some hj
        simpa [hd, nameOf] using this

/-! ## Witnesses -/

/-- The data transfer component. -/
def dtInfo : Info := ⟨"dt".toList, "dtp".toList, 1, 2⟩
/-- One with a different version. -/
def dtOther : Info := ⟨"dt".toList, "dtp".toList, 7, 2⟩

/-- What is seen in a history, `none` if it is undefined. -/
def outs (ops : List Op) : Option (List Out) := match run init ops with
  | .ok x => some (x.2.map (·.2))
  | .ub => none

/-- Two connections come in and are returned; one is opened and found until it is disconnected. -/
example : outs [.compInit 0 dtInfo, .accept 70 dtInfo true, .accept 71 dtInfo true, .wait 0, .wait 0, .wait 0, .event 70] =
    some [.done, .accepted 0 ⟨0, 70, dtInfo, none⟩, .accepted 0 ⟨1, 71, dtInfo, none⟩, .returned 0 ⟨1, 71, dtInfo, none⟩, .returned 0 ⟨0, 70, dtInfo, none⟩, .no,
      .found (some ⟨0, 70, dtInfo, none⟩)] := by decide +kernel

example : outs [.compInit 0 dtInfo, .connect ['b'] "dt".toList (some 70) (some dtInfo), .insert 0, .event 70, .disconnect ['b'] "dt".toList, .remove 0, .event 70,
      .connect ['b'] "dt".toList (some 71) (some dtOther), .connect ['b'] "xx".toList (some 71) (some dtOther), .accept 72 ⟨"xx".toList, [], 1, 1⟩ true] =
    some [.done, .opened 0 ⟨0, 70, dtInfo, some ['b']⟩, .inserted 0 ⟨0, 70, dtInfo, some ['b']⟩, .found (some ⟨0, 70, dtInfo, some ['b']⟩), .done,
      .closed 0 ⟨0, 70, dtInfo, some ['b']⟩, .found none, .refused 71, .ret (-1), .refused 72] := by decide +kernel

/-- **C49 is violated: incoming connections are not checked.** A peer with a different version is refused if we connect to it, but not if it connects to us. -/
theorem C49_refused_violated : ∃ ops x, run init ops = .ok x ∧ ¬ agree dtInfo dtOther ∧ (Op.compInit 0 dtInfo, Out.done) ∈ x.2 ∧
    seen x.2 (.returned 0 ⟨0, 70, dtOther, none⟩) = 1 := by
  cases h : run init [.compInit 0 dtInfo, .accept 70 dtOther true, .wait 0] with
  | ub => exact absurd h (by
      intro h
      have : outs [.compInit 0 dtInfo, .accept 70 dtOther true, .wait 0] ≠ none := by decide +kernel
      simp only [outs, h] at this; exact this rfl)
  | ok x =>
    refine ⟨_, x, h, by unfold agree; decide, ?_, ?_⟩ <;> (cases h; decide +kernel)

/-- **C49 is violated: a peer can crash an IPCP.** In an IPCP that does not register all components, as the broadcast IPCP, an incoming connection for the component with the empty
name is added to the list of a component that was never initialised. -/
theorem C49_empty_name_violated (i j : Info) (hi : i.name ≠ []) (hj : j.name ≠ []) (fd : Nat) (p : Str) (v t : Nat) :
    run init [.compInit 0 i, .compInit 1 j, .accept fd ⟨[], p, v, t⟩ true] = .ub := by
  simp [run, step, init, getId, maxId, List.range, List.range.loop, List.find?, nameOf, upd, hi, hj]

/-- **C49 is violated: two disconnects at the same time take the same connection.** The search is done under the lock, the removal is not: the second frees it again. -/
theorem C49_disconnect_twice_violated :
    outs [.compInit 0 dtInfo, .connect ['b'] "dt".toList (some 70) (some dtInfo), .insert 0, .disconnect ['b'] "dt".toList, .disconnect ['b'] "dt".toList, .remove 0] ≠ none ∧
    outs [.compInit 0 dtInfo, .connect ['b'] "dt".toList (some 70) (some dtInfo), .insert 0, .disconnect ['b'] "dt".toList, .disconnect ['b'] "dt".toList, .remove 0, .remove 0] = none := by
  decide +kernel

/-- **C49 is violated: a disconnect compares names that were never set.** The destination of a connection that came in is not initialised. -/
theorem C49_uninitialised_violated : outs [.compInit 0 dtInfo, .accept 70 dtInfo true, .wait 0] ≠ none ∧
    outs [.compInit 0 dtInfo, .accept 70 dtInfo true, .wait 0, .disconnect ['b'] "dt".toList] = none := by decide +kernel

/-- **C49 is violated: a connection to a long destination cannot be disconnected.** The name is cut off at 64 characters, the disconnect reports success, and the connection stays. -/
theorem C49_long_violated (dst : Str) (h : dstMax < dst.length) :
    outs [.compInit 0 dtInfo, .connect dst "dt".toList (some 70) (some dtInfo), .insert 0, .disconnect dst "dt".toList, .event 70] =
      some [.done, .opened 0 ⟨0, 70, dtInfo, some (dst.take dstMax)⟩, .inserted 0 ⟨0, 70, dtInfo, some (dst.take dstMax)⟩, .ret 0,
        .found (some ⟨0, 70, dtInfo, some (dst.take dstMax)⟩)] := by
  have hne : dst.take dstMax ≠ dst := by
    intro he
    have := congrArg List.length he
    simp only [List.length_take] at this
    omega
  simp [outs, run, step, init, getId, maxId, List.range, List.range.loop, List.find?, nameOf, upd, matches_, scan, hne, DT, dtInfo]

/-- **C49 is violated: events are lost before the insertion.** A connect allocates the flow and tells the components before the connection is in the list: an event of the flow in
between finds nothing. -/
theorem C49_event_violated : outs [.compInit 0 dtInfo, .connect ['b'] "dt".toList (some 70) (some dtInfo), .event 70, .insert 0] =
    some [.done, .opened 0 ⟨0, 70, dtInfo, some ['b']⟩, .found none, .inserted 0 ⟨0, 70, dtInfo, some ['b']⟩] := by decide +kernel

end Ouro.Connmgr
