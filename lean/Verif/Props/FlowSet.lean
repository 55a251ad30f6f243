import Verif.Proof.FlowEvents

/-!
# C19, C20 — flow sets and flow events

Both fail in full; each failure has its own refutation below. C19: a flow that is closed while it is in a set stays in the
set under its flow id, and a descriptor between `PROG_MAX_FLOWS` and `SYS_MAX_FLOWS` is outside the table. C20: the queues
have no bound check, removing a flow keeps its events, and one event of a reliable flow can make others disappear.
-/

namespace Ouro.FlowSet

open Spec.FlowSets

theorem Reach.inv {p : Proc} {t : Track} (h : Reach Valid p t) : Inv p t := by
  induction h with
  | init mem => exact init_inv mem
  | step _ hv hs ih =>
    obtain ⟨q, r, e, h1, h2⟩ := ih.step _ hv
    rw [h1] at hs
    cases Outcome.ok.inj hs
    exact h2

theorem Reach.raw {p : Proc} {t : Track} (h : Reach ValidRaw p t) : Inv p t ∧ EInv p t := by
  induction h with
  | init mem =>
    refine ⟨init_inv mem, ?_, ?_, ?_, ?_⟩
    · intro _ _ h; cases h
    · intro _ h; cases h
    · intro _ _ h; cases h
    · intro _ _; exact ⟨[], .nil, rfl⟩
  | step _ hv hs ih =>
    obtain ⟨q, r, e, h1, h2⟩ := ih.1.step _ hv.1
    obtain ⟨q', r', e', h3, h4⟩ := ih.2.step ih.1 _ hv
    rw [h1] at h3
    cases Outcome.ok.inj h3
    rw [h1] at hs
    cases Outcome.ok.inj hs
    exact ⟨h2, h4⟩

/-- C19, membership: `fset_has` answers true exactly if the user's view says that the set holds the descriptor: added and
neither removed, zeroed nor closed since. For every history of valid calls, reliable flows included, and every descriptor
value. Missing: flow ids of flows that were closed while in a set, and descriptors from 4096 to 10239 (both refuted). -/
theorem C19_has_partial {p : Proc} {t : Track} (h : Reach Valid p t) {s : Nat} {fd : Int} (hv : Valid p t (.has s fd)) :
    fsetHas p s fd = .ok (decide (t.user.set fd = some s)) :=
  h.inv.has hv.1 hv.2.1 hv.2.2.2

/-- C19, results of `fset_add`: `-EINVAL` for a descriptor that is not open, `-EPERM` for one that is in a set, and then
nothing at all has changed; 0 otherwise, and then the set holds it. -/
theorem C19_add_partial {p : Proc} {t : Track} (h : Reach Valid p t) {s : Nat} {fd : Int} (hv : Valid p t (.add s fd)) :
    (t.user.open_ fd = none → fsetAdd p s fd = .ok (p, -EINVAL)) ∧
    (t.user.open_ fd ≠ none → t.user.set fd ≠ none → fsetAdd p s fd = .ok (p, -EPERM)) ∧
    (t.user.open_ fd ≠ none → t.user.set fd = none →
      ∃ q, fsetAdd p s fd = .ok (q, 0) ∧ fsetHas q s fd = .ok true ∧
        ∀ s' fd', s' ≠ 0 → s' < maxSets → FdOk fd' → fd' ≠ fd → fsetHas q s' fd' = fsetHas p s' fd') := by
  have i := h.inv
  rcases i.add hv.1 hv.2.1 hv.2.2.1 hv.2.2.2.1 hv.2.2.2.2 with ⟨h1, h2⟩ | ⟨h1, h2, h3⟩ | ⟨n, f, m, hn, hf, ho, hset, hm, hr⟩
  · exact ⟨fun _ => h2, fun hc => absurd h1 hc, fun hc => absurd h1 hc⟩
  · exact ⟨fun hc => absurd hc h1, fun _ _ => h3, fun _ hc => absurd hc h2⟩
  · refine ⟨fun hc => (by rw [ho] at hc; cases hc), fun _ hc => absurd hset hc, fun _ _ => ?_⟩
    obtain ⟨q, r, h1, h2⟩ := i.stepAdd hv
    have hi := h2 none
    have hr0 : r = 0 := by
      obtain ⟨-, -, hr⟩ := hr
      split at hr
      · obtain ⟨m', -, h3⟩ := hr
        rw [h1] at h3; cases Outcome.ok.inj h3; rfl
      · rw [h1] at hr; cases Outcome.ok.inj hr; rfl
    subst hr0
    obtain ⟨hu, -, -⟩ := after_add_user t (queuedOf p) (.int 0) none s fd
    have hus : (t.after (queuedOf p) (.int 0) none (.add s fd)).user.set =
        fun x => if x = fd then some s else t.user.set x := by
      rw [hu]; unfold Spec.FlowSets.after; dsimp only
      rw [if_pos ⟨by rw [ho]; simp, hset⟩]
    refine ⟨q, h1, ?_, ?_⟩
    · rw [hi.has hv.1 hv.2.1 hv.2.2.2.1, hus]; simp
    · intro s' fd' h0 hs' hfd' hne
      rw [hi.has h0 hs' hfd', i.has h0 hs' hfd', hus]
      simp [hne]

/-- C19, at most one set: no two different sets hold the same descriptor. -/
theorem C19_one_set {p : Proc} {t : Track} (h : Reach Valid p t) {s s' : Nat} {fd : Int} (hv : Valid p t (.has s fd))
    (hv' : Valid p t (.has s' fd)) (h1 : fsetHas p s fd = .ok true) (h2 : fsetHas p s' fd = .ok true) : s = s' := by
  rw [C19_has_partial h hv] at h1
  rw [C19_has_partial h hv'] at h2
  have h1 := of_decide_eq_true (Outcome.ok.inj h1)
  have h2 := of_decide_eq_true (Outcome.ok.inj h2)
  rw [h1] at h2
  exact Option.some.inj h2

/-- C19: valid calls never run into undefined behaviour, and a flow can be opened on any free descriptor and flow id. -/
theorem C19_calls_partial {p : Proc} {t : Track} (h : Reach Valid p t) :
    (∀ o, Valid p t o → ∃ x, step p o = .ok x) ∧
    ∀ fd id frct, Valid p t (.flowInit fd id frct) → ∃ q, flowInit p fd id frct = .ok (q, true) := by
  refine ⟨fun o hv => ?_, fun fd id frct hv => ?_⟩
  · obtain ⟨q, r, e, h1, _⟩ := h.inv.step o hv
    exact ⟨_, h1⟩
  · obtain ⟨q, h1, _⟩ := h.inv.stepInit hv
    exact ⟨q, h1⟩

/-- C20 for processes without reliable flows: what `fqueue_next` has returned for a set, followed by what is still queued,
is what was notified for flows that were in the set at the time, in that order and each exactly once; the only exceptions
are events that were undelivered when the set was zeroed and packet events of closed flows. When `fevent` times out nothing
is queued any more. Missing: reliable flows, more than `SHM_BUFFER_SIZE` undelivered events, notifications for flows
closed while in a set, and that removing a flow from the set removes its events (all refuted below). -/
theorem C20_stream_partial {p : Proc} {t : Track} (h : Reach ValidRaw p t) {s : Nat} (hs : t.inUse s = true) :
    ∃ todo : List Ev, Reads t.dead (t.log s) (t.out s ++ todo) ∧
      ∀ q, fevent p s = .ok (q, .int (-ETIMEDOUT)) → todo = [] := by
  obtain ⟨i, e⟩ := h.raw
  refine ⟨pending p s, e.reads s hs, ?_⟩
  intro q hq
  unfold fevent at hq
  dsimp only at hq
  split at hq
  · have := (Prod.mk.inj (Outcome.ok.inj hq)).2
    exact absurd (Ret.int.inj this) (by decide)
  · next hc =>
    have hrest : (p.fq s).evs.drop (p.fq s).next = [] := by
      refine List.drop_eq_nil_of_le ?_
      by_cases hl : (p.fq s).looping = true
      · rw [e.loop s hl]
      · have hl' : (p.fq s).looping = false := by simpa using hl
        rw [hl'] at hc
        simp only [true_and, not_and, ne_eq, Decidable.not_not] at hc
        by_cases h0 : (p.fq s).evs.length > 0
        · rw [hc h0]
        · omega
    unfold pending
    rw [hrest, List.nil_append]
    by_cases hh : p.shm.heads s = 0
    · exact shmQ_heads_zero hh
    · exfalso
      unfold shmWait at hq
      by_cases hlt : s < maxSets
      · rw [if_pos hlt, if_neg hh, if_pos (i.heads s), Outcome.bind_ok] at hq
        dsimp only at hq
        cases hf : fqueueFilter { p with
            shm := { p.shm with heads := upd p.shm.heads s 0 },
            fq := upd p.fq s { evs := (List.range (p.shm.heads s)).map fun j => p.shm.mem (qSize * s + j), next := 0,
                               looping := false } } s with
        | ub => rw [hf] at hq; cases hq
        | ok x =>
          rw [hf, Outcome.bind_ok] at hq
          split at hq
          · have := (Prod.mk.inj (Outcome.ok.inj hq)).2
            exact absurd (Ret.int.inj this) (by decide)
          · have := (Prod.mk.inj (Outcome.ok.inj hq)).2
            cases this
      · rw [if_neg hlt] at hq; cases hq

/-- C20 when no flow is closed and the set is not zeroed: the events returned are exactly the events notified, in order,
up to those still queued. -/
theorem C20_exact_partial {p : Proc} {t : Track} (h : Reach ValidRaw p t) {s : Nat} (hs : t.inUse s = true)
    (hd : ∀ id, t.dead id = false) (hz : ∀ e ∈ t.log s, e.2 = false) :
    ∃ todo : List Ev, (t.log s).map Prod.fst = t.out s ++ todo ∧
      ∀ q, fevent p s = .ok (q, .int (-ETIMEDOUT)) → t.out s = (t.log s).map Prod.fst := by
  obtain ⟨todo, ⟨l, h1, h2⟩, h3⟩ := C20_stream_partial h hs
  have key : ∀ {a b : List (Ev × Bool)}, Thinned (Lost t.dead) a b → (∀ e ∈ a, e.2 = false) → b = a := by
    intro a b hab
    induction hab with
    | nil => intro _; rfl
    | keep _ ih => intro ha; rw [ih fun e he => ha e (List.mem_cons_of_mem _ he)]
    | drop hp _ _ =>
      intro ha
      rcases hp with hp | hp
      · rw [ha _ List.mem_cons_self] at hp; cases hp
      · rw [hd] at hp; cases hp.2
  have := key h1 hz
  subst this
  refine ⟨todo, h2, fun q hq => ?_⟩
  rw [h2, h3 q hq, List.append_nil]

/-- C20, what the user sees of an event: `fqueue_next` returns the descriptor of the flow (`-1` if it is not open) and
`fqueue_type` then returns the type of the event. For every process state, reliable flows included. -/
theorem C20_next_reports {p : Proc} {t : Track} (h : Reach Valid p t) {s : Nat} {q : Proc} {fd : Int} {e : Ev}
    (hn : fqueueNext p s = .ok (q, fd, some e)) :
    fd = (t.user.fdOf e.flow).getD (-1) ∧ fqueueType q s = .ok e.event := by
  have i := h.inv
  unfold fqueueNext at hn
  dsimp only at hn
  split at hn
  · have := (Prod.mk.inj (Prod.mk.inj (Outcome.ok.inj hn)).2).2; cases this
  · next hne =>
    have hnx := i.fqNext s
    obtain ⟨q', n', r, h1, h2, h3, h4, h5, h6, h7, h8, h9⟩ : ∃ q n' r, filterNext p s = .ok (q, r) ∧ q.flows = p.flows ∧
        q.idToFd = p.idToFd ∧ q.sets = p.sets ∧ q.shm = p.shm ∧ q.fq = upd p.fq s { p.fq s with next := n' } ∧
        (p.fq s).next ≤ n' ∧ n' ≤ (p.fq s).evs.length ∧ (r = true → n' < (p.fq s).evs.length) := by
      unfold filterNext
      split
      · exact fqueueFilter_ok i.linked s (i.fqNext s)
      · refine ⟨p, (p.fq s).next, true, rfl, rfl, rfl, rfl, rfl, ?_, Nat.le_refl _, hnx, fun _ => by omega⟩
        funext x; dsimp only [upd]; split
        · next hx => subst hx; rfl
        · rfl
    rw [h1, Outcome.bind_ok] at hn
    dsimp only at hn
    split at hn
    · have := (Prod.mk.inj (Prod.mk.inj (Outcome.ok.inj hn)).2).2; cases this
    · next hr =>
      have hlt := h9 (by simpa using hr)
      have hq : (q'.fq s) = { p.fq s with next := n' } := by rw [h6, upd_same]
      have hrd : rd (q'.fq s).evs (q'.fq s).next = .ok ((p.fq s).evs[n']) := by
        rw [hq]; unfold rd; dsimp only; rw [List.getElem?_eq_getElem hlt]
      rw [hrd, Outcome.bind_ok] at hn
      have hx := Outcome.ok.inj hn
      have hq' := (Prod.mk.inj hx).1
      have hfd := (Prod.mk.inj (Prod.mk.inj hx).2).1
      have he := Option.some.inj (Prod.mk.inj (Prod.mk.inj hx).2).2
      subst he
      refine ⟨?_, ?_⟩
      · rw [← hfd, h3, i.fdOf]
        cases p.idToFd (p.fq s).evs[n'].flow <;> rfl
      · rw [← hq']
        unfold fqueueType
        dsimp only
        rw [upd_same, hq]
        dsimp only
        rw [if_neg (by omega)]
        unfold rd
        rw [Nat.add_sub_cancel, List.getElem?_eq_getElem hlt]
        rfl

/-! ## Histories -/

instance (p : Proc) (id : Nat) : Decidable (Room p id) := by unfold Room; split <;> infer_instance
instance (fd : Int) : Decidable (FdOk fd) := by unfold FdOk; infer_instance

instance (p : Proc) (t : Track) : DecidablePred (Valid p t) := by
  intro o; cases o <;> unfold Valid <;> infer_instance

instance (p : Proc) (t : Track) : DecidablePred (ValidRaw p t) := by
  intro o; cases o <;> unfold ValidRaw <;> infer_instance

/-- Run operations with the bookkeeping; collects the results. -/
def exec : Proc × Track → List Op → Outcome ((Proc × Track) × List Ret)
  | s, [] => .ok (s, [])
  | s, o :: os => do
    let (q, r, e) ← step s.1 o
    let (s', rs) ← exec (q, s.2.after (queuedOf s.1) r e o) os
    return (s', r :: rs)

/-- Every operation is valid when it is run. -/
def allowed (ok : Proc → Track → Op → Bool) : Proc × Track → List Op → Bool
  | _, [] => true
  | s, o :: os => ok s.1 s.2 o &&
    match step s.1 o with
    | .ok (q, r, e) => allowed ok (q, s.2.after (queuedOf s.1) r e o) os
    | .ub => false

/-- A process that has just started, on zeroed shared memory. -/
def fresh : Proc × Track := (init fun _ => ⟨0, 0⟩, Track.init)

/-- The results of a history. -/
def results (os : List Op) : Option (List Ret) :=
  match exec fresh os with
  | .ok (_, rs) => some rs
  | .ub => none

/-- What the user expects of a membership query after a history. -/
def expects (os : List Op) (s : Nat) (fd : Int) : Option Bool :=
  match exec fresh os with
  | .ok ((_, t), _) => some (decide (t.user.set fd = some s))
  | .ub => none

/-- Events recorded and returned for a set after a history. -/
def streams (os : List Op) (s : Nat) : Option (List (Ev × Bool) × List Ev) :=
  match exec fresh os with
  | .ok ((_, t), _) => some (t.log s, t.out s)
  | .ub => none

/-- Non-vacuity: two sets, raw and reliable flows, a second `fset_add` that is refused, deletion, zeroing and closing. -/
def sample : List Op :=
  [.create 1, .create 2, .flowInit 64 7 false, .flowInit 65 9 true, .add 1 64, .add 2 64, .add 2 65, .has 1 64, .has 2 64,
   .has 2 65, .del 2 65, .has 2 65, .add 1 65, .zero 1, .has 1 65, .add 2 (-1), .add 2 99, .has 2 20000, .add 2 64,
   .del 2 64, .flowFini 64, .destroy 2]

example : allowed (fun p t o => decide (Valid p t o)) fresh sample = true := by decide +kernel

example : results sample = some [.unit, .unit, .bool true, .bool true, .int 0, .int (-EPERM), .int 0, .bool true,
    .bool false, .bool true, .unit, .bool false, .int 0, .unit, .bool false, .int (-EINVAL), .int (-EINVAL), .bool false,
    .int 0, .unit, .unit, .unit] := by decide +kernel

/-- Non-vacuity of the event theorems: events of two flows, one of them notified before it is in the set (discarded), one
that has a packet waiting when it is added, and a flow that is closed with a packet event queued. -/
def sampleEvents : List Op :=
  [.create 1, .flowInit 64 7 false, .flowInit 65 9 false, .notify 9 FLOW_UP, .add 1 64, .push 9 .data, .add 1 65,
   .notify 7 FLOW_PKT, .fevent 1, .next 1, .notify 9 FLOW_DOWN, .next 1, .next 1, .fevent 1, .next 1, .fevent 1,
   .del 1 64, .notify 9 FLOW_PKT, .notify 9 FLOW_UP, .del 1 65, .flowFini 65, .fevent 1, .next 1]

example : allowed (fun p t o => decide (ValidRaw p t o)) fresh sampleEvents = true := by decide +kernel

example : results sampleEvents = some [.unit, .bool true, .bool true, .unit, .int 0, .unit, .int 0, .unit, .int 1, .int 65,
    .unit, .int 64, .int (-EPERM), .int 1, .int 65, .int (-ETIMEDOUT), .unit, .unit, .unit, .unit, .unit, .int 1,
    .int (-1)] := by decide +kernel

example : streams sampleEvents 1 = some ([(⟨9, 1⟩, false), (⟨7, 1⟩, false), (⟨9, 2⟩, false), (⟨9, 1⟩, false), (⟨9, 4⟩, false)],
    [⟨9, 1⟩, ⟨7, 1⟩, ⟨9, 2⟩, ⟨9, 4⟩]) := by decide +kernel

/-! ## The violations -/

/-- C19 fails when a flow is closed while in a set and its flow id is used again: the new descriptor is in a set it was
never added to, and cannot be added to another one. -/
theorem C19_closed_flow_violated :
    let h : List Op := [.create 1, .create 2, .flowInit 64 7 false, .add 1 64, .flowFini 64, .flowInit 64 7 false]
    results (h ++ [.has 1 64, .add 2 64]) =
      some [.unit, .unit, .bool true, .int 0, .unit, .bool true, .bool true, .int (-EPERM)] ∧
    expects h 1 64 = some false := by decide +kernel

/-- A reliable flow that is closed while in a set makes its flow id unusable for reliable flows in this process. -/
theorem C19_closed_reliable_flow_violated :
    results [.create 1, .flowInit 64 7 true, .add 1 64, .flowFini 64, .flowInit 64 7 true] =
      some [.unit, .bool true, .int 0, .unit, .bool false] := by decide +kernel

/-- C19 fails for descriptors from `PROG_MAX_FLOWS` to `SYS_MAX_FLOWS - 1`: instead of being rejected they are looked up
outside the descriptor table, in every process. -/
theorem C19_descriptor_range_violated (p : Proc) (s : Nat) {fd : Int} (h1 : (progMaxFlows : Int) ≤ fd)
    (h2 : fd < sysMaxFlows) : fsetAdd p s fd = .ub ∧ fsetHas p s fd = .ub ∧ fsetDel p s fd = .ub := by
  have hb : badFd fd = false := by
    have : ¬ badFd fd = true := by
      rw [badFd_eq]
      have hp : (progMaxFlows : Int) = 4096 := rfl
      omega
    simpa using this
  have hf : flowAt p fd = .ub := by unfold flowAt; rw [if_neg (by omega)]
  unfold fsetAdd fsetHas fsetDel
  rw [hb, hf]
  exact ⟨rfl, rfl, rfl⟩

/-- `fset_zero` does not put a reliable flow back under the care of the reliability layer (set 0), `fset_del` does: after
`fset_zero` the notifications for packets of the flow are discarded. -/
theorem C19_zero_reliable_flow_orphaned :
    (match exec fresh [.create 1, .flowInit 64 7 true, .add 1 64, .zero 1, .notify 7 FLOW_PKT] with
      | .ok ((p, _), _) => (p.shm.mtable 7, p.shm.heads 0) | .ub => (some 99, 99)) = (none, 0) ∧
    (match exec fresh [.create 1, .flowInit 64 7 true, .add 1 64, .del 1 64, .notify 7 FLOW_PKT] with
      | .ok ((p, _), _) => (p.shm.mtable 7, p.shm.heads 0) | .ub => (none, 99)) = (some 0, 1) := by decide +kernel

/-- C20 fails on its last clause: an event of a flow that has been removed from the set is delivered. -/
theorem C20_removed_flow_violated :
    results [.create 1, .flowInit 64 7 false, .add 1 64, .notify 7 FLOW_PKT, .del 1 64, .has 1 64, .fevent 1, .next 1] =
      some [.unit, .bool true, .int 0, .unit, .unit, .bool false, .int 1, .int 64] := by decide +kernel

/-- C20 fails for a flow closed while in a set: a later notification is queued, and `fqueue_next` returns `-1`. -/
theorem C20_closed_flow_violated :
    results [.create 1, .flowInit 64 7 false, .add 1 64, .flowFini 64, .notify 7 FLOW_DEALLOC, .fevent 1, .next 1] =
      some [.unit, .bool true, .int 0, .unit, .unit, .int 1, .int (-1)] := by decide +kernel

/-- C20 fails in the presence of reliable flows: the packet event of the reliable flow 7 is for a keepalive (an invalid
packet), the event of flow 9 comes right behind it. `fevent` gives up on its copy of the queue and goes to sleep; the event
of flow 9 is gone although it was never returned, and a later call times out. -/
theorem C20_reliable_flow_violated :
    let h : List Op := [.create 1, .flowInit 64 7 true, .flowInit 65 9 false, .add 1 64, .add 1 65, .push 7 .bad,
      .notify 7 FLOW_PKT, .push 9 .data, .notify 9 FLOW_PKT, .fevent 1, .notify 9 FLOW_UP, .fevent 1, .next 1, .next 1,
      .fevent 1]
    results h = some [.unit, .bool true, .bool true, .int 0, .int 0, .unit, .unit, .unit, .unit, .again, .unit, .int 1,
      .int 65, .int (-EPERM), .int (-ETIMEDOUT)] ∧
    streams h 1 = some ([(⟨7, 1⟩, false), (⟨9, 1⟩, false), (⟨9, 4⟩, false)], [⟨9, 4⟩]) := by decide +kernel

/-- A second form of the same failure: if it happens in `fqueue_next` (not the first event), the queue object is stuck:
`fevent` reports an event and `fqueue_next` has none, for as long as no packet arrives on the reliable flow. -/
theorem C20_reliable_flow_stuck_violated :
    results [.create 1, .flowInit 64 7 true, .flowInit 65 9 false, .add 1 64, .add 1 65, .notify 9 FLOW_PKT, .push 7 .bad,
      .notify 7 FLOW_PKT, .notify 9 FLOW_DOWN, .fevent 1, .next 1, .next 1, .fevent 1, .next 1, .fevent 1, .next 1] =
    some [.unit, .bool true, .bool true, .int 0, .int 0, .unit, .unit, .unit, .unit, .int 1, .int 65, .int (-EPERM),
      .int 1, .int (-EPERM), .int 1, .int (-EPERM)] := by decide +kernel

/-- C20 fails when a queue is full: with `SHM_BUFFER_SIZE` undelivered events in a set that is not the last one, one more
notification overwrites the oldest undelivered event of the next set. Holds in every state. -/
theorem C20_overflow_violated (m : Shm) (id ev s : Nat) (hid : id < sysMaxFlows) (hs : s + 1 < maxSets)
    (hm : m.mtable id = some s) (hfull : m.heads s = qSize) (hnext : 0 < m.heads (s + 1)) :
    ∃ m', shmNotify m id ev = .ok m' ∧ (shmQ m' (s + 1)).head? = some ⟨id, ev⟩ := by
  have hq : qSize = 16384 := rfl
  have hms : maxSets = 32 := rfl
  unfold shmNotify
  rw [if_pos hid, hm]
  dsimp only
  rw [if_pos (by rw [hfull, hq]; omega)]
  refine ⟨_, rfl, ?_⟩
  unfold shmQ
  dsimp only
  rw [upd_ne _ _ (by omega)]
  cases hh : m.heads (s + 1) with
  | zero => omega
  | succ k =>
    rw [List.range_succ_eq_map, List.map_cons, List.head?_cons, hfull]
    have : qSize * (s + 1) + 0 = qSize * s + qSize := by rw [hq]; omega
    rw [this, upd_same]

/-- The full queue is reachable: notify the same flow `n` times. -/
theorem notify_many (p : Proc) (id ev s : Nat) (hid : id < sysMaxFlows) (hm : p.shm.mtable id = some s) (h0 : s < maxSets) :
    ∀ n, p.shm.heads s = 0 → n ≤ qSize → ∃ q, (∀ t, ∃ t' rs, exec (p, t) (List.replicate n (.notify id ev)) =
      .ok ((q, t'), rs)) ∧ q.shm.mtable = p.shm.mtable ∧ q.shm.heads = upd p.shm.heads s n := by
  have gen : ∀ n (p : Proc), p.shm.mtable id = some s → p.shm.heads s + n ≤ qSize →
      ∃ q, (∀ t, ∃ t' rs, exec (p, t) (List.replicate n (.notify id ev)) = .ok ((q, t'), rs)) ∧
        q.shm.mtable = p.shm.mtable ∧ q.shm.heads = upd p.shm.heads s (p.shm.heads s + n) := by
    intro n
    induction n with
    | zero =>
      intro p _ _
      refine ⟨p, fun t => ⟨t, [], rfl⟩, rfl, ?_⟩
      funext x; unfold upd; split
      · next h => subst h; rfl
      · rfl
    | succ n ih =>
      intro p hm hle
      obtain ⟨m', h1, h2, h3, -⟩ := shmNotify_ok (m := p.shm) (ev := ev) hid (by
        intro s' h; rw [hm] at h; cases h; exact ⟨h0, by omega⟩)
      obtain ⟨q, g1, g2, g3⟩ := ih { p with shm := m' } (by rw [h2]; exact hm) (by
        change m'.heads s + n ≤ _
        rw [h3, if_pos hm]; omega)
      refine ⟨q, fun t => ?_, by rw [g2]; exact h2, ?_⟩
      · obtain ⟨t', rs, g⟩ := g1 (t.after (queuedOf p) .unit none (.notify id ev))
        refine ⟨t', .unit :: rs, ?_⟩
        rw [List.replicate_succ]
        unfold exec
        have : step p (.notify id ev) = .ok ({ p with shm := m' }, .unit, none) := by
          change (shmNotify p.shm id ev >>= _) = _; rw [h1]; rfl
        rw [this, Outcome.bind_ok]
        dsimp only
        rw [g]; rfl
      · rw [g3]
        funext x
        unfold upd
        dsimp only
        split
        · rw [h3, if_pos hm]; omega
        · next hx => rw [h3, if_neg (by rw [hm]; simpa using Ne.symm hx)]
  intro n hz hle
  obtain ⟨q, h1, h2, h3⟩ := gen n p hm (by omega)
  exact ⟨q, h1, h2, by rw [h3, hz, Nat.zero_add]⟩

/-- The situation of `C20_overflow_violated` is reached by valid notifications alone: two sets, one event for the second
set, `SHM_BUFFER_SIZE` events for the first that nobody collects. -/
theorem C20_overflow_reachable : ∃ p t rs m', exec fresh
      ([.create 1, .create 2, .flowInit 64 7 false, .flowInit 65 9 false, .add 1 64, .add 2 65, .notify 9 FLOW_UP] ++
        List.replicate qSize (.notify 7 FLOW_PKT)) = .ok ((p, t), rs) ∧
    shmNotify p.shm 7 FLOW_PKT = .ok m' ∧ (shmQ m' 2).head? = some ⟨7, FLOW_PKT⟩ := by
  have happ : ∀ (as bs : List Op) (s s1 s2 : Proc × Track) (r1 r2 : List Ret), exec s as = .ok (s1, r1) →
      exec s1 bs = .ok (s2, r2) → exec s (as ++ bs) = .ok (s2, r1 ++ r2) := by
    intro as bs
    induction as with
    | nil => intro s s1 s2 r1 r2 h1 h2; cases Outcome.ok.inj h1; exact h2
    | cons o os ih =>
      intro s s1 s2 r1 r2 h1 h2
      rw [List.cons_append]
      unfold exec at h1 ⊢
      cases ho : step s.1 o with
      | ub => rw [ho] at h1; cases h1
      | ok x =>
        rw [ho] at h1
        rw [Outcome.bind_ok] at h1 ⊢
        dsimp only at h1 ⊢
        cases hx : exec (x.1, s.2.after (queuedOf s.1) x.2.1 x.2.2 o) os with
        | ub => rw [hx] at h1; cases h1
        | ok y =>
          rw [hx] at h1
          have h1' : (y.1, x.2.1 :: y.2) = (s1, r1) := Outcome.ok.inj h1
          obtain ⟨rfl, rfl⟩ := Prod.mk.inj h1'
          rw [ih _ y.1 s2 y.2 r2 hx h2]; rfl
  cases hp : exec fresh [.create 1, .create 2, .flowInit 64 7 false, .flowInit 65 9 false, .add 1 64, .add 2 65,
      .notify 9 FLOW_UP] with
  | ub => exact absurd hp (by
      intro h
      have h' := congrArg (fun o => match o with | Outcome.ok _ => true | .ub => false) h
      revert h'; decide +kernel)
  | ok x =>
    have hfacts : x.1.1.shm.mtable 7 = some 1 ∧ x.1.1.shm.heads 1 = 0 ∧ x.1.1.shm.heads 2 = 1 := by
      have h' := congrArg (fun o => match o with
        | Outcome.ok (y : (Proc × Track) × List Ret) => decide (y.1.1.shm.mtable 7 = some 1 ∧ y.1.1.shm.heads 1 = 0 ∧
            y.1.1.shm.heads 2 = 1) | .ub => false) hp
      dsimp only at h'
      refine of_decide_eq_true (h'.symm.trans ?_)
      decide +kernel
    obtain ⟨q, h1, h2, h3⟩ := notify_many x.1.1 7 FLOW_PKT 1 (by decide) hfacts.1 (by decide) qSize hfacts.2.1 (Nat.le_refl _)
    obtain ⟨t', rs, h4⟩ := h1 x.1.2
    obtain ⟨m', g1, g2⟩ := C20_overflow_violated q.shm 7 FLOW_PKT 1 (by decide) (by decide) (by rw [h2]; exact hfacts.1)
      (by rw [h3, upd_same]) (by rw [h3, upd_ne _ _ (by decide), hfacts.2.2]; decide)
    exact ⟨q, t', _, m', happ _ _ _ _ _ _ _ hp h4, g1, g2⟩

end Ouro.FlowSet
