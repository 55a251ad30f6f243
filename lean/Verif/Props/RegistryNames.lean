import Verif.Props.Registry

/-!
# Properties C23 and C24: which process gets a request, and bindings

The bindings and the availability of processes are defined from the log in `Verif/Spec/Registry.lean`; `bindEv` translates the calls
on the registry to the events of that specification.
-/

namespace Ouro.Registry

open Spec.Registry Spec.FiniteMap

variable {ops : List Op} {s s' : Reg} {log : List (Op × Out)} {op : Op} {o : Out}

/-! ## C24: bindings -/

/-- **C24.** After any history, the process bindings in the registry are those of the log: a process is bound to a name by binding it, or
by starting when its program is bound; it stays bound until it is unbound or ends, or the name is destroyed. -/
theorem C24_bound (h : run ops = .ok (s, log)) (x : Str) (p : Nat) : boundTo s x p ↔ (bindings (log.filterMap bindEv)).proc x p :=
  ((bnd_inv h).byName x p).symm

/-- **C24.** A process that starts after its program was bound to a name is bound to that name, and to no other. -/
theorem C24_started_later (h : run ops = .ok (s, log)) {p : Nat} {g : Str} (hs : step s (.createProc p g) = .ok (s', .int 0)) (x : Str) :
    boundTo s' x p ↔ (bindings (log.filterMap bindEv)).prog x g := by
  rw [C24_bound (run_snoc h hs), List.filterMap_append]
  simp [bindEv, bindings, BEv.bindings]

/-- **C24.** When a process starts to wait for a flow, it accepts for every name it is bound to. -/
theorem C24_accepts (h : run ops = .ok (s, log)) {i : FlowInfo} {w : Nat} (hs : step s (.waitAcceptedStart i) = .ok (s', .ptr w)) (x : Str)
    (hb : (bindings (log.filterMap bindEv)).proc x i.npid) : acceptsFor s' x i.npid := by
  obtain ⟨f, _, _, _, rfl, _⟩ := waitAcceptedStart_ok hs
  obtain ⟨n, hn, rfl, hp⟩ := (C24_bound h x i.npid).mpr hb
  refine ⟨markActive i.npid n, List.mem_map_of_mem hn, (markActive_name _ n).1, ?_⟩
  unfold markActive
  rw [if_pos hp]
  exact mem_addPos.mpr (.inl rfl)

/-- **C24.** A request for a name is only ever given to a process that is bound to the name. -/
theorem C24_only_bound (h : run ops = .ok (s, log)) {hash : Str → Nat} {k : Nat} {r : Int} (hr : 0 < r)
    (hs : step s (.pollAccepting hash k) = .ok (s', .int r)) :
    ∃ x p, hash x = k ∧ (bindings (log.filterMap bindEv)).proc x p ∧ acceptsFor s x p ∧
      ∃ f ∈ s.flows, f.info.id = r ∧ f.info.npid = p ∧ f.info.state = .acceptPending := by
  have hb := bnd_inv h
  unfold step pollAccepting at hs
  obtain ⟨v, hv, hs⟩ := bind_eq_ok.mp hs
  cases Outcome.ok.inj hs
  unfold pendingFor at hv
  split at hv
  · cases Outcome.ok.inj hv; simp [ENAME] at hr
  · rename_i n hn
    have hn1 := List.mem_of_find?_eq_some hn
    have hn2 : hash n.name = k := by simpa using List.find?_some hn
    dsimp only at hv
    split at hv
    · cases Outcome.ok.inj hv; simp [EAGAIN] at hr
    · split at hv
      · cases hv
      · rename_i hneg _ f hf
        cases Outcome.ok.inj hv
        have h1 := List.mem_of_find?_eq_some hf
        have h2 := List.find?_some hf
        simp only [Bool.and_eq_true, beq_iff_eq] at h2
        cases ha : n.active with
        | nil => simp [nameGetActive, ha] at hneg
        | cons p l =>
          have hp : p ∈ n.active := by rw [ha]; exact List.mem_cons_self
          have h3 : (nameGetActive n).toNat = p := by simp [nameGetActive, ha]
          refine ⟨n.name, p, hn2, (hb.byName _ _).mpr ⟨n, hn1, rfl, hb.act n hn1 p hp⟩, ⟨n, hn1, rfl, hp⟩, f, h1, rfl, ?_, h2.1⟩
          rw [h2.2, h3]

/-- **C24.** Unbinding a process succeeds if it is bound, and fails without effect otherwise. -/
theorem C24_unbind (h : run ops = .ok (s, log)) {p : Nat} (hp : 0 < p) (x : Str) :
    ((bindings (log.filterMap bindEv)).proc x p → ∃ s', step s (.unbindProc x p) = .ok (s', .int 0) ∧
      ∀ y q, boundTo s' y q ↔ boundTo s y q ∧ ¬ (y = x ∧ q = p)) ∧
    (¬ (bindings (log.filterMap bindEv)).proc x p → step s (.unbindProc x p) = .ok (s, .int (-1))) := by
  have hb := bnd_inv h
  constructor
  · intro hbd
    obtain ⟨n, hn, rfl, hpn⟩ := (hb.byName x p).mp hbd
    obtain ⟨q, hq, rfl, hqn⟩ := (hb.byProc n.name p).mp hbd
    have e1 : getName s n.name = some n := (find_iff (key := fun n : Name => n.name) hb.kn.nodup).mpr ⟨hn, rfl⟩
    have e2 : getProc s q.pid = some q := (find_iff (key := fun n : Proc => n.pid) hb.kp.nodup).mpr ⟨hq, rfl⟩
    have e3 : procHasName q n.name = true := procHasName_iff.mpr hqn
    have e4 : procDelName q n.name = .ok { q with names := q.names.erase n.name } := by
      unfold procDelName
      have : procHasName { q with names := q.names.erase n.name } n.name = false := by
        rw [Bool.eq_false_iff]
        intro hc
        have := procHasName_iff.mp hc
        rw [(hb.pn q hq).mem_erase_iff] at this
        exact this.1 rfl
      simp [e3, this, assert]
    have hs : ∃ s', step s (.unbindProc n.name q.pid) = .ok (s', .int 0) := by
      simp [step, unbindProc, assert, hp, e1, e2, nameHasProc_eq hp, hpn, e3, nameDelProc_eq hp (hb.nd n hn), e4]
    obtain ⟨s', hs⟩ := hs
    refine ⟨s', hs, fun y r => ?_⟩
    rw [C24_bound (run_snoc h hs), C24_bound h, List.filterMap_append]
    simp [bindEv, bindings, BEv.bindings]
  · intro hbd
    cases e1 : getName s x with
    | none => simp [step, unbindProc, assert, hp, e1]
    | some n =>
      cases e2 : getProc s p with
      | none => simp [step, unbindProc, assert, hp, e1, e2]
      | some q =>
        have : p ∉ n.procs := fun hc => hbd ((hb.byName x p).mpr ⟨n, (getName_mem e1).1, (getName_mem e1).2, hc⟩)
        simp [step, unbindProc, assert, hp, e1, e2, nameHasProc_eq hp, this]

/-- **C24.** Binding a process to a name succeeds if both exist and it is not bound yet; it adds this binding only. Otherwise, in particular
when it is bound already, it fails without effect. -/
theorem C24_bind (h : run ops = .ok (s, log)) {p : Nat} (hp : 0 < p) (x : Str) :
    (∀ pol, live (log.filterMap nameEv) x = some pol → pol ≠ .invalid → (live (log.filterMap procEv) p).isSome →
      ¬ (bindings (log.filterMap bindEv)).proc x p → ∃ s', step s (.bindProc x p) = .ok (s', .int 0) ∧
        ∀ y q, boundTo s' y q ↔ boundTo s y q ∨ (y = x ∧ q = p)) ∧
    (live (log.filterMap nameEv) x = none ∨ live (log.filterMap procEv) p = none ∨ (bindings (log.filterMap bindEv)).proc x p →
      step s (.bindProc x p) = .ok (s, .int (-1))) := by
  have hb := bnd_inv h
  have ht := tables h
  constructor
  · intro pol hpol hv hproc hbd
    obtain ⟨n, hn, rfl, rfl⟩ := (ht.names.agrees x pol).mp hpol
    obtain ⟨v, hv'⟩ := Option.isSome_iff_exists.mp hproc
    obtain ⟨q, hq, rfl, _⟩ := (ht.procs.agrees p v).mp hv'
    have e1 : getName s n.name = some n := (find_iff (key := fun n : Name => n.name) hb.kn.nodup).mpr ⟨hn, rfl⟩
    have e2 : getProc s q.pid = some q := (find_iff (key := fun n : Proc => n.pid) hb.kp.nodup).mpr ⟨hq, rfl⟩
    have hpn : q.pid ∉ n.procs := fun hc => hbd ((hb.byName _ _).mpr ⟨n, hn, rfl, hc⟩)
    have e3 : procHasName q n.name = false := by
      rw [Bool.eq_false_iff]
      exact fun hc => hbd ((hb.byProc _ _).mpr ⟨q, hq, rfl, procHasName_iff.mp hc⟩)
    have e4 : nameAddActive { n with procs := q.pid :: n.procs } q.pid = .ok { n with procs := q.pid :: n.procs, active := addPos n.pol n.active q.pid } :=
      nameAddActive_eq hp (by simp) hv
    have hs : ∃ s', step s (.bindProc n.name q.pid) = .ok (s', .int 0) := by
      cases e5 : getAcceptFlow s q.pid <;>
        simp [step, bindProc, assert, hp, e1, e2, nameHasProc_eq hp, hpn, procAddName, e3, nameAddProc, e5, e4]
    obtain ⟨s', hs⟩ := hs
    refine ⟨s', hs, fun y r => ?_⟩
    rw [C24_bound (run_snoc h hs), C24_bound h, List.filterMap_append]
    simp [bindEv, bindings, BEv.bindings]
  · intro hno
    cases e1 : getName s x with
    | none => simp [step, bindProc, assert, hp, e1]
    | some n =>
      cases e2 : getProc s p with
      | none => simp [step, bindProc, assert, hp, e1, e2]
      | some q =>
        obtain ⟨hn, hnx⟩ := getName_mem e1
        obtain ⟨hq, hqp⟩ := getProc_mem e2
        rcases hno with hno | hno | hno
        · exact absurd hnx (ht.names.none_iff.mp hno n hn)
        · exact absurd hqp (ht.procs.none_iff.mp hno q hq)
        · obtain ⟨m, hm, hmx, hpm⟩ := (hb.byName x p).mp hno
          cases hb.kn.inj hm hn (hmx.trans hnx.symm)
          simp [step, bindProc, assert, hp, e1, e2, nameHasProc_eq hp, hpm]

/-- **C24.** The program bindings are those of the log as well: unbinding a program succeeds exactly if it is bound. -/
theorem C24_unbind_prog (h : run ops = .ok (s, log)) {x g : Str} (hs : step s (.unbindProg x g) = .ok (s', o)) :
    (o = .int 0 ↔ (bindings (log.filterMap bindEv)).prog x g) ∧ (o ≠ .int 0 → s' = s ∧ o = .int (-1)) := by
  have hb := bnd_inv h
  obtain ⟨rfl, rfl, hno⟩ | ⟨n, q, h1, h2, h3, rfl, _⟩ := unbindProg_ok hs
  · refine ⟨⟨fun hc => by simp at hc, fun hp => ?_⟩, fun _ => ⟨rfl, rfl⟩⟩
    obtain ⟨q, hq, hqg, hqx⟩ := (hb.byProg x g).mp hp
    obtain ⟨n, hn, hnx⟩ := hb.named x g hp
    rcases hno with hno | hno | ⟨m, r, hm, hr, hrx⟩
    · exact absurd hnx (find_none_iff.mp hno n hn)
    · exact absurd hqg (find_none_iff.mp hno q hq)
    · cases hb.kg.inj hq (getProg_mem hr).1 (hqg.trans (getProg_mem hr).2.symm)
      exact absurd hqx hrx
  · exact ⟨⟨fun _ => (hb.byProg x g).mpr ⟨q, (getProg_mem h2).1, (getProg_mem h2).2, h3⟩, fun _ => rfl⟩, fun hc => absurd rfl hc⟩

/-- **C24 (part).** When destroying a name succeeds, nothing is bound to it any more, and all other bindings are as before. What is missing:
a name with a binding cannot be destroyed, see `C24_destroy_bound_violated`. -/
theorem C24_destroy_partial (h : run ops = .ok (s, log)) {x : Str} (hs : step s (.destroyName x) = .ok (s', .int 0)) (y : Str) (q : Nat) :
    boundTo s' y q ↔ boundTo s y q ∧ y ≠ x := by
  rw [C24_bound (run_snoc h hs), C24_bound h, List.filterMap_append]
  simp [bindEv, bindings, BEv.bindings]

/-- The program `p` is bound to the name `a`, then process 7 of the program starts and waits for a flow. -/
def bindOps : List Op :=
  [.createName ['a'] .rr, .createName ['b'] .rr, .createProg ['p'] ['p'], .bindProg ['a'] [['p']] false, .createProc 7 ['p'], .createFlow (flowReq 7),
   .prepareAccept (flowIs 1 7 0 0 .init) none, .waitAcceptedStart (flowIs 1 7 0 0 .acceptPending)]

/-- A hash function. -/
def isA (x : Str) : Nat := if x = ['a'] then 1 else 0

/-- A request for `a` goes to process 7, then it is unbound, which works once. -/
example : ∃ s log, run (bindOps ++ [.pollAccepting isA 1, .unbindProc ['a'] 7, .unbindProc ['a'] 7, .pollAccepting isA 1, .bindProc ['b'] 7, .bindProc ['b'] 7,
      .unbindProg ['a'] ['p'], .unbindProg ['a'] ['p'], .destroyName ['a']]) = .ok (s, log) ∧
    decide ((log.map (·.2)).drop 8 = [.int 1, .int 0, .int (-1), .int (-EAGAIN), .int 0, .int (-1), .int 0, .int (-1), .int 0]) = true :=
  checkRun_ex (f := fun _ l => decide (l.drop 8 = [.int 1, .int 0, .int (-1), .int (-EAGAIN), .int 0, .int (-1), .int 0, .int (-1), .int 0])) (by decide +kernel)

/-- **C24 fails when a name is destroyed that a process is bound to**: the daemon crashes, in every state. -/
theorem C24_destroy_bound_violated (h : run ops = .ok (s, log)) {x : Str} {p : Nat} (hb : (bindings (log.filterMap bindEv)).proc x p) :
    step s (.destroyName x) = .ub := by
  cases hs : step s (.destroyName x) with
  | ub => rfl
  | ok r =>
    obtain ⟨s', o⟩ := r
    obtain ⟨n, hn, rfl, hp⟩ := (C24_bound h x p).mpr hb
    obtain ⟨h1, _⟩ | ⟨e, h1, _, _, h2, _⟩ := destroyName_ok hs
    · exact absurd rfl (find_none_iff.mp h1 n hn)
    · obtain ⟨h3, h4⟩ := getName_mem h1
      cases (bnd_inv h).kn.inj h3 hn h4
      rw [h2] at hp
      cases hp

/-- **C24 fails for a program that is started automatically and given by a path**: after unbinding it, it is still started for requests for the
name, and it cannot be bound again. -/
theorem C24_unbind_auto_violated : ∃ s log, run [.createName ['a'] .rr, .createProg ['p'] ['/', 'p'], .bindProg ['a'] [['/', 'p']] true,
      .unbindProg ['a'] ['p'], .getExec (fun _ => 5) 5, .bindProg ['a'] [['/', 'p']] true] = .ok (s, log) ∧
    decide ((log.map (·.2)).drop 2 = [.int 0, .int 0, .exec 0 (some [['/', 'p']]), .int (-1)]) = true :=
  checkRun_ex (f := fun _ l => decide (l.drop 2 = [.int 0, .int 0, .exec 0 (some [['/', 'p']]), .int (-1)])) (by decide +kernel)

/-! ## C23: load balancing -/

/-- **C23 (part).** Let every process accept one flow at a time. A request for a name that does not exist is told so. A request for a
name for which nobody is available has to try again. Otherwise the request is given to the process that has been available the longest if
the policy is round-robin, and to the one that became available last if it is spilling; it gets the flow this process is waiting with.
What is missing: this fails with a crash, rather than moving on to the next process, if that process no longer has a waiting flow because
it was given a request it has not picked up yet, see `C23_crash_violated`. -/
theorem C23_policy_partial (h : run ops = .ok (s, log)) (ho : OneAtATime (fun _ => .idle) (log.filterMap bindEv)) (hash : Str → Nat) (k : Nat) :
    ((∀ x, (live (log.filterMap nameEv) x).isSome → hash x ≠ k) → step s (.pollAccepting hash k) = .ok (s, .int (-ENAME))) ∧
    ∀ x pol, live (log.filterMap nameEv) x = some pol → hash x = k →
      (∀ y, (live (log.filterMap nameEv) y).isSome → hash y = k → y = x) →
      ((∀ p, since (log.filterMap bindEv) x p = none) → step s (.pollAccepting hash k) = .ok (s, .int (-EAGAIN))) ∧
      ((∃ p, (since (log.filterMap bindEv) x p).isSome) →
        ∃ p, (bindings (log.filterMap bindEv)).proc x p ∧
          (if pol = .rr then Earliest (since (log.filterMap bindEv)) x p else Latest (since (log.filterMap bindEv)) x p) ∧
          ((∃ f ∈ s.flows, f.info.state = .acceptPending ∧ f.info.npid = p ∧ step s (.pollAccepting hash k) = .ok (s, .int f.info.id)) ∨
           ((∀ f ∈ s.flows, f.info.state = .acceptPending → f.info.npid ≠ p) ∧ step s (.pollAccepting hash k) = .ub))) := by
  have ha := act_inv h ho
  have hb := bnd_inv h
  have ht := (tables h).names
  constructor
  · intro hno
    have : getNameByHash s hash k = none := by
      unfold getNameByHash
      rw [List.find?_eq_none]
      intro n hn hc
      refine hno n.name ?_ (by simpa using hc)
      rw [(ht.agrees n.name n.pol).mpr ⟨n, hn, rfl, rfl⟩]
      rfl
    simp [step, pollAccepting, pendingFor, this]
  · intro x pol hx hk huniq
    obtain ⟨n, hn, rfl, rfl⟩ := (ht.agrees x pol).mp hx
    have hget : getNameByHash s hash k = some n := by
      unfold getNameByHash
      cases hf : s.names.find? (fun n => hash n.name == k) with
      | none => exact absurd hk (by simpa using List.find?_eq_none.mp hf n hn)
      | some m =>
        have hm := List.mem_of_find?_eq_some hf
        have hmk : hash m.name = k := by simpa using List.find?_some hf
        have := huniq m.name (by rw [(ht.agrees m.name m.pol).mpr ⟨m, hm, rfl, rfl⟩]; rfl) hmk
        rw [hb.kn.inj hm hn this]
    have hok := ha.each n hn
    constructor
    · intro hnone
      have : n.active = [] := by
        rw [List.eq_nil_iff_forall_not_mem]
        exact fun p => not_active ha hn (hnone p)
      simp [step, pollAccepting, pendingFor, hget, nameGetActive, this]
    · rintro ⟨q, hq⟩
      cases hact : n.active with
      | nil =>
        have := (hok.avail q).mpr hq
        rw [hact] at this
        cases this
      | cons p l =>
        have hp : p ∈ n.active := by rw [hact]; exact List.mem_cons_self
        obtain ⟨u, hu⟩ := Option.isSome_iff_exists.mp ((hok.avail p).mp hp)
        have hpos : ¬ (nameGetActive n < 0) ∧ (nameGetActive n).toNat = p := by
          simp [nameGetActive, hact]
        refine ⟨p, (hb.byName _ _).mpr ⟨n, hn, rfl, hb.act n hn p hp⟩, ?_, ?_⟩
        · have hord := hok.ord
          unfold Ord at hord
          rw [hact, List.pairwise_cons] at hord
          split
          · rename_i hrr
            refine ⟨u, hu, fun r v hv => ?_⟩
            have hr := (hok.avail r).mpr (by rw [hv]; rfl)
            rw [hact] at hr
            rcases List.mem_cons.mp hr with rfl | hr
            · rw [hu] at hv; cases hv; exact Nat.le_refl _
            · have := hord.1 r hr u v hu hv
              rw [if_pos hrr] at this
              omega
          · rename_i hrr
            refine ⟨u, hu, fun r v hv => ?_⟩
            have hr := (hok.avail r).mpr (by rw [hv]; rfl)
            rw [hact] at hr
            rcases List.mem_cons.mp hr with rfl | hr
            · rw [hu] at hv; cases hv; exact Nat.le_refl _
            · have := hord.1 r hr u v hu hv
              rw [if_neg hrr] at this
              omega
        · cases hf : getAcceptFlow s p with
          | none =>
            refine .inr ⟨?_, ?_⟩
            · intro f hfm hst hnp
              have := List.find?_eq_none.mp hf f hfm
              simp [hst, hnp] at this
            · simp [step, pollAccepting, pendingFor, hget, hpos.1, hpos.2, hf]
          | some f =>
            have h1 := List.mem_of_find?_eq_some hf
            have h2 := List.find?_some hf
            simp only [Bool.and_eq_true, beq_iff_eq] at h2
            refine .inl ⟨f, h1, h2.1, h2.2, ?_⟩
            simp [step, pollAccepting, pendingFor, hget, hpos.1, hpos.2, hf]

/-- **C23.** Whatever the processes do, a process that is not bound to the name, or does not accept for it, is never given the request. -/
theorem C23_never_unbound (h : run ops = .ok (s, log)) {hash : Str → Nat} {k : Nat} {r : Int} (hr : 0 < r)
    (hs : step s (.pollAccepting hash k) = .ok (s', .int r)) :
    ∃ x p, hash x = k ∧ (bindings (log.filterMap bindEv)).proc x p ∧
      ∃ f ∈ s.flows, f.info.id = r ∧ f.info.npid = p ∧ f.info.state = .acceptPending := by
  obtain ⟨x, p, h1, h2, _, h3⟩ := C24_only_bound h hr hs
  exact ⟨x, p, h1, h2, h3⟩

/-- Processes 7 and 8, bound to a name with the given policy, wait for a flow each, 7 first. -/
def balanceOps (pol : Pol) : List Op :=
  [.createName ['a'] pol, .createProc 7 ['p'], .createProc 8 ['p'], .bindProc ['a'] 7, .bindProc ['a'] 8,
   .createFlow (flowReq 7), .prepareAccept (flowIs 1 7 0 0 .init) none, .waitAcceptedStart (flowIs 1 7 0 0 .acceptPending),
   .createFlow (flowReq 8), .prepareAccept (flowIs 2 8 0 0 .init) none, .waitAcceptedStart (flowIs 2 8 0 0 .acceptPending)]

/-- Round-robin gives the first request to process 7 and, when that has picked it up, the next one to process 8. -/
example : ∃ s log, run (balanceOps .rr ++ [.pollAccepting List.length 1, .respondAccept (flowIs 1 0 9 60 .allocated) none,
      .waitAcceptedWake 0 (flowIs 1 7 0 0 .acceptPending) false, .pollAccepting List.length 1]) = .ok (s, log) ∧
    decide ((log.map (·.2))[11]? = some (.int 1) ∧ (log.map (·.2)).getLast? = some (.int 2)) = true :=
  checkRun_ex (f := fun _ l => decide (l[11]? = some (.int 1) ∧ l.getLast? = some (.int 2))) (by decide +kernel)

/-- Spilling gives it to process 8. -/
example : ∃ s log, run (balanceOps .spill ++ [.pollAccepting List.length 1]) = .ok (s, log) ∧
    decide ((log.map (·.2)).getLast? = some (.int 2)) = true :=
  checkRun_ex (f := fun _ l => decide (l.getLast? = some (.int 2))) (by decide +kernel)

/-- The log of `balanceOps` meets the condition of `C23_policy_partial`. -/
example : ∃ s log, run (balanceOps .rr) = .ok (s, log) ∧ OneAtATime (fun _ => .idle) (log.filterMap bindEv) := by
  obtain ⟨s, log, h, hf⟩ := checkLog_ex (ops := balanceOps .rr) (f := fun l => decide (OneAtATime (fun _ => .idle) (l.filterMap bindEv))) (by decide +kernel)
  exact ⟨s, log, h, of_decide_eq_true hf⟩

/-- **C23 fails when requests come quickly**: the first request was given to process 7, which has not woken up yet; the second one crashes the
daemon although process 8 is waiting. -/
theorem C23_crash_violated : run (balanceOps .rr ++ [.pollAccepting List.length 1, .respondAccept (flowIs 1 0 9 60 .allocated) none, .pollAccepting List.length 1]) = .ub :=
  FlowIo.isUb_eq (by decide +kernel)

/-- **C23 fails for two requests at the same time**: both are given the flow of process 7, and the second answer crashes the daemon. -/
theorem C23_same_flow_violated :
    (∃ s log, run (balanceOps .rr ++ [.pollAccepting List.length 1, .pollAccepting List.length 1, .respondAccept (flowIs 1 0 9 60 .allocated) none]) = .ok (s, log) ∧
      decide ((log.map (·.2)).drop 11 = [.int 1, .int 1, .flow 0 (flowIs 1 7 9 60 .allocated) none]) = true) ∧
    run (balanceOps .rr ++ [.pollAccepting List.length 1, .pollAccepting List.length 1, .respondAccept (flowIs 1 0 9 60 .allocated) none,
      .respondAccept (flowIs 1 0 9 60 .allocated) none]) = .ub :=
  ⟨checkRun_ex (f := fun _ l => decide (l.drop 11 = [.int 1, .int 1, .flow 0 (flowIs 1 7 9 60 .allocated) none])) (by decide +kernel),
   FlowIo.isUb_eq (by decide +kernel)⟩

/-- **C23 fails for a process that is bound while it prepares to accept**: it is entered twice as accepting, stays entered when its wait is
over, and the next request crashes the daemon. -/
theorem C23_bound_while_preparing_violated :
    run [.createName ['a'] .rr, .createProc 7 ['p'], .createFlow (flowReq 7), .prepareAccept (flowIs 1 7 0 0 .init) none, .bindProc ['a'] 7,
      .waitAcceptedStart (flowIs 1 7 0 0 .acceptPending), .waitAcceptedWake 0 (flowIs 1 7 0 0 .acceptPending) true, .pollAccepting List.length 1] = .ub :=
  FlowIo.isUb_eq (by decide +kernel)

end Ouro.Registry
