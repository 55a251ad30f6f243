import Verif.Spec.IrmdAdmin
import Verif.Props.RegistryNames
import Verif.Proof.Tac

namespace Ouro.IrmdAdmin

open Registry

/-! ## Executions -/

/-- What a command guarantees of its own events `H` (so far) and its result, whatever the others do. -/
def Holds (Q : List Ev → Int → Prop) : List Ev → Prg → Prop
  | H, .ret r => Q H r
  | _, .crash => True
  | H, .reg op k => ∀ s s' o, Registry.step s op = .ok (s', o) → Holds Q (H ++ [.mine op o]) (k o)
  | H, .ask pid m k => ∀ a, Holds Q (H ++ [.asked pid m a]) (k a)
  | H, .os c k => ∀ r, Holds Q (H ++ [.did c r]) (k r)
  | H, .sleep k => ∀ b, Holds Q (H ++ [.slept b]) (k b)

theorem holds_run {Q : List Ev → Int → Prop} {acts : List Act} : ∀ {s s' : Reg} {p : Prg} {r : Int} {H l : List Ev}, Holds Q H p →
    run s p acts = some (.ok (s', .ret r, l)) → Q (H ++ own l) r := by
  induction acts with
  | nil =>
    intro s s' p r H l h hr
    simp only [run, Option.some.injEq, Outcome.ok.injEq, Prod.mk.injEq] at hr
    obtain ⟨rfl, rfl, rfl⟩ := hr
    simpa [own, Holds] using h
  | cons a acts ih =>
    intro s s' p r H l h hr
    unfold run at hr
    cases ha : act s p a with
    | none => rw [ha] at hr; cases hr
    | some x =>
      cases x with
      | ub => rw [ha] at hr; cases hr
      | ok y =>
        obtain ⟨s1, p1, e⟩ := y
        rw [ha] at hr
        dsimp only at hr
        cases hr1 : run s1 p1 acts with
        | none => rw [hr1] at hr; cases hr
        | some z =>
          cases z with
          | ub => rw [hr1] at hr; cases hr
          | ok z =>
            obtain ⟨s2, p2, l1⟩ := z
            rw [hr1] at hr
            simp only [Option.some.injEq, Outcome.ok.injEq, Prod.mk.injEq] at hr
            obtain ⟨rfl, rfl, rfl⟩ := hr
            cases a with
            | other op =>
              simp only [act] at ha
              split at ha
              · simp only [Option.some.injEq, Outcome.ok.injEq, Prod.mk.injEq] at ha
                obtain ⟨rfl, rfl, rfl⟩ := ha
                have := ih h hr1
                simpa [own] using this
              · cases ha
            | go c =>
              cases p with
              | ret _ => cases ha
              | crash => cases ha
              | reg op k =>
                simp only [act] at ha
                split at ha
                · rename_i s3 o3 hs
                  simp only [Option.some.injEq, Outcome.ok.injEq, Prod.mk.injEq] at ha
                  obtain ⟨rfl, rfl, rfl⟩ := ha
                  have := ih (h _ _ _ hs) hr1
                  simpa [own] using this
                · cases ha
              | ask pid m k =>
                simp only [act, Option.some.injEq, Outcome.ok.injEq, Prod.mk.injEq] at ha
                obtain ⟨rfl, rfl, rfl⟩ := ha
                simpa [own] using ih (h _) hr1
              | os c' k =>
                simp only [act, Option.some.injEq, Outcome.ok.injEq, Prod.mk.injEq] at ha
                obtain ⟨rfl, rfl, rfl⟩ := ha
                simpa [own] using ih (h _) hr1
              | sleep k =>
                simp only [act, Option.some.injEq, Outcome.ok.injEq, Prod.mk.injEq] at ha
                obtain ⟨rfl, rfl, rfl⟩ := ha
                simpa [own] using ih (h _) hr1

/-- All calls of an execution together are a history of the registry. -/
theorem run_calls {acts : List Act} : ∀ {s s' : Reg} {p p' : Prg} {l : List Ev} {ops : List Op} {log : List (Op × Out)}, Registry.run ops = .ok (s, log) →
    run s p acts = some (.ok (s', p', l)) → ∃ ops', Registry.run ops' = .ok (s', log ++ calls l) := by
  induction acts with
  | nil =>
    intro s s' p p' l ops log h hr
    simp only [run, Option.some.injEq, Outcome.ok.injEq, Prod.mk.injEq] at hr
    obtain ⟨rfl, rfl, rfl⟩ := hr
    exact ⟨ops, by simpa [calls] using h⟩
  | cons a acts ih =>
    intro s s' p p' l ops log h hr
    unfold run at hr
    cases ha : act s p a with
    | none => rw [ha] at hr; cases hr
    | some x =>
      cases x with
      | ub => rw [ha] at hr; cases hr
      | ok y =>
        obtain ⟨s1, p1, e⟩ := y
        rw [ha] at hr
        dsimp only at hr
        cases hr1 : run s1 p1 acts with
        | none => rw [hr1] at hr; cases hr
        | some z =>
          cases z with
          | ub => rw [hr1] at hr; cases hr
          | ok z =>
            obtain ⟨s2, p2, l1⟩ := z
            rw [hr1] at hr
            simp only [Option.some.injEq, Outcome.ok.injEq, Prod.mk.injEq] at hr
            obtain ⟨rfl, rfl, rfl⟩ := hr
            cases a with
            | other op =>
              simp only [act] at ha
              split at ha
              · rename_i s3 o3 hs
                simp only [Option.some.injEq, Outcome.ok.injEq, Prod.mk.injEq] at ha
                obtain ⟨rfl, rfl, rfl⟩ := ha
                obtain ⟨ops', h'⟩ := ih (run_snoc h hs) hr1
                exact ⟨ops', by simpa [calls] using h'⟩
              · cases ha
            | go c =>
              cases p with
              | ret _ => cases ha
              | crash => cases ha
              | reg op k =>
                simp only [act] at ha
                split at ha
                · rename_i s3 o3 hs
                  simp only [Option.some.injEq, Outcome.ok.injEq, Prod.mk.injEq] at ha
                  obtain ⟨rfl, rfl, rfl⟩ := ha
                  obtain ⟨ops', h'⟩ := ih (run_snoc h hs) hr1
                  exact ⟨ops', by simpa [calls] using h'⟩
                · cases ha
              | ask pid m k =>
                simp only [act, Option.some.injEq, Outcome.ok.injEq, Prod.mk.injEq] at ha
                obtain ⟨rfl, rfl, rfl⟩ := ha
                obtain ⟨ops', h'⟩ := ih h hr1
                exact ⟨ops', by simpa [calls] using h'⟩
              | os c' k =>
                simp only [act, Option.some.injEq, Outcome.ok.injEq, Prod.mk.injEq] at ha
                obtain ⟨rfl, rfl, rfl⟩ := ha
                obtain ⟨ops', h'⟩ := ih h hr1
                exact ⟨ops', by simpa [calls] using h'⟩
              | sleep k =>
                simp only [act, Option.some.injEq, Outcome.ok.injEq, Prod.mk.injEq] at ha
                obtain ⟨rfl, rfl, rfl⟩ := ha
                obtain ⟨ops', h'⟩ := ih h hr1
                exact ⟨ops', by simpa [calls] using h'⟩

/-- A command that is alone is an execution without others. -/
theorem alone_run (w : World) : ∀ {p : Prg} {s s' : Reg} {r : Int} {l : List Ev}, alone w s p = .ok (s', r, l) →
    ∃ cs : List Choice, run s p (cs.map .go) = some (.ok (s', .ret r, l)) := by
  intro p
  induction p with
  | ret r0 =>
    intro s s' r l h
    simp only [alone, Outcome.ok.injEq, Prod.mk.injEq] at h
    obtain ⟨rfl, rfl, rfl⟩ := h
    exact ⟨[], rfl⟩
  | crash => intro s s' r l h; cases h
  | reg op k ih =>
    intro s s' r l h
    simp only [alone] at h
    split at h
    · rename_i s1 o hs
      split at h
      · rename_i s2 r2 l2 h2
        simp only [Outcome.ok.injEq, Prod.mk.injEq] at h
        obtain ⟨rfl, rfl, rfl⟩ := h
        obtain ⟨cs, hc⟩ := ih _ h2
        exact ⟨{} :: cs, by simp [run, act, hs, hc]⟩
      · cases h
    · cases h
  | ask pid m k ih =>
    intro s s' r l h
    simp only [alone] at h
    split at h
    · rename_i s2 r2 l2 h2
      simp only [Outcome.ok.injEq, Prod.mk.injEq] at h
      obtain ⟨rfl, rfl, rfl⟩ := h
      obtain ⟨cs, hc⟩ := ih _ h2
      exact ⟨{ reply := w.reply pid m } :: cs, by simp [run, act, hc]⟩
    · cases h
  | os c k ih =>
    intro s s' r l h
    simp only [alone] at h
    split at h
    · rename_i s2 r2 l2 h2
      simp only [Outcome.ok.injEq, Prod.mk.injEq] at h
      obtain ⟨rfl, rfl, rfl⟩ := h
      obtain ⟨cs, hc⟩ := ih _ h2
      exact ⟨{ res := w.res c } :: cs, by simp [run, act, hc]⟩
    · cases h
  | sleep k ih =>
    intro s s' r l h
    simp only [alone] at h
    split at h
    · rename_i s2 r2 l2 h2
      simp only [Outcome.ok.injEq, Prod.mk.injEq] at h
      obtain ⟨rfl, rfl, rfl⟩ := h
      obtain ⟨cs, hc⟩ := ih _ h2
      exact ⟨{ timeo := w.timeo } :: cs, by simp [run, act, hc]⟩
    · cases h

/-! ## Calls -/

variable {s s' : Reg} {ops : List Op} {log : List (Op × Out)}

theorem findIpcp_eq {p : Nat} (hp : 0 < p) : Registry.step s (.findIpcp p) = .ok (s, .ipcp (if (ipcpOf s p).isSome then 0 else -1) (ipcpOf s p)) := by
  have : decide (0 < p) = true := by simpa using hp
  have hg : getIpcp s p = .ok (ipcpOf s p) := by
    simp only [getIpcp, Registry.assert, this, if_true, Outcome.bind_ok, ipcpOf]
    rfl
  simp only [Registry.step, findIpcp, hg, Outcome.bind_ok]
  cases ipcpOf s p <;> rfl

theorem findIpcp_out {p : Nat} {o : Out} (h : Registry.step s (.findIpcp p) = .ok (s', o)) : s' = s ∧ ∃ r, o = .ipcp r (ipcpOf s p) ∧ (r = 0 ↔ (ipcpOf s p).isSome) := by
  by_cases hp : 0 < p
  · rw [findIpcp_eq hp] at h
    cases h
    exact ⟨rfl, _, rfl, by cases ipcpOf s p <;> simp⟩
  · have : decide (0 < p) = false := by simpa using hp
    simp [Registry.step, findIpcp, getIpcp, Registry.assert, this] at h

theorem hasName_eq (x : Str) : Registry.step s (.hasName x) = .ok (s, .bool (policy s x).isSome) := by
  simp only [Registry.step, hasName, getName, policy, Option.isSome_map]

theorem policy_none {x : Str} : policy s x = none ↔ getName s x = none := by
  simp [policy, getName]

theorem ipcpOf_mem {p : Nat} {i : Ipcp} (h : ipcpOf s p = some i) : i ∈ s.ipcps ∧ i.info.pid = p :=
  ⟨List.mem_of_find?_eq_some h, by simpa using List.find?_some h⟩

theorem policy_live (h : Registry.run ops = .ok (s, log)) (x : Str) : policy s x = Spec.Registry.live (log.filterMap nameEv) x := by
  have ht := (tables h).names
  cases e : Spec.Registry.live (log.filterMap nameEv) x with
  | none => exact policy_none.mpr (find_none_iff.mpr (ht.none_iff.mp e))
  | some pol =>
    obtain ⟨n, hn, rfl, rfl⟩ := (ht.agrees x pol).mp e
    have : getName s n.name = some n := (find_iff (key := fun n : Name => n.name) (bnd_inv h).kn.nodup).mpr ⟨hn, rfl⟩
    simp only [getName] at this
    simp [policy, this]

theorem known_live (h : Registry.run ops = .ok (s, log)) (p : Nat) : known s p ↔ (Spec.Registry.live (log.filterMap procEv) p).isSome := by
  have ht := (tables h).procs
  cases e : Spec.Registry.live (log.filterMap procEv) p with
  | none => simpa [known] using ht.none_iff.mp e
  | some g =>
    obtain ⟨q, hq, rfl, _⟩ := (ht.agrees p g).mp e
    simp [known]
    exact ⟨q, hq, rfl⟩

theorem hasProc_eq (p : Nat) : Registry.step s (.hasProc p) = .ok (s, .bool (getProc s p).isSome) := rfl

theorem known_iff {p : Nat} : known s p ↔ (getProc s p).isSome = true := by
  simp [known, getProc]

theorem createName_new {x : Str} {pol : Pol} (h : policy s x = none) : ∃ s1, Registry.step s (.createName x pol) = .ok (s1, .int 0) := by
  have := policy_none.mp h
  simp [Registry.step, createName, this]

theorem ipcpOf_live (h : Registry.run ops = .ok (s, log)) (p : Nat) : ipcpOf s p = Spec.Registry.live (log.filterMap ipcpEv) p := by
  have ht := (tables h).ipcps
  cases e : Spec.Registry.live (log.filterMap ipcpEv) p with
  | none => exact find_none_iff.mpr (ht.none_iff.mp e)
  | some i =>
    obtain ⟨n, hn, rfl, rfl⟩ := (ht.agrees p i).mp e
    exact (find_iff (key := fun i : Ipcp => i.info.pid) ht.keyed.nodup).mpr ⟨hn, rfl⟩

theorem progBound_log (h : Registry.run ops = .ok (s, log)) (x g : Str) : progBound s x g ↔ (Spec.Registry.bindings (log.filterMap bindEv)).prog x g :=
  ((bnd_inv h).byProg x g).symm

theorem bound_log (h : Registry.run ops = .ok (s, log)) (x : Str) (p : Nat) : bound s x p ↔ (Spec.Registry.bindings (log.filterMap bindEv)).proc x p :=
  C24_bound h x p

/-- Creating a program. -/
theorem createProg_all (h : Registry.run ops = .ok (s, log)) (g e : Str) : ∃ s1, Registry.step s (.createProg g e) = .ok (s1, .int 0) ∧ (getProg s1 g).isSome ∧
    (∀ k, k ≠ g → (getProg s1 k).isSome = (getProg s k).isSome) ∧
    (∀ x k, progBound s1 x k ↔ progBound s x k) ∧ s1.names = s.names ∧ s1.procs = s.procs := by
  have hs : ∃ s1, Registry.step s (.createProg g e) = .ok (s1, .int 0) := by
    simp only [Registry.step, createProg]
    split <;> exact ⟨_, rfl⟩
  obtain ⟨s1, hs⟩ := hs
  refine ⟨s1, hs, ?_⟩
  have hpb : ∀ x k, progBound s1 x k ↔ progBound s x k := by
    intro x k
    rw [progBound_log (run_snoc h hs), progBound_log h, List.filterMap_append]
    simp [bindEv, List.filterMap_cons]
  obtain ⟨_, ⟨q, hq, rfl⟩ | ⟨hq, rfl⟩⟩ := createProg_ok hs
  · exact ⟨by simp [hq], fun _ _ => rfl, hpb, rfl, rfl⟩
  · refine ⟨?_, fun k hk => ?_, hpb, rfl, rfl⟩
    · simp only [getProg, List.find?_isSome, mem_addAfter]
      exact ⟨_, .inl rfl, by simp⟩
    · rw [Bool.eq_iff_iff]
      simp only [getProg, List.find?_isSome, mem_addAfter]
      constructor
      · rintro ⟨a, rfl | ha, hb⟩
        · exact absurd (by simpa using hb) hk.symm
        · exact ⟨a, ha, hb⟩
      · rintro ⟨a, ha, hb⟩
        exact ⟨a, .inr ha, hb⟩

/-- Creating a name. -/
theorem createName_all (h : Registry.run ops = .ok (s, log)) {x : Str} {pol : Pol} (hx : policy s x = none) : ∃ s1, Registry.step s (.createName x pol) = .ok (s1, .int 0) ∧
    (∀ y, policy s1 y = if y = x then some pol else policy s y) ∧ (∀ y q, bound s1 y q ↔ bound s y q) ∧ (∀ y e, autoStart s1 y e ↔ autoStart s y e) ∧
    s1.progs = s.progs ∧ s1.procs = s.procs := by
  obtain ⟨s1, hs⟩ := createName_new (pol := pol) hx
  refine ⟨s1, hs, fun y => ?_, fun y q => ?_, fun y e => ?_, ?_⟩
  · rw [policy_live (run_snoc h hs), policy_live h, List.filterMap_append]
    simp [nameEv, List.filterMap_cons, Spec.Registry.live, Spec.Registry.Ev.apply, Spec.FiniteMap.put]
  · rw [bound_log (run_snoc h hs), bound_log h, List.filterMap_append]
    simp [bindEv, List.filterMap_cons]
  · obtain ⟨q, hq, _⟩ | ⟨hq, _, rfl⟩ := createName_ok hs
    · rw [policy_none.mp hx] at hq; cases hq
    · simp only [autoStart]
      rw [ex_add (key := fun n : Name => n.name)]
      simp [Registry.nameCreate]
  · obtain ⟨q, hq, _⟩ | ⟨hq, _, rfl⟩ := createName_ok hs
    · rw [policy_none.mp hx] at hq; cases hq
    · exact ⟨rfl, rfl⟩

theorem policy_some {x : Str} {pol : Pol} (h : policy s x = some pol) : ∃ n, getName s x = some n ∧ n.pol = pol := by
  simpa [policy, getName] using h

theorem bindProg_all (h : Registry.run ops = .ok (s, log)) {x e0 : Str} {rest : List Str} {auto : Bool} (hx : (policy s x).isSome) (hg : (getProg s (strip e0)).isSome) :
    ((progBound s x (strip e0) ∨ ∃ e, autoStart s x e ∧ e.head? = some e0) → Registry.step s (.bindProg x (e0 :: rest) auto) = .ok (s, .int (-1))) ∧
    (¬ (progBound s x (strip e0) ∨ ∃ e, autoStart s x e ∧ e.head? = some e0) → ∃ s', Registry.step s (.bindProg x (e0 :: rest) auto) = .ok (s', .int 0) ∧
      (∀ y g, progBound s' y g ↔ progBound s y g ∨ (y = x ∧ g = strip e0)) ∧ (∀ y q, bound s' y q ↔ bound s y q) ∧ (∀ y, policy s' y = policy s y) ∧
      ∀ y e, autoStart s' y e ↔ autoStart s y e ∨ (auto = true ∧ y = x ∧ e = e0 :: rest)) := by
  have hb := bnd_inv h
  obtain ⟨pol, hpol⟩ := Option.isSome_iff_exists.mp hx
  obtain ⟨n, hn, _⟩ := policy_some hpol
  obtain ⟨g, hg⟩ := Option.isSome_iff_exists.mp hg
  obtain ⟨hn1, rfl⟩ := getName_mem hn
  obtain ⟨hg1, hg2⟩ := getProg_mem hg
  have i1 : progBound s n.name (strip e0) ↔ n.name ∈ g.names := by
    rw [← hg2]
    exact ex_one (key := fun p : Prog => p.name) hb.kg hg1 (P := fun q => n.name ∈ q.names)
  have i2 : (∃ e, autoStart s n.name e ∧ e.head? = some e0) ↔ nameHasProg n e0 = true := by
    simp only [nameHasProg, List.any_eq_true, execIs, beq_iff_eq]
    refine exists_congr fun e => and_congr_left fun _ => ?_
    exact ex_one (key := fun p : Name => p.name) hb.kn hn1 (P := fun q => e ∈ q.progs)
  rw [i1, i2]
  constructor
  · rintro (hc | hc)
    · simp [Registry.step, bindProg, hn, hg, progHasName_iff.mpr hc]
    · simp [Registry.step, bindProg, hn, hg, hc]
  · intro hc
    rw [not_or] at hc
    have e1 : progHasName g n.name = false := by rw [Bool.eq_false_iff]; exact fun h => hc.1 (progHasName_iff.mp h)
    have e2 : nameHasProg n e0 = false := by simpa using hc.2
    have hs : ∃ s', Registry.step s (.bindProg n.name (e0 :: rest) auto) = .ok (s', .int 0) := by
      cases auto <;> simp [Registry.step, bindProg, hn, hg, e1, e2, progAddName, nameAddProg, Registry.assert]
    obtain ⟨s', hs⟩ := hs
    refine ⟨s', hs, fun y k => ?_, fun y q => ?_, fun y => ?_, fun y e => ?_⟩
    · rw [progBound_log (run_snoc h hs), progBound_log h, List.filterMap_append]
      simp [bindEv, Spec.Registry.bindings, Spec.Registry.BEv.bindings]
    · rw [bound_log (run_snoc h hs), bound_log h, List.filterMap_append]
      simp [bindEv, Spec.Registry.bindings, Spec.Registry.BEv.bindings]
    · rw [policy_live (run_snoc h hs), policy_live h, List.filterMap_append]
      simp [nameEv, List.filterMap_cons]
    · obtain ⟨_, _, hex, ⟨_, hc, _⟩ | ⟨m, q, hm, hq, _, _, _, rfl⟩⟩ :=
        bindProg_ok (s := s) (s' := s') (n := n.name) (ex := e0 :: rest) (a := auto) (o := .int 0) hs
      · cases hc
      · cases hn.symm.trans hm
        simp only [autoStart, setProg, setName]
        cases auto with
        | false =>
          simp only [Bool.false_eq_true, if_false, false_and, or_false]
          rw [ex_set (key := fun n : Name => n.name) ⟨n, hn1, rfl⟩]
          constructor
          · rintro (⟨rfl, h1⟩ | ⟨_, h1⟩)
            · exact ⟨n, hn1, rfl, h1⟩
            · exact h1
          · intro h1
            by_cases hy : y = n.name
            · subst hy
              exact .inl ⟨rfl, (ex_one (key := fun p : Name => p.name) hb.kn hn1 (P := fun q => e ∈ q.progs)).mp h1⟩
            · exact .inr ⟨hy, h1⟩
        | true =>
          simp only [if_true, true_and]
          rw [ex_set (key := fun n : Name => n.name) (m' := { n with progs := (e0 :: rest) :: n.progs }) ⟨n, hn1, rfl⟩]
          constructor
          · rintro (⟨rfl, h1⟩ | ⟨_, h1⟩)
            · rcases List.mem_cons.mp h1 with rfl | h1
              · exact .inr ⟨rfl, rfl⟩
              · exact .inl ⟨n, hn1, rfl, h1⟩
            · exact .inl h1
          · rintro (h1 | ⟨rfl, rfl⟩)
            · by_cases hy : y = n.name
              · subst hy
                exact .inl ⟨rfl, List.mem_cons_of_mem _ ((ex_one (key := fun p : Name => p.name) hb.kn hn1 (P := fun q => e ∈ q.progs)).mp h1)⟩
              · exact .inr ⟨hy, h1⟩
            · exact .inl ⟨rfl, List.mem_cons_self⟩

theorem fine_iff {a : Option Reply} : Fine a ↔ resultOf a = 0 := by
  cases a with
  | none => simp [Fine, resultOf, EIPCP]
  | some r =>
    cases hr : r.result with
    | none => simp [Fine, resultOf, EIPCP, hr]
    | some x => simp [Fine, resultOf, hr]

theorem layer_none {a : Option Reply} (h : ¬ ∃ l, a = some ⟨some 0, some l⟩) (l : Layer) : layerOf a ≠ (0, some l) := by
  intro hc
  apply h
  unfold layerOf at hc
  cases a with
  | none => simp [EIPCP] at hc
  | some r =>
    obtain ⟨res, lay⟩ := r
    cases res with
    | none => simp [EIPCP] at hc
    | some x =>
      by_cases hx : x = 0
      · subst hx
        cases lay with
        | none => simp [EIPCP] at hc
        | some y => exact ⟨y, rfl⟩
      · simp [hx] at hc

theorem layer_neg {a : Option Reply} (h : ¬ ∃ l, a = some ⟨some 0, some l⟩) (hr : ∀ b x, a = some b → b.result = some x → x ≤ 0) : (layerOf a).1 < 0 := by
  cases a with
  | none => simp [layerOf, EIPCP]
  | some r =>
    obtain ⟨res, lay⟩ := r
    cases res with
    | none => simp [layerOf, EIPCP]
    | some x =>
      have := hr _ x rfl rfl
      by_cases hx : x = 0
      · subst hx
        cases lay with
        | none => simp [layerOf, EIPCP]
        | some y => exact absurd ⟨y, rfl⟩ h
      · simp [layerOf, hx]; omega

theorem setLayer_all {p : Nat} {i : Ipcp} {l : Layer} {st : IState} (hp : 0 < p) (hi : ipcpOf s p = some i) (ho : i.info.state = .operational)
    (hst : (st != .init && st != .boot && st != .shutdown && st != .null) = true) :
    ∃ s', Registry.step s (.setLayer { i.info with state := st } l) = .ok (s', .int 0) := by
  have hpi := (ipcpOf_mem hi).2
  have hi' : s.ipcps.find? (fun j => j.info.pid == i.info.pid) = some i := by rw [hpi]; exact hi
  have : getIpcp s i.info.pid = .ok (some i) := by rw [getIpcp_eq (by omega), hi']
  have hd : setLayer s { i.info with state := st } l = .ok (setIpcp s { info := { i.info with state := st }, layer := l }, .int 0) := by
    simp only [setLayer, this, Registry.assert, ho, hst, if_true, Outcome.bind_ok]
    rfl
  exact ⟨_, hd⟩

theorem setLayer_after (h : Registry.run ops = .ok (s, log)) {p : Nat} {i : Ipcp} {l : Layer} {st : IState} (hi : ipcpOf s p = some i)
    (hs : Registry.step s (.setLayer { i.info with state := st } l) = .ok (s', .int 0)) (q : Nat) :
    ipcpOf s' q = if q = p then some ⟨{ i.info with state := st }, l⟩ else ipcpOf s q := by
  have hpi : i.info.pid = p := (ipcpOf_mem hi).2
  rw [ipcpOf_live (run_snoc h hs), ipcpOf_live h, List.filterMap_append]
  rw [show List.filterMap ipcpEv [(Op.setLayer { i.info with state := st } l, Out.int 0)] =
    [.change i.info.pid (fun e => ⟨{ e.info with state := st }, l⟩)] from rfl]
  have hl : Spec.Registry.live (log.filterMap ipcpEv) p = some i := by rw [← ipcpOf_live h, hi]
  simp only [Spec.Registry.live, List.foldl_append, List.foldl_cons, List.foldl_nil, Spec.Registry.Ev.apply, hpi] at hl ⊢
  rw [hl, Option.map_some, hpi]

theorem hasProc_out {p : Nat} {o : Out} (h : Registry.step s (.hasProc p) = .ok (s', o)) : s' = s ∧ ∃ b, o = .bool b := by
  cases h; exact ⟨rfl, _, rfl⟩

theorem layer_some {a : Option Reply} {l : Layer} (h : (layerOf a).2 = some l) : ∃ lay, a = some ⟨some 0, some lay⟩ ∧ lay = l := by
  cases a with
  | none => simp [layerOf] at h
  | some r =>
    obtain ⟨res, lay⟩ := r
    cases res with
    | none => simp [layerOf] at h
    | some x =>
      by_cases hx : x = 0
      · subst hx
        cases lay with
        | none => simp [layerOf] at h
        | some y => exact ⟨y, rfl, by simpa [layerOf] using h⟩
      · simp [layerOf, hx] at h

theorem destroyProc_out {p : Nat} {o : Out} (h : Registry.step s (.destroyProc p) = .ok (s', o)) : o = .int 0 :=
  (destroyProc_ok h).2.1

/-- What `bind_program` did when it returns. -/
def ProgDone (exec : List Str) (x : Str) (auto : Bool) (l : List Ev) (r : Int) : Prop :=
  (r = 0 → ∃ l0, l = l0 ++ [.mine (.bindProg x exec auto) (.int 0)]) ∧
    (r ≠ 0 → r = -1 ∧ .mine (.bindProg x exec auto) (.int 0) ∉ l ∧
      (x ≠ [] → .mine (.createName x .spill) (.int 0) ∈ l → ∃ o, .mine (.destroyName x) o ∈ l))


theorem terms_own (l : List Ev) : terms l = terms (own l) := by
  induction l with
  | nil => rfl
  | cons e l ih => cases e <;> simp_all [terms, own, List.filterMap_cons, List.filter_cons]

/-- The result of a command that is over. -/
def result : Prg → Option Int
  | .ret r => some r
  | _ => none

theorem result_eq {p : Prg} {r : Int} (h : result p = some r) : p = .ret r := by
  cases p <;> simp_all [result]

/-- Evaluates an execution. -/
def playRun (ops : List Op) (p : Prg) (acts : List Act) (f : Reg → Prg → List Ev → Bool) : Bool :=
  match Registry.run ops with
  | .ok (s, _) => match run s p acts with
    | some (.ok (s', p', l)) => f s' p' l
    | _ => false
  | .ub => false

theorem playRun_ex {ops : List Op} {p : Prg} {acts : List Act} {f : Reg → Prg → List Ev → Bool} (h : playRun ops p acts f = true) :
    ∃ s log s' p' l, Registry.run ops = .ok (s, log) ∧ run s p acts = some (.ok (s', p', l)) ∧ f s' p' l = true := by
  unfold playRun at h
  split at h
  · rename_i s log hs
    split at h
    · rename_i s' p' l hr
      exact ⟨s, log, s', p', l, hs, hr, h⟩
    · cases h
  · cases h

/-- Evaluates an execution that crashes. -/
def crashes (ops : List Op) (p : Prg) (acts : List Act) : Bool :=
  match Registry.run ops with
  | .ok (s, _) => match run s p acts with
    | some .ub => true
    | _ => false
  | .ub => false

theorem crashes_ex {ops : List Op} {p : Prg} {acts : List Act} (h : crashes ops p acts = true) :
    ∃ s log, Registry.run ops = .ok (s, log) ∧ run s p acts = some .ub := by
  unfold crashes at h
  split at h
  · rename_i s log hs
    split at h
    · rename_i hr
      exact ⟨s, log, hs, hr⟩
    · cases h
  · cases h

/-- Evaluates two commands. -/
def playDuo (ops : List Op) (p q : Prg) (acts : List (Bool × Choice)) (f : Reg → Prg → Prg → Bool) : Bool :=
  match Registry.run ops with
  | .ok (s, _) => match duo s p q acts with
    | some (.ok (s', p', q')) => f s' p' q'
    | _ => false
  | .ub => false

theorem playDuo_ex {ops : List Op} {p q : Prg} {acts : List (Bool × Choice)} {f : Reg → Prg → Prg → Bool} (h : playDuo ops p q acts f = true) :
    ∃ s log s' p' q', Registry.run ops = .ok (s, log) ∧ duo s p q acts = some (.ok (s', p', q')) ∧ f s' p' q' = true := by
  unfold playDuo at h
  split at h
  · rename_i s log hs
    split at h
    · rename_i s' p' q' hr
      exact ⟨s, log, s', p', q', hs, hr, h⟩
    · cases h
  · cases h

/-- Evaluates a command that is alone. -/
def playAlone (ops : List Op) (w : World) (p : Prg) (f : Reg → Int → List Ev → Bool) : Bool :=
  match Registry.run ops with
  | .ok (s, _) => match alone w s p with
    | .ok (s', r, l) => f s' r l
    | .ub => false
  | .ub => false

theorem playAlone_ex {ops : List Op} {w : World} {p : Prg} {f : Reg → Int → List Ev → Bool} (h : playAlone ops w p f = true) :
    ∃ s log s' r l, Registry.run ops = .ok (s, log) ∧ alone w s p = .ok (s', r, l) ∧ f s' r l = true := by
  unfold playAlone at h
  split at h
  · rename_i s log hs
    split at h
    · rename_i s' r l hr
      exact ⟨s, log, s', r, l, hs, hr, h⟩
    · cases h
  · cases h

theorem decode_progs {s : Reg} {x : Str} (h : (s.progs.all fun q => !q.names.contains x) = true) (g : Str) : ¬ progBound s x g := by
  rintro ⟨q, hq, _, hx⟩
  have := List.all_eq_true.mp h q hq
  simp [hx] at this

/-- What `create_ipcp` did when it returns. -/
def Created (type : Nat) (name : Str) (l : List Ev) (r : Int) : Prop :=
  (r = 0 → ∃ (pid : Nat) (i : Ipcp) (l0 : List Ev), l = [.did (.spawn type name) pid, .mine (.createIpcp ⟨type, pid, name, .boot⟩) (.int 0)] ++ l0 ++
      [.mine (.findIpcp pid) (.ipcp 0 (some i))] ∧ i.info.state = .operational) ∧
    (r ≠ 0 → r = -1 ∧ ∀ i, .mine (.createIpcp i) (.int 0) ∈ l →
      terms l = [] ∧ ∃ x l0, l = l0 ++ [.did (.waitpid i.pid) x, .mine (.destroyProc i.pid) (.int 0)])

/-- Events that only look or wait. -/
def Idle (l : List Ev) : Prop := terms l = [] ∧ ∀ i, .mine (.createIpcp i) (.int 0) ∉ l

/-- The events while `create_ipcp` waits. -/
def pre (type : Nat) (name : Str) (pid : Nat) (l0 : List Ev) : List Ev :=
  [.did (.spawn type name) pid, .mine (.createIpcp ⟨type, pid, name, .boot⟩) (.int 0)] ++ l0

theorem fail_created {type pid : Nat} {name : Str} {l0 : List Ev} {r : Int} (hl : Idle l0) (hr : r ≠ 0) :
    Holds (Created type name) (pre type name pid l0) (bootDone pid r) := by
  unfold bootDone
  rw [if_pos hr]
  intro x s1 s2 o ho
  cases destroyProc_out ho
  refine ⟨by simp, fun _ => ⟨rfl, fun i hi => ?_⟩⟩
  have : i.pid = pid := by
    simp only [pre, List.mem_append, List.mem_cons, Ev.mine.injEq, Op.createIpcp.injEq, List.not_mem_nil, or_false, reduceCtorEq, false_or, and_true, false_and] at hi
    rcases hi with hi | hi
    · rw [hi]
    · exact absurd hi (hl.2 i)
  rw [this]
  refine ⟨?_, x, pre type name pid l0, by simp⟩
  have := hl.1
  simp only [terms] at this
  simp [terms, pre, this]

theorem done_created {type pid : Nat} {name : Str} {l0 : List Ev} {i : Ipcp} (hi : i.info.state = .operational) :
    Holds (Created type name) (pre type name pid (l0 ++ [.mine (.findIpcp pid) (.ipcp 0 (some i))])) (bootDone pid 0) :=
  ⟨fun _ => ⟨pid, i, l0, by simp [pre], hi⟩, by simp⟩

theorem Idle.look {l0 : List Ev} {pid : Nat} {o : Out} (h : Idle l0) : Idle (l0 ++ [.mine (.findIpcp pid) o]) := by
  have := h.1
  simp only [terms] at this
  refine ⟨by simp [terms, this], fun i hc => h.2 i (by simpa using hc)⟩

theorem look_created {type pid : Nat} {name : Str} {l0 : List Ev} {i : Ipcp} {wait : Prg} (hl : Idle l0)
    (hw : ∀ l1, Idle l1 → Holds (Created type name) (pre type name pid l1) wait) :
    Holds (Created type name) (pre type name pid (l0 ++ [.mine (.findIpcp pid) (.ipcp 0 (some i))])) (bootLook wait (bootDone pid) i) := by
  unfold bootLook
  split
  · exact fail_created hl.look (by simp)
  · rename_i hi; exact done_created hi
  · exact hw _ hl.look
  · trivial

theorem wait_created {type pid : Nat} {name : Str} (n : Nat) : ∀ {l0 : List Ev}, Idle l0 → Holds (Created type name) (pre type name pid l0) (bootWait pid (bootDone pid) n) := by
  induction n with
  | zero =>
    intro l0 hl b s1 s2 o ho
    have hl1 : Idle (l0 ++ [.slept b]) := by
      have := hl.1
      simp only [terms] at this
      exact ⟨by simp [terms, this], fun i hc => hl.2 i (by simpa using hc)⟩
    have e : pre type name pid l0 ++ [.slept b] ++ [.mine (.findIpcp pid) o] = pre type name pid ((l0 ++ [.slept b]) ++ [.mine (.findIpcp pid) o]) := by simp [pre]
    rw [e]
    beta_reduce
    split
    · exact fail_created hl1.look (by simp [ETIMEDOUT])
    · exact fail_created hl1.look (by simp [EIPCP])
  | succ n ih =>
    intro l0 hl b s1 s2 o ho
    have hl1 : Idle (l0 ++ [.slept b]) := by
      have := hl.1
      simp only [terms] at this
      exact ⟨by simp [terms, this], fun i hc => hl.2 i (by simpa using hc)⟩
    have e : pre type name pid l0 ++ [.slept b] ++ [.mine (.findIpcp pid) o] = pre type name pid ((l0 ++ [.slept b]) ++ [.mine (.findIpcp pid) o]) := by simp [pre]
    rw [e]
    beta_reduce
    obtain ⟨_, r2, rfl, hr⟩ := findIpcp_out ho
    cases hi : ipcpOf s1 pid with
    | none => exact fail_created hl1.look (by simp [EIPCP])
    | some i =>
      have : r2 = 0 := hr.mpr (by rw [hi]; rfl)
      subst this
      dsimp only
      split
      · exact fail_created hl1.look (by simp [ETIMEDOUT])
      · exact look_created hl1 (fun l1 h1 => ih h1)

end Ouro.IrmdAdmin
