import Verif.Proof.IrmdAdmin

/-!
# Property C68: administrative commands of the IRM daemon

`alone` is a command that no other thread interferes with; `run` is an execution in which other threads call the registry at any time, with any calls.
-/

namespace Ouro.IrmdAdmin

open Registry

variable {s s' : Reg} {ops : List Op} {log : List (Op × Out)} {w : World}

/-- **C68.** Binding a process to a name (nobody interferes) succeeds exactly if the process is known and not bound to it. Then this binding is added and no other, and the name
exists; a new name has the policy to spill over. If it fails, the result is -1 and nothing changed. -/
theorem C68_bind_process (h : Registry.run ops = .ok (s, log)) {p : Nat} (hp : 0 < p) {x : Str} (hx : policy s x ≠ some .invalid) :
    ∃ s' r l, alone w s (bindProcess p x) = .ok (s', r, l) ∧ (r = 0 ↔ known s p ∧ ¬ bound s x p) ∧ (r ≠ 0 → r = -1 ∧ s' = s) ∧
      (r = 0 → (∀ y q, bound s' y q ↔ bound s y q ∨ (y = x ∧ q = p)) ∧
        ∀ y, policy s' y = if y = x then some ((policy s x).getD .spill) else policy s y) := by
  by_cases hk : known s p
  · have hk' := known_iff.mp hk
    cases hpol : policy s x with
    | some pol =>
      by_cases hb : bound s x p
      · have hs := (C24_bind h hp x).2 (.inr (.inr ((C24_bound h x p).mp hb)))
        refine ⟨s, -1, [.mine (.hasProc p) (.bool true), .mine (.hasName x) (.bool true), .mine (.bindProc x p) (.int (-1))], ?_, ?_, ?_, ?_⟩
        · simp [alone, bindProcess, hasProc_eq, hk', hasName_eq, hpol, hs, neg]
        · simp [hb]
        · simp
        · simp
      · obtain ⟨s', hs, hb'⟩ := (C24_bind h hp x).1 pol (by rw [← policy_live h, hpol]) (by rintro rfl; exact hx hpol) ((known_live h p).mp hk)
          (fun hc => hb ((C24_bound h x p).mpr hc))
        refine ⟨s', 0, [.mine (.hasProc p) (.bool true), .mine (.hasName x) (.bool true), .mine (.bindProc x p) (.int 0)], ?_, ?_, ?_, ?_⟩
        · simp [alone, bindProcess, hasProc_eq, hk', hasName_eq, hpol, hs, neg]
        · simp [hb, hk]
        · simp
        · refine fun _ => ⟨hb', fun y => ?_⟩
          have : policy s' y = policy s y := by
            rw [policy_live (run_snoc h hs), policy_live h, List.filterMap_append]
            simp [nameEv, List.filterMap_cons]
          rw [this]
          split
          · rename_i hy; subst hy; rw [hpol]; rfl
          · rfl
    | none =>
      obtain ⟨s1, h1⟩ := createName_new (pol := .spill) hpol
      have hr := run_snoc h h1
      have hp1 : ∀ y, policy s1 y = if y = x then some .spill else policy s y := by
        intro y
        rw [policy_live hr, policy_live h, List.filterMap_append]
        simp [nameEv, List.filterMap_cons, Spec.Registry.live, Spec.Registry.Ev.apply, Spec.FiniteMap.put]
      have hb1 : ∀ y q, bound s1 y q ↔ bound s y q := by
        intro y q
        rw [show bound s1 y q ↔ _ from C24_bound hr y q, show bound s y q ↔ _ from C24_bound h y q, List.filterMap_append]
        simp [bindEv, List.filterMap_cons]
      have hk1 : known s1 p := by
        rw [known_live hr, List.filterMap_append]
        simpa [procEv, List.filterMap_cons] using (known_live h p).mp hk
      have hb : ¬ bound s x p := by
        rintro ⟨n, hn, hnx, _⟩
        exact find_none_iff.mp (policy_none.mp hpol) n hn hnx
      obtain ⟨s', hs, hb'⟩ := (C24_bind hr hp x).1 .spill (by rw [← policy_live hr, hp1, if_pos rfl]) (by simp) ((known_live hr p).mp hk1)
          (fun hc => hb ((hb1 x p).mp ((C24_bound hr x p).mpr hc)))
      refine ⟨s', 0, [.mine (.hasProc p) (.bool true), .mine (.hasName x) (.bool false), .mine (.createName x .spill) (.int 0), .mine (.bindProc x p) (.int 0)], ?_, ?_, ?_, ?_⟩
      · simp [alone, bindProcess, hasProc_eq, hk', hasName_eq, hpol, h1, hs, neg]
      · simp [hb, hk]
      · simp
      · refine fun _ => ⟨fun y q => ?_, fun y => ?_⟩
        · rw [show bound s' y q ↔ _ from hb' y q, show boundTo s1 y q ↔ _ from hb1 y q]
        · have : policy s' y = policy s1 y := by
            rw [policy_live (run_snoc hr hs), policy_live hr, List.filterMap_append]
            simp [nameEv, List.filterMap_cons]
          rw [this, hp1]
          rfl
  · have hk' : (getProc s p).isSome = false := by rw [Bool.eq_false_iff]; exact fun hc => hk (known_iff.mpr hc)
    refine ⟨s, -1, [.mine (.hasProc p) (.bool false)], ?_, ?_, ?_, ?_⟩
    · simp [alone, bindProcess, hasProc_eq, hk']
    · simp [hk]
    · simp
    · simp

/-- **C68.** Binding a program to a name (nobody interferes) succeeds exactly if a program with the same last part of the path is not bound to it, and the daemon does not start this program
for the name. Then this binding is added, the program is started for the name if asked for, and the name exists; nothing else changes. If it fails, the result is -1 and no binding, name or
program to start changed. -/
theorem C68_bind_program (h : Registry.run ops = .ok (s, log)) {e0 : Str} {rest : List Str} {x : Str} {auto : Bool} (h1 : getProg s e0 = none) (h2 : strip e0 ≠ e0) :
    ∃ s' r l, alone w s (bindProgram (e0 :: rest) x auto) = .ok (s', r, l) ∧
      (r = 0 ↔ ¬ progBound s x (strip e0) ∧ ∀ e, autoStart s x e → e.head? ≠ some e0) ∧ (r ≠ 0 → r = -1) ∧
      (∀ y g, progBound s' y g ↔ progBound s y g ∨ (r = 0 ∧ y = x ∧ g = strip e0)) ∧
      (∀ y e, autoStart s' y e ↔ autoStart s y e ∨ (r = 0 ∧ auto = true ∧ y = x ∧ e = e0 :: rest)) ∧
      (∀ y q, bound s' y q ↔ bound s y q) ∧
      ∀ y, policy s' y = if r = 0 ∧ y = x then some ((policy s x).getD .spill) else policy s y := by
  have hp1 : Registry.step s (.hasProg e0) = .ok (s, .bool false) := by simp [Registry.step, hasProg, h1]
  obtain ⟨s1, hs1, hg1, hk1, hb1, hn1, hq1⟩ := createProg_all h (strip e0) e0
  have r1 := run_snoc h hs1
  have hn0 : Registry.step s1 (.destroyProg e0) = .ok (s1, .int (-1)) := by
    have := hk1 e0 h2.symm
    rw [h1] at this
    simp only [Option.isSome_none, Option.isSome_eq_false_iff, Option.isNone_iff_eq_none] at this
    simp [Registry.step, destroyProg, this]
  have ep : ∀ y, policy s1 y = policy s y := fun y => by simp [policy, hn1]
  have ea : ∀ y e, autoStart s1 y e ↔ autoStart s y e := fun y e => by simp [autoStart, hn1]
  have eb : ∀ y q, bound s1 y q ↔ bound s y q := fun y q => by simp [bound, hn1]
  have hC : (progBound s1 x (strip e0) ∨ ∃ e, autoStart s1 x e ∧ e.head? = some e0) ↔ (progBound s x (strip e0) ∨ ∃ e, autoStart s x e ∧ e.head? = some e0) := by
    simp only [hb1, ea]
  have hC' : (¬ progBound s x (strip e0) ∧ ∀ e, autoStart s x e → e.head? ≠ some e0) ↔ ¬ (progBound s x (strip e0) ∨ ∃ e, autoStart s x e ∧ e.head? = some e0) := by
    simp
  rw [hC']
  cases hpol : policy s x with
  | some pol =>
    have hn : (policy s1 x).isSome = true := by rw [ep, hpol]; rfl
    by_cases hc : progBound s x (strip e0) ∨ ∃ e, autoStart s x e ∧ e.head? = some e0
    · have hs2 := (bindProg_all r1 (rest := rest) (auto := auto) hn hg1).1 (hC.mpr hc)
      have hl : ∃ l, alone w s (bindProgram (e0 :: rest) x auto) = .ok (s1, -1, l) := by
        cases hz : (strip e0).isEmpty with
        | true => simp only [bindProgram, hz]; simp [alone, hp1, hs1, hasName_eq, hn, hs2, hn0, neg]
        | false => simp only [bindProgram, hz]; simp [alone, hp1, hs1, hasName_eq, hn, hs2, hn0, neg]
      obtain ⟨l, hl⟩ := hl
      refine ⟨s1, -1, l, hl, by simp [hc], fun _ => rfl, ?_, ?_, eb, ?_⟩
      · simpa using hb1
      · simpa using ea
      · simpa using ep
    · obtain ⟨s', hs2, f1, f2, f3, f4⟩ := (bindProg_all r1 (rest := rest) (auto := auto) hn hg1).2 (fun h => hc (hC.mp h))
      have hl : ∃ l, alone w s (bindProgram (e0 :: rest) x auto) = .ok (s', 0, l) := by
        simp [alone, bindProgram, hp1, hs1, hasName_eq, hn, hs2, neg]
      obtain ⟨l, hl⟩ := hl
      refine ⟨s', 0, l, hl, by simp [hc], by simp, fun y g => ?_, fun y e => ?_, fun y q => ?_, fun y => ?_⟩
      · rw [f1, hb1]; simp
      · rw [f4, ea]; simp
      · rw [f2, eb]
      · rw [f3, ep]
        by_cases hy : y = x
        · subst hy; simp [hpol]
        · simp [hy]
  | none =>
    have hn : policy s1 x = none := by rw [ep, hpol]
    obtain ⟨s2, hs2, g1, g2, g3, g4, g5⟩ := createName_all r1 (pol := .spill) hn
    have r2 := run_snoc r1 hs2
    have hb2 : ∀ y g, progBound s2 y g ↔ progBound s1 y g := fun y g => by simp [progBound, g4]
    have hc : ¬ (progBound s x (strip e0) ∨ ∃ e, autoStart s x e ∧ e.head? = some e0) := by
      have hno : ∀ n ∈ s.names, n.name ≠ x := find_none_iff.mp (policy_none.mp hpol)
      rintro (hc | ⟨e, ⟨n, hn, hnx, _⟩, _⟩)
      · obtain ⟨n, hn, hnx⟩ := (bnd_inv h).named x _ ((progBound_log h x _).mp hc)
        exact hno n hn hnx
      · exact hno n hn hnx
    have hx2 : (policy s2 x).isSome = true := by rw [g1, if_pos rfl]; rfl
    have hg2 : (getProg s2 (strip e0)).isSome := by simpa [getProg, g4] using hg1
    obtain ⟨s', hs3, f1, f2, f3, f4⟩ := (bindProg_all r2 (rest := rest) (auto := auto) hx2 hg2).2 (by
      simp only [hb2, g3]; exact fun h => hc (hC.mp h))
    have hl : ∃ l, alone w s (bindProgram (e0 :: rest) x auto) = .ok (s', 0, l) := by
      simp [alone, bindProgram, hp1, hs1, hasName_eq, hn, hs2, hs3, neg]
    obtain ⟨l, hl⟩ := hl
    refine ⟨s', 0, l, hl, by simp [hc], by simp, fun y g => ?_, fun y e => ?_, fun y q => ?_, fun y => ?_⟩
    · rw [f1, hb2, hb1]; simp
    · rw [f4, g3, ea]; simp
    · rw [f2, g2, eb]
    · rw [f3, g1, ep]; simp

/-- **C68 (part).** Creating a name returns 0, and the name exists afterwards; nothing else changes. What is missing: an existing name keeps its old policy, see `C68_name_policy_violated`. -/
theorem C68_name_create_partial (h : Registry.run ops = .ok (s, log)) (x : Str) (pol : Pol) :
    ∃ s' l, alone w s (nameCreate x pol) = .ok (s', 0, l) ∧ (∀ y, policy s' y = if y = x then some ((policy s x).getD pol) else policy s y) ∧
      (∀ y q, bound s' y q ↔ bound s y q) ∧ (∀ y g, progBound s' y g ↔ progBound s y g) ∧ ∀ y e, autoStart s' y e ↔ autoStart s y e := by
  cases hx : policy s x with
  | none =>
    obtain ⟨s1, h1, g1, g2, g3, g4, _⟩ := createName_all h (pol := pol) hx
    refine ⟨s1, [.mine (.createName x pol) (.int 0)], ?_, g1, g2, fun y g => by simp [progBound, g4], g3⟩
    simp [alone, nameCreate, h1, neg, EEXIST]
  | some q =>
    obtain ⟨n, hn, _⟩ := policy_some hx
    have h1 : Registry.step s (.createName x pol) = .ok (s, .int (-EEXIST)) := by simp [Registry.step, createName, hn]
    refine ⟨s, [.mine (.createName x pol) (.int (-EEXIST))], by simp [alone, nameCreate, h1], fun y => ?_, fun _ _ => .rfl, fun _ _ => .rfl, fun _ _ => .rfl⟩
    split
    · rename_i hy; subst hy; simpa using hx
    · rfl

open Classical in
/-- **C68.** Registering a name (nobody interferes) sends the IPCP the name, hashed with the algorithm of its layer, and nothing else. The result is 0 exactly if the IPCP answered with 0;
an unknown name or IPCP is told apart and no message is sent. The registry stays the same. -/
theorem C68_name_reg {x : Str} {p : Nat} (hp : 0 < p) :
    ∃ r l, alone w s (nameReg x p) = .ok (s, r, l) ∧
      match policy s x, ipcpOf s p with
      | none, _ => r = -ENAME ∧ sent l = []
      | some _, none => r = -EIPCP ∧ sent l = []
      | some _, some i => sent l = [(p, .reg i.layer.algo x)] ∧ r = if Fine (w.reply p (.reg i.layer.algo x)) then 0 else -1 := by
  cases hx : policy s x with
  | none => exact ⟨-ENAME, [.mine (.hasName x) (.bool false)], by simp [alone, nameReg, onName, hasName_eq, hx], rfl, rfl⟩
  | some pol =>
    cases hi : ipcpOf s p with
    | none =>
      exact ⟨-EIPCP, [.mine (.hasName x) (.bool true), .mine (.findIpcp p) (.ipcp (-1) none)],
        by simp [alone, nameReg, onName, hasName_eq, hx, findIpcp_eq hp, hi], rfl, rfl⟩
    | some i =>
      refine ⟨_, [.mine (.hasName x) (.bool true), .mine (.findIpcp p) (.ipcp 0 (some i)), .asked p (.reg i.layer.algo x) (w.reply p (.reg i.layer.algo x))],
        ?_, rfl, rfl⟩
      by_cases hf : Fine (w.reply p (.reg i.layer.algo x))
      · simp [alone, nameReg, onName, hasName_eq, hx, findIpcp_eq hp, hi, hf, fine_iff.mp hf]
      · simp [alone, nameReg, onName, hasName_eq, hx, findIpcp_eq hp, hi, hf, mt fine_iff.mpr hf]

open Classical in
/-- **C68.** The same when a name is unregistered. -/
theorem C68_name_unreg {x : Str} {p : Nat} (hp : 0 < p) :
    ∃ r l, alone w s (nameUnreg x p) = .ok (s, r, l) ∧
      match policy s x, ipcpOf s p with
      | none, _ => r = -ENAME ∧ sent l = []
      | some _, none => r = -EIPCP ∧ sent l = []
      | some _, some i => sent l = [(p, .unreg i.layer.algo x)] ∧ r = if Fine (w.reply p (.unreg i.layer.algo x)) then 0 else -1 := by
  cases hx : policy s x with
  | none => exact ⟨-ENAME, [.mine (.hasName x) (.bool false)], by simp [alone, nameUnreg, onName, hasName_eq, hx], rfl, rfl⟩
  | some pol =>
    cases hi : ipcpOf s p with
    | none =>
      exact ⟨-EIPCP, [.mine (.hasName x) (.bool true), .mine (.findIpcp p) (.ipcp (-1) none)],
        by simp [alone, nameUnreg, onName, hasName_eq, hx, findIpcp_eq hp, hi], rfl, rfl⟩
    | some i =>
      refine ⟨_, [.mine (.hasName x) (.bool true), .mine (.findIpcp p) (.ipcp 0 (some i)), .asked p (.unreg i.layer.algo x) (w.reply p (.unreg i.layer.algo x))],
        ?_, rfl, rfl⟩
      by_cases hf : Fine (w.reply p (.unreg i.layer.algo x))
      · simp [alone, nameUnreg, onName, hasName_eq, hx, findIpcp_eq hp, hi, hf, fine_iff.mp hf]
      · simp [alone, nameUnreg, onName, hasName_eq, hx, findIpcp_eq hp, hi, hf, mt fine_iff.mpr hf]

open Classical in
/-- **C68.** Connecting and disconnecting a component: only unicast and broadcast IPCPs get the message, with the arguments of the command; the result is 0 exactly if the IPCP answered with 0. -/
theorem C68_connect {p : Nat} (hp : 0 < p) {m : Ask} {dst comp : Str} {prg : Prg}
    (hm : (m = .connect dst comp ∧ prg = connectIpcp p dst comp) ∨ (m = .disconnect dst comp ∧ prg = disconnectIpcp p dst comp)) :
    ∃ r l, alone w s prg = .ok (s, r, l) ∧
      match ipcpOf s p with
      | none => r = -EIPCP ∧ sent l = []
      | some i => if i.info.type = IPCP_UNICAST ∨ i.info.type = IPCP_BROADCAST then sent l = [(p, m)] ∧ r = (if Fine (w.reply p m) then 0 else -EPERM)
          else r = -EIPCP ∧ sent l = [] := by
  have hprg : prg = onIpcp p m := by
    obtain ⟨rfl, rfl⟩ | ⟨rfl, rfl⟩ := hm <;> rfl
  rw [hprg]
  cases hi : ipcpOf s p with
  | none => exact ⟨-EIPCP, [.mine (.findIpcp p) (.ipcp (-1) none)], by simp [alone, onIpcp, findIpcp_eq hp, hi], rfl, rfl⟩
  | some i =>
    by_cases ht : i.info.type = IPCP_UNICAST ∨ i.info.type = IPCP_BROADCAST
    · have ht' : ¬ (i.info.type ≠ IPCP_UNICAST ∧ i.info.type ≠ IPCP_BROADCAST) := by
        rintro ⟨h1, h2⟩; exact ht.elim h1 h2
      refine ⟨(if Fine (w.reply p m) then 0 else -EPERM), [.mine (.findIpcp p) (.ipcp 0 (some i)), .asked p m (w.reply p m)], ?_, by dsimp only; rw [if_pos ht]; exact ⟨rfl, rfl⟩⟩
      simp only [alone, onIpcp, findIpcp_eq hp, hi, Option.isSome_some, if_true, if_neg ht']
      by_cases hf : Fine (w.reply p m)
      · simp [alone, hf, fine_iff.mp hf]
      · simp [alone, hf, mt fine_iff.mpr hf]
    · refine ⟨-EIPCP, [.mine (.findIpcp p) (.ipcp 0 (some i))], ?_, by dsimp only; rw [if_neg ht]; exact ⟨rfl, rfl⟩⟩
      rw [not_or] at ht
      simp [alone, onIpcp, findIpcp_eq hp, hi, ht]

/-- **C68 (part).** Bootstrapping an IPCP (nobody interferes) sends it the configuration. The result is 0 exactly if it answered with 0 and a layer; then the registry has this layer for this IPCP, and
no other IPCP changed. Otherwise the result is -1 and nothing changed. What is missing: an IPCP that is bootstrapped already; the registry has an assertion against this. -/
theorem C68_bootstrap_partial (h : Registry.run ops = .ok (s, log)) {p : Nat} (hp : 0 < p) (conf : Conf) (ho : ∀ i, ipcpOf s p = some i → i.info.state = .operational) :
    ∃ s' r l, alone w s (bootstrapIpcp p conf) = .ok (s', r, l) ∧ (r ≠ 0 → r = -1 ∧ s' = s) ∧
      sent l = (if (ipcpOf s p).isSome then [(p, .bootstrap (confOf conf))] else []) ∧
      (r = 0 ↔ (ipcpOf s p).isSome ∧ ∃ a, w.reply p (.bootstrap (confOf conf)) = some ⟨some 0, some a⟩) ∧
      ∀ i a, ipcpOf s p = some i → w.reply p (.bootstrap (confOf conf)) = some ⟨some 0, some a⟩ →
        ∀ q, ipcpOf s' q = if q = p then some ⟨{ i.info with state := .bootstrapped }, a⟩ else ipcpOf s q := by
  cases hi : ipcpOf s p with
  | none => exact ⟨s, -1, [.mine (.findIpcp p) (.ipcp (-1) none)], by simp [alone, bootstrapIpcp, findIpcp_eq hp, hi], by simp, by simp [sent], by simp, by simp⟩
  | some i =>
    by_cases ha : ∃ a, w.reply p (.bootstrap (confOf conf)) = some ⟨some 0, some a⟩
    · obtain ⟨a, ha⟩ := ha
      obtain ⟨s', hs⟩ := setLayer_all (l := a) (st := .bootstrapped) hp hi (ho i hi) (by simp)
      refine ⟨s', 0, [.mine (.findIpcp p) (.ipcp 0 (some i)), .asked p (.bootstrap (confOf conf)) (some ⟨some 0, some a⟩),
        .mine (.setLayer { i.info with state := .bootstrapped } a) (.int 0)], ?_, by simp, by simp [sent], by simp [ha], ?_⟩
      · have ha' := ha
        unfold confOf at ha'
        simp [alone, bootstrapIpcp, findIpcp_eq hp, hi, ha', layerOf, hs, neg, confOf]
      · intro i' a' hi' ha' q
        cases hi'
        rw [ha] at ha'
        cases ha'
        exact setLayer_after h hi hs q
    · refine ⟨s, -1, [.mine (.findIpcp p) (.ipcp 0 (some i)), .asked p (.bootstrap (confOf conf)) (w.reply p (.bootstrap (confOf conf)))], ?_, by simp, by simp [sent], by simp [ha], ?_⟩
      · have hn := layer_none ha
        simp only [alone, bootstrapIpcp, findIpcp_eq hp, hi, Option.isSome_some, if_true, ← confOf.eq_1]
      · intro _ a _ h2; exact absurd ⟨a, h2⟩ ha

/-- **C68 (part).** The same for enrolling an IPCP. What is missing: an IPCP that answers with a positive result, see `C68_enroll_positive_violated`. -/
theorem C68_enroll_partial (h : Registry.run ops = .ok (s, log)) {p : Nat} (hp : 0 < p) (dst : Str) (ho : ∀ i, ipcpOf s p = some i → i.info.state = .operational)
    (hr : ∀ a x, w.reply p (.enroll dst) = some a → a.result = some x → x ≤ 0) :
    ∃ s' r l, alone w s (enrollIpcp p dst) = .ok (s', r, l) ∧ (r ≠ 0 → r = -1 ∧ s' = s) ∧
      sent l = (if (ipcpOf s p).isSome then [(p, .enroll dst)] else []) ∧
      (r = 0 ↔ (ipcpOf s p).isSome ∧ ∃ a, w.reply p (.enroll dst) = some ⟨some 0, some a⟩) ∧
      ∀ i a, ipcpOf s p = some i → w.reply p (.enroll dst) = some ⟨some 0, some a⟩ →
        ∀ q, ipcpOf s' q = if q = p then some ⟨i.info, a⟩ else ipcpOf s q := by
  cases hi : ipcpOf s p with
  | none => exact ⟨s, -1, [.mine (.findIpcp p) (.ipcp (-1) none)], by simp [alone, enrollIpcp, findIpcp_eq hp, hi], by simp, by simp [sent], by simp, by simp⟩
  | some i =>
    by_cases ha : ∃ a, w.reply p (.enroll dst) = some ⟨some 0, some a⟩
    · obtain ⟨a, ha⟩ := ha
      obtain ⟨s', hs⟩ := setLayer_all (l := a) (st := i.info.state) hp hi (ho i hi) (by rw [ho i hi]; simp)
      have hs' : Registry.step s (.setLayer i.info a) = .ok (s', .int 0) := hs
      refine ⟨s', 0, [.mine (.findIpcp p) (.ipcp 0 (some i)), .asked p (.enroll dst) (some ⟨some 0, some a⟩),
        .mine (.setLayer i.info a) (.int 0)], ?_, by simp, by simp [sent], by simp [ha], ?_⟩
      · simp [alone, enrollIpcp, findIpcp_eq hp, hi, ha, layerOf, hs', neg]
      · intro i' a' hi' ha' q
        cases hi'
        rw [ha] at ha'
        cases ha'
        exact setLayer_after h hi hs' q
    · refine ⟨s, -1, [.mine (.findIpcp p) (.ipcp 0 (some i)), .asked p (.enroll dst) (w.reply p (.enroll dst))], ?_, by simp, by simp [sent], by simp [ha], ?_⟩
      · have hn := layer_neg ha hr
        simp [alone, enrollIpcp, findIpcp_eq hp, hi, hn]
      · intro _ a _ h2; exact absurd ⟨a, h2⟩ ha

/-- **C68.** Destroying an IPCP (nobody interferes) sends one signal, to this process. The result is 0 exactly if it could be sent; then the process and its bindings are gone, and nothing else. -/
theorem C68_destroy_ipcp (h : Registry.run ops = .ok (s, log)) {p : Nat} (hp : 0 < p) :
    (w.res (.term p) < 0 → ∃ l, alone w s (destroyIpcp p) = .ok (s, -1, l)) ∧
    (0 ≤ w.res (.term p) → ∃ s' l, alone w s (destroyIpcp p) = .ok (s', 0, l) ∧ terms l = [p] ∧ (∀ q, ipcpOf s' q = if q = p then none else ipcpOf s q) ∧
      (∀ q, known s' q ↔ known s q ∧ q ≠ p) ∧ (∀ x q, bound s' x q ↔ bound s x q ∧ q ≠ p) ∧ ∀ x, policy s' x = policy s x) := by
  constructor
  · intro ht
    exact ⟨[.did (.term p) (w.res (.term p))], by simp [alone, destroyIpcp, ht]⟩
  · intro ht
    obtain ⟨s', hs⟩ := destroyProc_total (bnd_inv h) hp
    have hs : Registry.step s (.destroyProc p) = .ok (s', .int 0) := hs
    refine ⟨s', [.did (.term p) (w.res (.term p)), .did (.waitpid p) (w.res (.waitpid p)), .mine (.destroyProc p) (.int 0)], ?_, by simp [terms], fun q => ?_, fun q => ?_,
      fun x q => ?_, fun x => ?_⟩
    · simp [alone, destroyIpcp, Int.not_lt.mpr ht, hs, neg]
    · rw [ipcpOf_live (run_snoc h hs), ipcpOf_live h, List.filterMap_append]
      rw [show List.filterMap ipcpEv [(Op.destroyProc p, Out.int 0)] = [.del p] from rfl]
      simp only [Spec.Registry.live, List.foldl_append, List.foldl_cons, List.foldl_nil, Spec.Registry.Ev.apply, Spec.FiniteMap.remove]
    · rw [known_live (run_snoc h hs), known_live h, List.filterMap_append]
      rw [show List.filterMap procEv [(Op.destroyProc p, Out.int 0)] = [.del p] from rfl]
      simp only [Spec.Registry.live, List.foldl_append, List.foldl_cons, List.foldl_nil, Spec.Registry.Ev.apply, Spec.FiniteMap.remove]
      by_cases hq : q = p <;> simp [hq]
    · rw [bound_log (run_snoc h hs), bound_log h, List.filterMap_append]
      simp [bindEv, Spec.Registry.bindings, Spec.Registry.BEv.bindings]
    · rw [policy_live (run_snoc h hs), policy_live h, List.filterMap_append]
      simp [nameEv, List.filterMap_cons]

/-! ## Whatever the others do -/

section interleaved

variable {acts : List Act} {r : Int} {l : List Ev}

/-- **C68.** Whatever other threads do meanwhile: if binding a process is reported as done, the last thing the command did was the binding. If it is reported as failed, it did not bind,
and if it created the name it destroyed it at the end. -/
theorem C68_bind_process_done {p : Nat} {x : Str} (h : run s (bindProcess p x) acts = some (.ok (s', .ret r, l))) :
    (r = 0 → ∃ l0, own l = l0 ++ [.mine (.bindProc x p) (.int 0)]) ∧
    (r ≠ 0 → r = -1 ∧ .mine (.bindProc x p) (.int 0) ∉ own l ∧
      (x ≠ [] → .mine (.createName x .spill) (.int 0) ∈ own l → ∃ l0 o, own l = l0 ++ [.mine (.destroyName x) o])) := by
  refine holds_run (H := []) (Q := fun l r => (r = 0 → ∃ l0, l = l0 ++ [.mine (.bindProc x p) (.int 0)]) ∧
    (r ≠ 0 → r = -1 ∧ .mine (.bindProc x p) (.int 0) ∉ l ∧
      (x ≠ [] → .mine (.createName x .spill) (.int 0) ∈ l → ∃ l0 o, l = l0 ++ [.mine (.destroyName x) o]))) ?_ h
  unfold bindProcess
  intro s1 s2 o ho
  beta_reduce
  split
  · simp [Holds, hasProc_out ho]
  · intro s3 s4 o2 ho2
    beta_reduce
    have hb : ∀ (new : Bool) (H : List Ev), .mine (.bindProc x p) (.int 0) ∉ H → (.mine (.createName x .spill) (.int 0) ∈ H → new = true) →
      Holds (fun l r => (r = 0 → ∃ l0, l = l0 ++ [.mine (.bindProc x p) (.int 0)]) ∧
        (r ≠ 0 → r = -1 ∧ .mine (.bindProc x p) (.int 0) ∉ l ∧
        (x ≠ [] → .mine (.createName x .spill) (.int 0) ∈ l → ∃ l0 o, l = l0 ++ [.mine (.destroyName x) o]))) H
        (.reg (.bindProc x p) fun o => if neg o then if new && !x.isEmpty then .reg (.destroyName x) fun _ => .ret (-1) else .ret (-1) else .ret 0) := by
      intro new H h1 h2 s5 s6 o3 ho3
      beta_reduce
      obtain ⟨_, ⟨_, rfl, _⟩ | ⟨_, _, _, _, _, _, rfl, _⟩⟩ := bindProc_ok ho3
      · rw [show neg (.int (-1)) = true from rfl, if_pos rfl]
        split
        · intro s7 s8 o4 ho4
          refine ⟨by simp, fun _ => ⟨rfl, ?_, fun _ _ => ⟨_, o4, rfl⟩⟩⟩
          simp [h1]
        · rename_i hn
          refine ⟨by simp, fun _ => ⟨rfl, by simp [h1], fun hx hc => ?_⟩⟩
          have := h2 (by simpa using hc)
          simp [this, hx] at hn
      · simp only [neg]
        refine ⟨fun _ => ⟨H, rfl⟩, by simp⟩
    split
    · refine hb false _ ?_ ?_
      · simp
      · simp
    · intro s5 s6 o3 ho3
      beta_reduce
      obtain ⟨_, _, _, rfl⟩ | ⟨_, rfl, _⟩ := createName_ok ho3
      · simp [neg, EEXIST, Holds]
      · simp only [neg]
        refine hb true _ ?_ ?_
        · simp
        · simp

/-- **C68.** The same for programs. -/
theorem C68_bind_program_done {e0 : Str} {rest : List Str} {x : Str} {auto : Bool} (h : run s (bindProgram (e0 :: rest) x auto) acts = some (.ok (s', .ret r, l))) :
    (r = 0 → ∃ l0, own l = l0 ++ [.mine (.bindProg x (e0 :: rest) auto) (.int 0)]) ∧
    (r ≠ 0 → r = -1 ∧ .mine (.bindProg x (e0 :: rest) auto) (.int 0) ∉ own l ∧
      (x ≠ [] → .mine (.createName x .spill) (.int 0) ∈ own l → ∃ o, .mine (.destroyName x) o ∈ own l)) := by
  refine holds_run (H := []) (Q := ProgDone (e0 :: rest) x auto) ?_ h
  have hu : ∀ (new : Bool) (H : List Ev), .mine (.bindProg x (e0 :: rest) auto) (.int 0) ∉ H →
      (x ≠ [] → .mine (.createName x .spill) (.int 0) ∈ H → ∃ o, .mine (.destroyName x) o ∈ H) →
      Holds (ProgDone (e0 :: rest) x auto) H (if new && !(strip e0).isEmpty then .reg (.destroyProg e0) fun _ => .ret (-1) else .ret (-1)) := by
    intro new H h1 h2
    split
    · intro s7 s8 o4 ho4
      refine ⟨by simp, fun _ => ⟨rfl, by simpa using h1, fun hx hc => ?_⟩⟩
      obtain ⟨o, ho⟩ := h2 hx (by simpa using hc)
      exact ⟨o, List.mem_append_left _ ho⟩
    · exact ⟨by simp, fun _ => ⟨rfl, h1, h2⟩⟩
  have hb : ∀ (newName newProg : Bool) (H : List Ev), .mine (.bindProg x (e0 :: rest) auto) (.int 0) ∉ H →
      (.mine (.createName x .spill) (.int 0) ∈ H → newName = true) →
      Holds (ProgDone (e0 :: rest) x auto) H (.reg (.bindProg x (e0 :: rest) auto) fun o => if neg o then
        if newName && !x.isEmpty then .reg (.destroyName x) fun _ =>
          (if newProg && !(strip e0).isEmpty then .reg (.destroyProg e0) fun _ => .ret (-1) else .ret (-1))
        else (if newProg && !(strip e0).isEmpty then .reg (.destroyProg e0) fun _ => .ret (-1) else .ret (-1)) else .ret 0) := by
    intro newName newProg H h1 h2 s5 s6 o3 ho3
    beta_reduce
    obtain ⟨_, _, _, ⟨_, rfl, _⟩ | ⟨_, _, _, _, _, _, rfl, _⟩⟩ :=
      bindProg_ok (s := s5) (s' := s6) (n := x) (ex := e0 :: rest) (a := auto) (o := o3) ho3
    · rw [show neg (.int (-1)) = true from rfl, if_pos rfl]
      split
      · intro s7 s8 o4 ho4
        exact hu _ _ (by simp [h1]) (fun _ _ => ⟨o4, by simp⟩)
      · rename_i hn
        refine hu _ _ (by simp [h1]) fun hx hc => ?_
        have := h2 (by simpa using hc)
        simp [this, hx] at hn
    · exact ⟨fun _ => ⟨H, rfl⟩, by simp⟩
  have hw : ∀ (newProg : Bool) (H : List Ev), .mine (.bindProg x (e0 :: rest) auto) (.int 0) ∉ H → .mine (.createName x .spill) (.int 0) ∉ H →
      Holds (ProgDone (e0 :: rest) x auto) H (.reg (.hasName x) fun o =>
        if o = .bool true then (.reg (.bindProg x (e0 :: rest) auto) fun o => if neg o then
          if false && !x.isEmpty then .reg (.destroyName x) fun _ =>
            (if newProg && !(strip e0).isEmpty then .reg (.destroyProg e0) fun _ => .ret (-1) else .ret (-1))
          else (if newProg && !(strip e0).isEmpty then .reg (.destroyProg e0) fun _ => .ret (-1) else .ret (-1)) else .ret 0)
        else .reg (.createName x .spill) fun o => if neg o then
          (if newProg && !(strip e0).isEmpty then .reg (.destroyProg e0) fun _ => .ret (-1) else .ret (-1)) else
          (.reg (.bindProg x (e0 :: rest) auto) fun o => if neg o then
          if true && !x.isEmpty then .reg (.destroyName x) fun _ =>
            (if newProg && !(strip e0).isEmpty then .reg (.destroyProg e0) fun _ => .ret (-1) else .ret (-1))
          else (if newProg && !(strip e0).isEmpty then .reg (.destroyProg e0) fun _ => .ret (-1) else .ret (-1)) else .ret 0)) := by
    intro newProg H h1 h2 s3 s4 o2 ho2
    beta_reduce
    split
    · exact hb false _ _ (by simp [h1]) (by simp [h2])
    · intro s5 s6 o3 ho3
      beta_reduce
      obtain ⟨_, _, _, rfl⟩ | ⟨_, rfl, _⟩ := createName_ok ho3
      · rw [show neg (.int (-EEXIST)) = true from rfl, if_pos rfl]
        exact hu _ _ (by simp [h1]) (by simp [h2, EEXIST])
      · exact hb true _ _ (by simp [h1]) (by simp)
  intro s1 s2 o ho
  beta_reduce
  split
  · exact hw false _ (by simp) (by simp)
  · intro s3 s4 o2 ho2
    beta_reduce
    obtain ⟨rfl, _⟩ := createProg_ok ho2
    exact hw true _ (by simp) (by simp)

/-- **C68.** Whatever other threads do meanwhile, unbinding and destroying a name are one call of the registry, and report its result. -/
theorem C68_unbind_done {op : Op} {prg : Prg} {g x : Str} {p : Nat} (hc : (prg = unbindProgram g none ∧ op = .destroyProg g) ∨ (prg = unbindProgram g (some x) ∧ op = .unbindProg x g) ∨
      (prg = unbindProcess p none ∧ op = .destroyProc p) ∨ (prg = unbindProcess p (some x) ∧ op = .unbindProc x p) ∨ (prg = nameDestroy x ∧ op = .destroyName x))
    (h : run s prg acts = some (.ok (s', .ret r, l))) : ∃ o, own l = [.mine op o] ∧ (r = 0 ↔ o = .int 0) ∧ (r ≠ 0 → r = -1) := by
  refine holds_run (H := []) (Q := fun l r => ∃ o, l = [.mine op o] ∧ (r = 0 ↔ o = .int 0) ∧ (r ≠ 0 → r = -1)) ?_ h
  have key : ∀ o, (o = .int (-1) ∨ o = .int 0) → Holds (fun l r => ∃ o, l = [.mine op o] ∧ (r = 0 ↔ o = .int 0) ∧ (r ≠ 0 → r = -1)) ([] ++ [.mine op o]) (if neg o then .ret (-1) else .ret 0) := by
    rintro o (rfl | rfl) <;> simp [neg, Holds]
  obtain ⟨rfl, rfl⟩ | ⟨rfl, rfl⟩ | ⟨rfl, rfl⟩ | ⟨rfl, rfl⟩ | ⟨rfl, rfl⟩ := hc
  · intro s1 s2 o ho
    refine key o ?_
    obtain ⟨_, _, h⟩ | ⟨_, _, h, _⟩ := destroyProg_ok ho <;> simp [h]
  · intro s1 s2 o ho
    refine key o ?_
    obtain ⟨_, h, _⟩ | ⟨_, _, _, _, _, h, _⟩ := unbindProg_ok ho <;> simp [h]
  · intro s1 s2 o ho
    refine key o (.inr ?_)
    exact destroyProc_out ho
  · intro s1 s2 o ho
    refine key o ?_
    obtain ⟨_, ⟨_, h, _⟩ | ⟨_, _, _, _, _, _, h, _⟩⟩ := unbindProc_ok ho <;> simp [h]
  · intro s1 s2 o ho
    refine key o ?_
    obtain ⟨_, _, h⟩ | ⟨_, _, h, _⟩ := destroyName_ok ho <;> simp [h]

/-- **C68.** Whatever other threads do meanwhile: if registering (or unregistering) a name is reported as done, the name existed, the IPCP was there and had a layer, and it accepted the hash of the name for
this layer. If it is reported as failed, no IPCP accepted anything. -/
theorem C68_name_reg_done {x : Str} {p : Nat} {m : Nat → Ask} {prg : Prg} (hm : (m = (.reg · x) ∧ prg = nameReg x p) ∨ (m = (.unreg · x) ∧ prg = nameUnreg x p))
    (h : run s prg acts = some (.ok (s', .ret r, l))) :
    (r = 0 → ∃ i a, own l = [.mine (.hasName x) (.bool true), .mine (.findIpcp p) (.ipcp 0 (some i)), .asked p (m i.layer.algo) a] ∧ Fine a) ∧
    (r ≠ 0 → ∀ q n a, .asked q n a ∈ own l → ¬ Fine a) := by
  have hprg : prg = onName x p m := by
    obtain ⟨rfl, rfl⟩ | ⟨rfl, rfl⟩ := hm <;> rfl
  subst hprg
  refine holds_run (H := []) (Q := fun l r => (r = 0 → ∃ i a, l = [.mine (.hasName x) (.bool true), .mine (.findIpcp p) (.ipcp 0 (some i)), .asked p (m i.layer.algo) a] ∧ Fine a) ∧
    (r ≠ 0 → ∀ q n a, .asked q n a ∈ l → ¬ Fine a)) ?_ h
  intro s1 s2 o ho
  beta_reduce
  split
  · simp [Holds, ENAME]
  · rename_i hn
    have hn : o = .bool true := by simpa using hn
    subst hn
    intro s3 s4 o2 ho2
    beta_reduce
    obtain ⟨_, r2, rfl, hr⟩ := findIpcp_out ho2
    cases hi : ipcpOf s3 p with
    | none => simp [Holds, EIPCP]
    | some i =>
      have : r2 = 0 := hr.mpr (by rw [hi]; rfl)
      subst this
      intro a
      beta_reduce
      by_cases hf : Fine a
      · simp [fine_iff.mp hf, Holds, hf]
      · simp [mt fine_iff.mpr hf, Holds]
        rintro _ _ _ _ _ rfl; exact hf

/-- **C68.** Whatever other threads do meanwhile: if connecting (or disconnecting) is reported as done, the IPCP did it. If it is reported as failed, it did not. -/
theorem C68_connect_done {p : Nat} {m : Ask} {dst comp : Str} {prg : Prg}
    (hm : (m = .connect dst comp ∧ prg = connectIpcp p dst comp) ∨ (m = .disconnect dst comp ∧ prg = disconnectIpcp p dst comp))
    (h : run s prg acts = some (.ok (s', .ret r, l))) :
    (r = 0 → ∃ i a, own l = [.mine (.findIpcp p) (.ipcp 0 (some i)), .asked p m a] ∧ (i.info.type = IPCP_UNICAST ∨ i.info.type = IPCP_BROADCAST) ∧ Fine a) ∧
    (r ≠ 0 → ∀ q n a, .asked q n a ∈ own l → ¬ Fine a) := by
  have hprg : prg = onIpcp p m := by
    obtain ⟨rfl, rfl⟩ | ⟨rfl, rfl⟩ := hm <;> rfl
  subst hprg
  refine holds_run (H := []) (Q := fun l r => (r = 0 → ∃ i a, l = [.mine (.findIpcp p) (.ipcp 0 (some i)), .asked p m a] ∧
    (i.info.type = IPCP_UNICAST ∨ i.info.type = IPCP_BROADCAST) ∧ Fine a) ∧ (r ≠ 0 → ∀ q n a, .asked q n a ∈ l → ¬ Fine a)) ?_ h
  intro s3 s4 o2 ho2
  beta_reduce
  obtain ⟨_, r2, rfl, hr⟩ := findIpcp_out ho2
  cases hi : ipcpOf s3 p with
  | none => simp [Holds, EIPCP]
  | some i =>
    have : r2 = 0 := hr.mpr (by rw [hi]; rfl)
    subst this
    dsimp only
    split
    · simp [Holds, EIPCP]
    · rename_i ht
      intro a
      beta_reduce
      have ht' : i.info.type = IPCP_UNICAST ∨ i.info.type = IPCP_BROADCAST := by
        by_contra hc; rw [not_or] at hc; exact ht hc
      by_cases hf : Fine a
      · simp [fine_iff.mp hf, Holds, hf, ht']
      · simp [mt fine_iff.mpr hf, Holds, EPERM]
        rintro _ _ _ _ _ rfl; exact hf

/-- **C68.** Whatever other threads do meanwhile: if bootstrapping is reported as done, the IPCP accepted this configuration, and the layer it answered with was recorded for it. -/
theorem C68_bootstrap_done {p : Nat} {conf : Conf} (h : run s (bootstrapIpcp p conf) acts = some (.ok (s', .ret r, l))) :
    (r = 0 → ∃ i a, own l = [.mine (.findIpcp p) (.ipcp 0 (some i)), .asked p (.bootstrap (confOf conf)) (some ⟨some 0, some a⟩),
      .mine (.setLayer { i.info with state := .bootstrapped } a) (.int 0)]) ∧
    (r ≠ 0 → r = -1 ∧ ∀ i a, .mine (.setLayer i a) (.int 0) ∉ own l) := by
  refine holds_run (H := []) (Q := fun l r => (r = 0 → ∃ i a, l = [.mine (.findIpcp p) (.ipcp 0 (some i)), .asked p (.bootstrap (confOf conf)) (some ⟨some 0, some a⟩),
      .mine (.setLayer { i.info with state := .bootstrapped } a) (.int 0)]) ∧
    (r ≠ 0 → r = -1 ∧ ∀ i a, .mine (.setLayer i a) (.int 0) ∉ l)) ?_ h
  intro s3 s4 o2 ho2
  beta_reduce
  obtain ⟨_, r2, rfl, hr⟩ := findIpcp_out ho2
  cases hi : ipcpOf s3 p with
  | none => simp [Holds]
  | some i =>
    have : r2 = 0 := hr.mpr (by rw [hi]; rfl)
    subst this
    intro a
    rw [← confOf.eq_1]
    beta_reduce
    split
    · rename_i l0 hl
      obtain ⟨lay, rfl, rfl⟩ : ∃ lay, a = some ⟨some 0, some lay⟩ ∧ lay = l0 := by
        by_contra hc
        exact layer_none (fun ⟨lay, ha⟩ => hc ⟨lay, ha, by rw [ha] at hl; simpa [layerOf] using hl⟩) l0 hl
      intro s5 s6 o3 ho3
      beta_reduce
      obtain ⟨_, _, rfl⟩ | ⟨_, _, rfl, _⟩ := setLayer_ok ho3
      · simp [neg, Holds]
      · simp [neg, Holds]
    · simp [Holds]

/-- **C68.** Whatever other threads do meanwhile: if enrolling is reported as done, the IPCP enrolled with this destination, and the layer it answered with was recorded for it. -/
theorem C68_enroll_done {p : Nat} {dst : Str} (h : run s (enrollIpcp p dst) acts = some (.ok (s', .ret r, l))) :
    (r = 0 → ∃ i a, own l = [.mine (.findIpcp p) (.ipcp 0 (some i)), .asked p (.enroll dst) (some ⟨some 0, some a⟩), .mine (.setLayer i.info a) (.int 0)]) ∧
    (r ≠ 0 → r = -1 ∧ ∀ i a, .mine (.setLayer i a) (.int 0) ∉ own l) := by
  refine holds_run (H := []) (Q := fun l r => (r = 0 → ∃ i a, l = [.mine (.findIpcp p) (.ipcp 0 (some i)), .asked p (.enroll dst) (some ⟨some 0, some a⟩),
      .mine (.setLayer i.info a) (.int 0)]) ∧ (r ≠ 0 → r = -1 ∧ ∀ i a, .mine (.setLayer i a) (.int 0) ∉ l)) ?_ h
  intro s3 s4 o2 ho2
  beta_reduce
  obtain ⟨_, r2, rfl, hr⟩ := findIpcp_out ho2
  cases hi : ipcpOf s3 p with
  | none => simp [Holds]
  | some i =>
    have : r2 = 0 := hr.mpr (by rw [hi]; rfl)
    subst this
    intro a
    beta_reduce
    split
    · simp [Holds]
    · split
      · trivial
      · rename_i l0 hl
        obtain ⟨lay, rfl, rfl⟩ : ∃ lay, a = some ⟨some 0, some lay⟩ ∧ lay = l0 := layer_some hl
        intro s5 s6 o3 ho3
        beta_reduce
        obtain ⟨_, _, rfl⟩ | ⟨_, _, rfl, _⟩ := setLayer_ok ho3
        · simp [neg, Holds]
        · simp [neg, Holds]

/-- **C68.** Whatever other threads do meanwhile: if destroying an IPCP is reported as done, it got a signal, it ended, and it was removed. If it is reported as failed, the signal failed and nothing
else was done. -/
theorem C68_destroy_done {p : Nat} (h : run s (destroyIpcp p) acts = some (.ok (s', .ret r, l))) :
    (r = 0 → ∃ x y, 0 ≤ x ∧ own l = [.did (.term p) x, .did (.waitpid p) y, .mine (.destroyProc p) (.int 0)]) ∧
    (r ≠ 0 → r = -1 ∧ ∃ x, x < 0 ∧ own l = [.did (.term p) x]) := by
  refine holds_run (H := []) (Q := fun l r => (r = 0 → ∃ x y, 0 ≤ x ∧ l = [.did (.term p) x, .did (.waitpid p) y, .mine (.destroyProc p) (.int 0)]) ∧
    (r ≠ 0 → r = -1 ∧ ∃ x, x < 0 ∧ l = [.did (.term p) x])) ?_ h
  intro x
  beta_reduce
  split
  · rename_i hx
    exact ⟨by simp, fun _ => ⟨rfl, x, hx, rfl⟩⟩
  · rename_i hx
    intro y s1 s2 o ho
    cases destroyProc_out ho
    exact ⟨fun _ => ⟨x, y, by omega, rfl⟩, by simp⟩

/-- **C68.** Whatever other threads do meanwhile: if creating an IPCP is reported as done, a process was started and registered, and when the daemon looked, it was operational. If it is reported as
failed although it was registered, the daemon waited for its end and removed it; it did not send it a signal. -/
theorem C68_create_done {n type : Nat} {name : Str} (h : run s (createIpcp n type name) acts = some (.ok (s', .ret r, l))) :
    (r = 0 → ∃ (pid : Nat) (i : Ipcp) (l0 : List Ev), own l = [.did (.spawn type name) pid, .mine (.createIpcp ⟨type, pid, name, .boot⟩) (.int 0)] ++ l0 ++
      [.mine (.findIpcp pid) (.ipcp 0 (some i))] ∧ i.info.state = .operational) ∧
    (r ≠ 0 → r = -1 ∧ ∀ i, .mine (.createIpcp i) (.int 0) ∈ own l →
      terms l = [] ∧ ∃ x l0, own l = l0 ++ [.did (.waitpid i.pid) x, .mine (.destroyProc i.pid) (.int 0)]) := by
  have hQ := holds_run (H := []) (Q := Created type name) (acts := acts) (p := createIpcp n type name) (s := s) (s' := s') (r := r) (l := l) ?_ h
  · rw [terms_own]
    exact hQ
  · intro x
    beta_reduce
    split
    · exact ⟨by simp, fun _ => ⟨rfl, by simp⟩⟩
    · rename_i hx
      obtain ⟨pid, rfl⟩ : ∃ pid : Nat, x = pid := ⟨x.toNat, by omega⟩
      dsimp only [Int.toNat_natCast]
      intro s1 s2 o ho
      beta_reduce
      obtain ⟨_, _, ⟨_, _, _, rfl⟩ | ⟨_, rfl, _⟩⟩ := createIpcp_ok ho
      · rw [show neg (.int (-1)) = true from rfl, if_pos rfl]
        intro y
        beta_reduce
        split
        · exact ⟨by simp, fun _ => ⟨rfl, by simp⟩⟩
        · intro z
          exact ⟨by simp, fun _ => ⟨rfl, by simp⟩⟩
      · rw [show neg (.int 0) = false from rfl, if_neg (by simp)]
        intro s3 s4 o2 ho2
        beta_reduce
        obtain ⟨_, r2, rfl, hr⟩ := findIpcp_out ho2
        cases hi : ipcpOf s3 pid with
        | none => trivial
        | some i =>
          have : r2 = 0 := hr.mpr (by rw [hi]; rfl)
          subst this
          exact look_created (l0 := []) ⟨rfl, by simp⟩ (fun l1 h1 => wait_created n h1)

end interleaved

/-! ## Executions in which commands succeed, and in which they fail -/

/-- Process 7 runs `p`, and process 9 is an IPCP that runs. -/
def someOps : List Op := [.createProc 7 ['p'], .createIpcp ⟨1, 9, ['i'], .boot⟩, .respondIpcp ⟨1, 9, ['i'], .operational⟩, .createName ['b'] .rr]

/-- IPCPs that accept everything. -/
def kind : World := { reply := fun _ _ => some ⟨some 0, some ⟨['l'], 3⟩⟩, res := fun _ => 0, timeo := false }

/-- IPCPs that accept nothing. -/
def rude : World := { reply := fun _ _ => some ⟨some (-1), none⟩, res := fun _ => -1, timeo := false }

/-- Each command succeeds when the IPCPs accept it. -/
example : ([bindProcess 7 ['a'], bindProcess 7 ['b'], bindProgram [['/', 'p']] ['a'] true, bindProgram [['/', 'p']] ['b'] false, nameCreate ['c'] .rr, nameReg ['b'] 9, nameUnreg ['b'] 9,
    connectIpcp 9 ['x'] ['y'], disconnectIpcp 9 ['x'] ['y'], bootstrapIpcp 9 ⟨5, ⟨['l'], 0⟩, 0⟩, enrollIpcp 9 ['x'], destroyIpcp 9].all fun p =>
      playAlone someOps kind p fun _ r _ => r == 0) = true := by decide +kernel

/-- Commands fail if the process, name or IPCP is unknown, or if the IPCP does not accept. -/
example : ([bindProcess 8 ['a'], nameReg ['a'] 9, nameUnreg ['b'] 8, connectIpcp 8 ['x'] ['y']].all fun p => playAlone someOps kind p fun _ r _ => decide (r < 0)) = true ∧
    ([nameReg ['b'] 9, connectIpcp 9 ['x'] ['y'], bootstrapIpcp 9 ⟨1, ⟨['l'], 0⟩, 0⟩, enrollIpcp 9 ['x'], destroyIpcp 9].all fun p =>
      playAlone someOps rude p fun _ r _ => decide (r < 0)) = true := by decide +kernel

/-- An IPCP with process 5 is created: it answers after a while. Another one fails to start. -/
example : playRun someOps (createIpcp 3 1 ['j']) [.go { res := 5 }, .other (.hasProc 7), .go {}, .go {}, .go {}, .go {}, .other (.respondIpcp ⟨1, 5, ['j'], .operational⟩), .go {}, .go {}]
      (fun _ p _ => result p == some 0) = true ∧
    playRun someOps (createIpcp 3 1 ['j']) [.go { res := 5 }, .go {}, .other (.respondIpcp ⟨1, 5, ['j'], .null⟩), .go {}, .go {}, .go {}] (fun _ p _ => result p == some (-1)) = true := by
  decide +kernel

/-- Two commands at the same time can both succeed. -/
example : playDuo someOps (bindProcess 7 ['a']) (bindProgram [['/', 'p']] ['b'] true) [(true, {}), (false, {}), (true, {}), (false, {}), (true, {}), (false, {}), (true, {}), (false, {})]
    (fun s p q => result p == some 0 && result q == some 0 && (s.names.any fun n => n.name == ['a'] && n.procs == [7]) && s.names.any fun n => n.name == ['b'] && n.progs == [[['/', 'p']]]) = true := by
  decide +kernel

/-- The program `/p`. -/
def pathP : Str := ['/', 'p']

/-- The name `a`. -/
def nameA : Str := ['a']

/-- The name of an IPCP. -/
def nameI : Str := ['i']

/-- **C68 fails for two commands at the same time**: both bind the same program to a new name. One is told that it failed, the other that it is done; but the first, which created the name, destroys it
again, and afterwards the program is not bound. -/
theorem C68_bind_program_race_violated : ∃ s log s', Registry.run [] = .ok (s, log) ∧
    ∃ acts, duo s (bindProgram [pathP] nameA false) (bindProgram [pathP] nameA false) acts = some (.ok (s', .ret (-1), .ret 0)) ∧ ∀ g, ¬ progBound s' nameA g := by
  obtain ⟨s, log, s', p', q', h1, h2, h3⟩ := playDuo_ex (ops := []) (p := bindProgram [pathP] nameA false) (q := bindProgram [pathP] nameA false)
    (acts := [(true, {}), (true, {}), (true, {}), (true, {}), (false, {}), (false, {}), (false, {}), (false, {}), (true, {}), (true, {}), (true, {})])
    (f := fun s' p' q' => result p' == some (-1) && result q' == some 0 && s'.progs.all fun q => !q.names.contains nameA) (by decide +kernel)
  simp only [Bool.and_eq_true, beq_iff_eq] at h3
  cases result_eq h3.1.1
  cases result_eq h3.1.2
  exact ⟨s, log, s', h1, _, h2, decode_progs h3.2⟩

/-- **C68 fails for two commands at the same time**: both bind the same process to a new name. One is told that it is done; the other one, which created the name, destroys it while the process is bound. -/
theorem C68_bind_process_race_violated : ∃ s log s' k, Registry.run [.createProc 7 ['p']] = .ok (s, log) ∧
    ∃ acts c, duo s (bindProcess 7 nameA) (bindProcess 7 nameA) acts = some (.ok (s', k, .ret 0)) ∧ bound s' nameA 7 ∧ act s' k (.go c) = some .ub := by
  obtain ⟨s, log, s', p', q', h1, h2, h3⟩ := playDuo_ex (ops := [.createProc 7 ['p']]) (p := bindProcess 7 nameA) (q := bindProcess 7 nameA)
    (acts := [(true, {}), (true, {}), (true, {}), (false, {}), (false, {}), (false, {}), (true, {})])
    (f := fun s' p' q' => result q' == some 0 && (s'.names.any fun n => n.name == nameA && n.procs.contains 7) &&
      match act s' p' (.go {}) with
      | some .ub => true
      | _ => false) (by decide +kernel)
  simp only [Bool.and_eq_true, beq_iff_eq, List.any_eq_true, List.contains_eq_mem, decide_eq_true_eq] at h3
  obtain ⟨⟨h3, n, hn, hx, h7⟩, h4⟩ := h3
  cases result_eq h3
  refine ⟨s, log, s', p', h1, _, {}, h2, ⟨n, hn, hx, h7⟩, ?_⟩
  split at h4
  · assumption
  · cases h4

/-- **C68 fails for names that exist**: creating a name with another policy is reported as done, but the policy stays the old one. -/
theorem C68_name_policy_violated (h : Registry.run ops = .ok (s, log)) {x : Str} {old pol : Pol} (hx : policy s x = some old) (hne : pol ≠ old) :
    ∃ l, alone w s (nameCreate x pol) = .ok (s, 0, l) ∧ policy s x ≠ some pol := by
  obtain ⟨n, hn, _⟩ := policy_some hx
  have h1 : Registry.step s (.createName x pol) = .ok (s, .int (-EEXIST)) := by simp [Registry.step, createName, hn]
  exact ⟨[.mine (.createName x pol) (.int (-EEXIST))], by simp [alone, nameCreate, h1], by rw [hx]; simpa using fun h => hne h.symm⟩

example : ∃ s log, Registry.run [.createName nameA .rr] = .ok (s, log) ∧ policy s nameA = some .rr :=
  have ⟨s, log, h1, h2⟩ := checkRun_ex (ops := [.createName nameA .rr]) (f := fun s _ => decide (policy s nameA = some .rr)) (by decide +kernel)
  ⟨s, log, h1, by simpa using h2⟩

/-- **C68 fails for processes that are not IPCPs**: destroying the IPCP with a number that is not an IPCP sends the signal to whatever process has this number, and is reported as done. -/
theorem C68_terminates_any_violated (h : Registry.run ops = .ok (s, log)) {p : Nat} (hp : 0 < p) (_ : ipcpOf s p = none) (ht : 0 ≤ w.res (.term p)) :
    ∃ s' l, alone w s (destroyIpcp p) = .ok (s', 0, l) ∧ terms l = [p] := by
  obtain ⟨s', l, h1, h2, _⟩ := (C68_destroy_ipcp h hp).2 ht
  exact ⟨s', l, h1, h2⟩

/-- The answer of an IPCP with process 9 that runs. -/
def upI : IpcpInfo := ⟨1, 9, nameI, .operational⟩

/-- **C68 fails if the IPCP is fast**: it reports that it runs before the daemon registered it; this is refused, and the daemon then waits until the time is over and reports a failure. -/
theorem C68_early_answer_violated : ∃ s log s' l, Registry.run [] = .ok (s, log) ∧
    ∃ acts, run s (createIpcp 3 1 nameI) acts = some (.ok (s', .ret (-1), l)) ∧ .other (.respondIpcp upI) (.int (-EIPCP)) ∈ l := by
  obtain ⟨s, log, s', p', l, h1, h2, h3⟩ := playRun_ex (ops := []) (p := createIpcp 3 1 nameI)
    (acts := [.go { res := 9 }, .other (.respondIpcp upI), .go {}, .go {}, .go { timeo := true }, .go {}, .go {}, .go {}])
    (f := fun _ p' l => result p' == some (-1) && l.any fun e => match e with
      | .other (.respondIpcp i) (.int r) => decide (i = upI) && r == -EIPCP
      | _ => false) (by decide +kernel)
  simp only [Bool.and_eq_true, beq_iff_eq, List.any_eq_true] at h3
  obtain ⟨h3, e, he, h4⟩ := h3
  cases result_eq h3
  split at h4
  · simp only [Bool.and_eq_true, decide_eq_true_eq, beq_iff_eq] at h4
    obtain ⟨rfl, rfl⟩ := h4
    exact ⟨s, log, s', l, h1, _, h2, he⟩
  · cases h4

/-- **C68 fails if the IPCP ends early**: if the process is gone right after it was registered, the daemon uses an entry that does not exist. -/
theorem C68_vanished_violated : ∃ s log, Registry.run [] = .ok (s, log) ∧ ∃ acts, run s (createIpcp 3 1 nameI) acts = some .ub := by
  obtain ⟨s, log, h1, h2⟩ := crashes_ex (ops := []) (p := createIpcp 3 1 nameI) (acts := [.go { res := 9 }, .go {}, .other (.destroyProc 9), .go {}, .go {}]) (by decide +kernel)
  exact ⟨s, log, h1, _, h2⟩

/-- **C68 fails if the IPCP is slow**: it reports that it runs just when the time is over. This is accepted, but creating the IPCP is reported as failed, after waiting for the end of the IPCP, which
runs and which nobody told to end. -/
theorem C68_late_answer_violated : ∃ s log s' l, Registry.run [] = .ok (s, log) ∧
    ∃ acts, run s (createIpcp 3 1 nameI) acts = some (.ok (s', .ret (-1), l)) ∧ .other (.respondIpcp upI) (.int 0) ∈ l ∧ terms l = [] ∧ ipcpOf s' 9 = none := by
  obtain ⟨s, log, s', p', l, h1, h2, h3⟩ := playRun_ex (ops := []) (p := createIpcp 3 1 nameI)
    (acts := [.go { res := 9 }, .go {}, .go {}, .go { timeo := true }, .other (.respondIpcp upI), .go {}, .go {}, .go {}])
    (f := fun s' p' l => result p' == some (-1) && (l.any fun e => match e with
      | .other (.respondIpcp i) (.int r) => decide (i = upI) && r == 0
      | _ => false) && decide (terms l = []) && (ipcpOf s' 9).isNone) (by decide +kernel)
  simp only [Bool.and_eq_true, beq_iff_eq, List.any_eq_true, decide_eq_true_eq, Option.isNone_iff_eq_none] at h3
  obtain ⟨⟨⟨h3, e, he, h4⟩, h5⟩, h6⟩ := h3
  cases result_eq h3
  split at h4
  · simp only [Bool.and_eq_true, decide_eq_true_eq, beq_iff_eq] at h4
    obtain ⟨rfl, rfl⟩ := h4
    exact ⟨s, log, s', l, h1, _, h2, he, h5, h6⟩
  · cases h4

/-- **C68 fails for positive answers**: if an IPCP answers an enrolment with a positive result, the daemon records a layer it never got. -/
theorem C68_enroll_positive_violated {p : Nat} (hp : 0 < p) (h : ipcpOf s p ≠ none) {dst : Str} (hr : ∃ x a, 0 < x ∧ w.reply p (.enroll dst) = some ⟨some x, a⟩) :
    alone w s (enrollIpcp p dst) = .ub := by
  obtain ⟨i, hi⟩ := Option.ne_none_iff_exists'.mp h
  obtain ⟨x, a, hx, hr⟩ := hr
  have h0 : x ≠ 0 := by omega
  have h1 : ¬ x < 0 := by omega
  simp [alone, enrollIpcp, findIpcp_eq hp, hi, hr, layerOf, h0, h1]

/-- **C68 fails after unbinding**: a program that was bound, to be started for the name, and unbound again cannot be bound any more. -/
theorem C68_rebind_violated : ∃ s log s' l, Registry.run [.createProg ['p'] pathP, .createName nameA .spill, .bindProg nameA [pathP] true, .unbindProg nameA ['p']] = .ok (s, log) ∧
    (∀ g, ¬ progBound s nameA g) ∧ alone w s (bindProgram [pathP] nameA true) = .ok (s', -1, l) := by
  obtain ⟨s, log, h1, h2⟩ := checkRun_ex (ops := [.createProg ['p'] pathP, .createName nameA .spill, .bindProg nameA [pathP] true, .unbindProg nameA ['p']])
    (f := fun s _ => (s.progs.all fun q => !q.names.contains nameA) && (s.names.any fun n => n.name == nameA && n.progs.contains [pathP]) && (getProg s pathP).isNone)
    (by decide +kernel)
  simp only [Bool.and_eq_true, beq_iff_eq, List.any_eq_true, List.contains_eq_mem, decide_eq_true_eq, Option.isNone_iff_eq_none] at h2
  obtain ⟨⟨h2, n, hn, hx, hp⟩, h3⟩ := h2
  obtain ⟨s', r, l, h4, h5, h6, _⟩ := C68_bind_program (w := w) h1 (rest := []) (x := nameA) (auto := true) h3 (by decide)
  have hr : r ≠ 0 := fun hc => (h5.mp hc).2 [pathP] ⟨n, hn, hx, hp⟩ rfl
  cases h6 hr
  exact ⟨s, log, s', l, h1, decode_progs (by simpa using h2), h4⟩

/-- **C68.** Whatever the threads do, the bindings, names and IPCPs in the registry are those of the history of all calls: what a command did stays until another call undoes it. -/
theorem C68_history (h : Registry.run ops = .ok (s, log)) {p p' : Prg} {acts : List Act} {l : List Ev} (hr : run s p acts = some (.ok (s', p', l))) :
    (∀ x q, bound s' x q ↔ (Spec.Registry.bindings ((log ++ calls l).filterMap bindEv)).proc x q) ∧
    (∀ x g, progBound s' x g ↔ (Spec.Registry.bindings ((log ++ calls l).filterMap bindEv)).prog x g) ∧
    (∀ x, policy s' x = Spec.Registry.live ((log ++ calls l).filterMap nameEv) x) ∧
    ∀ q, ipcpOf s' q = Spec.Registry.live ((log ++ calls l).filterMap ipcpEv) q := by
  obtain ⟨ops', h'⟩ := run_calls h hr
  exact ⟨bound_log h', progBound_log h', policy_live h', ipcpOf_live h'⟩

/-- **C68.** The caller of the library gets 0 exactly if the command returned 0 in the daemon. -/
theorem C68_client (deflt r : Int) : client deflt (reply r) = 0 ↔ r = 0 := by
  unfold reply
  split
  · rename_i h
    rcases h with h | h <;> simp [client, h, EIRMD]
  · rfl

/-- A command that nobody interferes with is one of the executions above. -/
theorem C68_alone {p : Prg} {r : Int} {l : List Ev} (h : alone w s p = .ok (s', r, l)) : ∃ acts, run s p acts = some (.ok (s', .ret r, l)) :=
  have ⟨_, hc⟩ := alone_run w h
  ⟨_, hc⟩

end Ouro.IrmdAdmin
