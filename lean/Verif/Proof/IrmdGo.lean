import Verif.Proof.IrmdStep

namespace Ouro.IrmdFlow

open Ouro.Registry Spec.FiniteMap Spec.IrmdFlow

theorem pollAccepting_int {s s' : Reg} {h : Str → Nat} {v : Nat} {o : Out} (hp : pollAccepting s h v = .ok (s', o)) :
    s' = s ∧ ∃ x, o = .int x ∧ (x = -ENAME ∨ x = -EAGAIN ∨ ∃ f ∈ s.flows, f.info.id = x) := by
  unfold pollAccepting at hp
  obtain ⟨x, hx, hp⟩ := bind_eq_ok.mp hp
  cases Outcome.ok.inj hp
  refine ⟨rfl, x, rfl, ?_⟩
  unfold pendingFor at hx
  split at hx
  · cases Outcome.ok.inj hx; exact .inl rfl
  · dsimp only at hx
    split at hx
    · cases Outcome.ok.inj hx; exact .inr (.inl rfl)
    · split at hx
      · cases hx
      · rename_i f hf
        cases Outcome.ok.inj hx
        exact .inr (.inr ⟨f, List.mem_of_find?_eq_some hf, rfl⟩)

theorem linked_npid_acc {i : FlowInfo} {b : Bool} {c : Cmd} {sk : Nat} (h : Linked c (.accStart i sk b)) : ∃ j, c = .accept j b ∧ i.npid = j.npid := by
  cases c <;> simp only [Linked] at h
  exact ⟨_, by rw [h.2], h.1⟩

theorem linked_acc {i : FlowInfo} {b : Bool} {c : Cmd} {k : Option Nat} (h : Linked c (.accSent i k b)) : ∃ j, c = .accept j b ∧ i.npid = j.npid := by
  cases c <;> simp only [Linked] at h
  exact ⟨_, by rw [h.2], h.1⟩

theorem linked_all {p : Nat} {i : FlowInfo} {b j : Bool} {c : Cmd} {sk : Option Nat} (h : Linked c (.allocWait p i j sk b)) :
    ∃ i' d, c = .alloc i' d b ∧ i.npid = i'.npid := by
  cases c <;> simp only [Linked] at h
  exact ⟨_, _, by rw [h.2], h.1⟩

theorem flow_eq_ptr {s : Reg} (hi : FlowInv s) {f g : Flow} {id : Int} (hf : flowAt s id = some f) (hg : flowAt s g.info.id = some g) (hp : f.ptr = g.ptr) :
    f = g ∧ g.info.id = id := by
  obtain ⟨h1, h2⟩ := (flowAt_iff hi.ids).mp hf
  obtain ⟨h3, _⟩ := (flowAt_iff hi.ids).mp hg
  have := hi.ptr_inj h1 h3 hp
  subst this
  exact ⟨rfl, h2⟩

theorem go_eff {e : Env} {s s' : Sys} {t : Nat} {c : Choice} (hi : Own e s) (h : go e s t c = .ok s') :
    FlowInv s'.reg ∧ Eff e s s' (some t) := by
  have hfl := hi.flow
  have hgood := hi.good t
  unfold go at h
  cases hp : s.pc t with
  | idle => rw [hp] at h; cases h
  | done => rw [hp] at h; cases h
  | accCreate info timed =>
    rw [hp] at h
    dsimp only at h
    split at h
    · cases Outcome.ok.inj h
      refine ⟨hfl, eff_fin (by rw [hp]; simp) (by rw [hp]; simp) (by rw [hp]; rfl) (by rw [hp]; intro i hc; cases hc) rfl rfl ?_⟩
      intro _ hc; exact absurd hc (by decide)
    · obtain ⟨⟨r, o⟩, hr, h⟩ := bind_eq_ok.mp h
      obtain ⟨hi', ⟨id, rfl, hst, hn1, hnone, hput⟩ | ⟨j, rfl, hsame⟩⟩ := createFlow_at hfl hr
      · cases Outcome.ok.inj h
        refine ⟨hi', .thread t [] (.accPrepare { info with id := id } c.sk timed) rfl (by simp [goto])
          (Link.go (by rw [hp]; simp) (by rw [hp]; simp) (by simp) (by simp) (fun ev hv => by cases hv) ?_) ?_⟩
        · rw [hp]
          intro cm hc
          cases cm <;> simp only [Linked] at hc ⊢
          exact hc
        · exact .create id _ hnone hput (by rw [hp]; rfl) rfl (by rw [hp]; intro i hc; cases hc) (by intro i hc; cases hc) rfl
            (fun i => neutral_nil i) ⟨rfl, hst⟩
      · cases Outcome.ok.inj h
        refine ⟨hi', eff_fin (by rw [hp]; simp) (by rw [hp]; simp) (by rw [hp]; rfl) (by rw [hp]; intro i hc; cases hc) hsame rfl ?_⟩
        intro _ hc; exact absurd hc (by decide)
  | accPrepare info sk timed =>
    rw [hp] at h hgood
    dsimp only at h
    obtain ⟨f, hf, hg⟩ := hgood info.id rfl
    obtain ⟨rfl, hst⟩ := hg
    obtain ⟨⟨r, o⟩, hr, h⟩ := bind_eq_ok.mp h
    obtain ⟨hi', f1, g, hf1, _, hg, rfl, hput⟩ := prepareAccept_at hfl hr
    rw [hf] at hf1
    cases hf1
    cases Outcome.ok.inj h
    refine ⟨hi', eff_own (evs := []) (p' := .accStart g.info sk timed) hp rfl (by rw [hg]; rfl) ?_ (fun ev hv => by cases hv) hput rfl (fun i _ => neutral_nil i) (by simp [goto]) ?_⟩
    · intro cm hc
      cases cm <;> simp only [Linked] at hc ⊢
      rw [hg]
      exact hc
    · rw [hg]
      exact ⟨rfl, .inl rfl, fun hc => by cases hc⟩
  | accStart info sk timed =>
    rw [hp] at h hgood
    dsimp only at h
    obtain ⟨f, hf, hg⟩ := hgood info.id rfl
    obtain ⟨⟨r, o⟩, hr, h⟩ := bind_eq_ok.mp h
    obtain ⟨hi', hsame, f1, hf1, h1, h2, rfl⟩ := waitAcceptedStart_at hfl hr
    rw [hf] at hf1
    cases hf1
    cases Outcome.ok.inj h
    refine ⟨hi', eff_own (evs := []) (g := f) (p' := .accWait f.ptr info sk timed) hp rfl rfl ?_ (fun ev hv => by cases hv) (hsame.trans (put_self hf)) rfl (fun i _ => neutral_nil i) (by simp [goto]) ?_⟩
    · intro cm hc
      cases cm <;> simp only [Linked] at hc ⊢
      exact hc
    · rw [List.append_nil]
      exact ⟨rfl, hg⟩
  | accWait p info sk timed =>
    rw [hp] at h hgood
    dsimp only at h
    obtain ⟨f, hf, hptr, hg⟩ := hgood info.id rfl
    obtain ⟨⟨r, o⟩, hr, h⟩ := bind_eq_ok.mp h
    obtain ⟨hi', f1, hf1, hptr1, hcase⟩ := waitAcceptedWake_at hfl hr
    obtain ⟨rfl, hid⟩ := flow_eq_ptr hfl hf hf1 (hptr.trans hptr1.symm)
    rcases hcase with ⟨rfl, _, hsame⟩ | ⟨ht, rfl, hput⟩ | ⟨_, hst, rfl, hput⟩ | ⟨_, hst, rfl, hput⟩
    · cases Outcome.ok.inj h
      subst hsame
      refine ⟨hi', eff_own (evs := []) (g := f) (p' := .accWait p info sk timed) hp rfl rfl (fun _ hc => hc) (fun ev hv => by cases hv) (put_self hf) rfl (fun i _ => neutral_nil i) ?_ ?_⟩
      · have : (fun u => if u = t then Pc.accWait p info sk timed else s.pc u) = s.pc := by
          funext u; split
          · rename_i hu; rw [hu, hp]
          · rfl
        rw [this]; simp
      · rw [List.append_nil]; exact ⟨hptr, hg⟩
    · dsimp only at h
      rw [if_pos rfl] at h
      cases Outcome.ok.inj h
      refine ⟨hi', eff_own (evs := []) (p' := .drop f.info.id (-ETIMEDOUT) timed) hp rfl (by rw [← hid]; rfl) ?_ (fun ev hv => by cases hv) (hid ▸ hput) rfl (fun i _ => neutral_nil i) (by simp [goto]) ?_⟩
      · intro cm hc
        cases cm <;> simp only [Linked] at hc ⊢
        exact hc.2
      · simp [Good]
    · dsimp only at h
      rw [if_neg (by decide), if_neg (by decide)] at h
      cases Outcome.ok.inj h
      refine ⟨hi', eff_own (evs := []) (p' := .accRespond f.info sk f.data timed) hp rfl (by rw [← hid]; rfl) ?_ (fun ev hv => by cases hv) (hid ▸ hput) rfl (fun i _ => neutral_nil i) (by simp [goto]) ?_⟩
      · intro cm hc
        cases cm <;> simp only [Linked] at hc ⊢
        exact ⟨hg.1.trans hc.1, hc.2⟩
      · rw [List.append_nil]
        exact ⟨rfl, hst, (hg.2.2 hst).1, (hg.2.2 hst).2⟩
    · dsimp only at h
      rw [if_neg (by decide), if_pos rfl] at h
      cases Outcome.ok.inj h
      refine ⟨hi', eff_own (evs := []) (p' := .drop f.info.id (-EPIPE) timed) hp rfl (by rw [← hid]; rfl) ?_ (fun ev hv => by cases hv) (hid ▸ hput) rfl (fun i _ => neutral_nil i) (by simp [goto]) ?_⟩
      · intro cm hc
        cases cm <;> simp only [Linked] at hc ⊢
        exact hc.2
      · simp [Good, hst]
  | accRespond info sk rpk timed =>
    rw [hp] at h hgood
    dsimp only at h
    obtain ⟨f, hf, hinfo, hst, hn1, hk⟩ := hgood info.id rfl
    subst hinfo
    have hlink : ∀ key, ∀ c, Linked c (.accRespond f.info sk rpk timed) → Linked c (.accSent f.info key timed) := by
      intro key cm hc
      cases cm <;> simp only [Linked] at hc ⊢
      exact hc
    have hneu : ∀ i : Int, i ≠ f.info.id → ∀ pid np rs pk, Neutral i [Ev.toIpcp pid (.allocResp f.info.id np rs pk)] := by
      intro i hi pid np rs pk
      refine neutral_cons ⟨rfl, rfl, ?_⟩ (neutral_nil i)
      simp [sentPk, hi.symm]
    have hpl : ∀ pid m, ∀ ev ∈ [Ev.toIpcp pid m], plain ev = true := by
      intro pid m ev hv; rw [List.mem_singleton.mp hv]; rfl
    split at h
    · rename_i hc
      split at h
      · cases Outcome.ok.inj h
        refine ⟨hfl, eff_own (g := f) (p' := .drop f.info.id (-ECRYPT) timed) hp rfl rfl ?_ (hpl _ _) (put_self hf) rfl (fun i hi => hneu i hi _ _ _ _) rfl ?_⟩
        · intro cm hc
          cases cm <;> simp only [Linked] at hc ⊢
          exact hc.2
        · simp [Good, hst]
      · rename_i k hd
        cases Outcome.ok.inj h
        refine ⟨hfl, eff_own (g := f) (p' := .accSent f.info (some k) timed) hp rfl rfl (hlink _) (hpl _ _) (put_self hf) rfl (fun i hi => hneu i hi _ _ _ _) rfl ?_⟩
        refine ⟨rfl, hst, hn1, .inr ⟨hc, sk, rpk, k, rfl, hd, ?_, ?_⟩⟩
        · exact latest_snoc (evs := []) (by simp [sentPk]) (fun ev hv => by cases hv)
        · rw [latest_skip (fun ev hv => by rw [List.mem_singleton.mp hv]; rfl)]
          exact hk hc
    · rename_i hc
      cases Outcome.ok.inj h
      refine ⟨hfl, eff_own (g := f) (p' := .accSent f.info none timed) hp rfl rfl (hlink _) (hpl _ _) (put_self hf) rfl (fun i hi => hneu i hi _ _ _ _) rfl ?_⟩
      exact ⟨rfl, hst, hn1, .inl ⟨by simpa using hc, rfl⟩⟩
  | accSent info key timed =>
    rw [hp] at h hgood
    dsimp only at h
    obtain ⟨f, hf, hinfo, hst, hn1, hk⟩ := hgood info.id rfl
    subst hinfo
    split at h
    · cases Outcome.ok.inj h
      refine ⟨hfl, eff_own (evs := []) (g := f) (p' := .drop f.info.id (-EIPCP) timed) hp rfl rfl ?_ (fun ev hv => by cases hv) (put_self hf) rfl (fun i _ => neutral_nil i) (by simp [goto]) ?_⟩
      · intro cm hc
        cases cm <;> simp only [Linked] at hc ⊢
        exact hc.2
      · simp [Good, hst]
    · cases Outcome.ok.inj h
      refine ⟨hfl, eff_grant (g := f) hp rfl (put_self hf) rfl rfl ⟨hst, hn1, ?_, .inl ⟨?_, hk⟩⟩⟩
      · intro cm hc
        obtain ⟨j, rfl, hj⟩ := linked_acc hc
        simp [requester, hj]
      · intro cm hc
        obtain ⟨j, rfl, hj⟩ := linked_acc hc
        exact ⟨j, timed, rfl⟩
  | allocFind info dst sk timed =>
    rw [hp] at h hgood
    dsimp only at h
    obtain ⟨f, hf, hinfo, hst, hsk⟩ := hgood info.id rfl
    subst hinfo
    obtain ⟨⟨r, o⟩, hr, h⟩ := bind_eq_ok.mp h
    have hre := listIpcps_ok hr
    subst hre
    split at h
    · rename_i heq
      cases heq
      split at h
      · rename_i i _
        cases Outcome.ok.inj h
        refine ⟨hfl, eff_own (evs := []) (g := f) (p' := .allocPrepare { f.info with n1pid := i.info.pid } i.layer.algo dst sk timed) hp rfl rfl ?_ (fun ev hv => by cases hv) (put_self hf) rfl (fun i _ => neutral_nil i) (by simp [goto]) ?_⟩
        · intro cm hc
          cases cm <;> simp only [Linked] at hc ⊢
          exact hc
        · exact ⟨rfl, hst, hsk, rfl⟩
      · cases Outcome.ok.inj h
        refine ⟨hfl, eff_own (evs := []) (g := f) (p' := .drop f.info.id (-EIPCP) timed) hp rfl rfl ?_ (fun ev hv => by cases hv) (put_self hf) rfl (fun i _ => neutral_nil i) (by simp [goto]) ?_⟩
        · intro cm hc
          cases cm <;> simp only [Linked] at hc ⊢
          exact hc.2
        · simp [Good, hst]
    · cases h
  | allocPrepare info algo dst sk timed =>
    rw [hp] at h hgood
    dsimp only at h
    obtain ⟨f, hf, hnp, hst, hsk, _⟩ := hgood info.id rfl
    obtain ⟨⟨r, o⟩, hr, h⟩ := bind_eq_ok.mp h
    obtain ⟨hi', f1, g, hf1, _, hn1, rfl, rfl, hput⟩ := prepareAlloc_at hfl hr
    rw [hf] at hf1
    cases hf1
    have hid := flowAt_id hfl.ids hf
    cases Outcome.ok.inj h
    refine ⟨hi', eff_own (p' := .allocSent _ false sk timed) hp rfl ?_ ?_ ?_ hput rfl ?_ rfl ?_⟩
    · show some f.info.id = _; rw [hid]
    · intro cm hc
      cases cm <;> simp only [Linked] at hc ⊢
      exact ⟨hnp.trans hc.1, hc.2⟩
    · intro ev hv; rw [List.mem_singleton.mp hv]; rfl
    · intro i hne
      refine neutral_cons ⟨rfl, rfl, ?_⟩ (neutral_nil i)
      simp [sentPk, hid, hne.symm]
    · refine ⟨rfl, rfl, hn1, .inl rfl, hsk, ?_, fun hc => by cases hc⟩
      exact latest_snoc (evs := []) (by simp [sentPk]) (fun ev hv => by cases hv)
  | joinFind info dst timed =>
    rw [hp] at h hgood
    dsimp only at h
    obtain ⟨f, hf, hinfo, hst, hn1⟩ := hgood info.id rfl
    subst hinfo
    obtain ⟨⟨r, o⟩, hr, h⟩ := bind_eq_ok.mp h
    have hre := findIpcpByLayer_ok hr
    subst hre
    split at h
    · rename_i i heq
      cases heq
      cases Outcome.ok.inj h
      refine ⟨hfl, eff_own (evs := []) (g := f) (p' := .joinPrepare f.info i.layer.algo timed) hp rfl rfl ?_ (fun ev hv => by cases hv) (put_self hf) rfl (fun i _ => neutral_nil i) (by simp [goto]) ?_⟩
      · intro cm hc
        cases cm <;> simp only [Linked] at hc ⊢
        exact hc
      · exact ⟨rfl, hst, hn1⟩
    · rename_i heq
      cases heq
      cases Outcome.ok.inj h
      refine ⟨hfl, eff_own (evs := []) (g := f) (p' := .drop f.info.id (-EIPCP) timed) hp rfl rfl ?_ (fun ev hv => by cases hv) (put_self hf) rfl (fun i _ => neutral_nil i) (by simp [goto]) ?_⟩
      · intro cm hc
        cases cm <;> simp only [Linked] at hc ⊢
        exact hc.2
      · simp [Good, hst]
  | joinPrepare info algo timed =>
    rw [hp] at h hgood
    dsimp only at h
    obtain ⟨f, hf, hinfo, hst, hn1⟩ := hgood info.id rfl
    obtain ⟨⟨r, o⟩, hr, h⟩ := bind_eq_ok.mp h
    obtain ⟨hi', f1, g, hf1, _, hn1', rfl, rfl, hput⟩ := prepareAlloc_at hfl hr
    exact absurd hn1 hn1'
  | allocSent info join sk timed =>
    rw [hp] at h hgood
    dsimp only at h
    obtain ⟨f, hf, hg⟩ := hgood info.id rfl
    split at h
    · cases Outcome.ok.inj h
      refine ⟨hfl, eff_own (evs := []) (g := f) (p' := .drop info.id (-ENOTALLOC) timed) hp rfl rfl ?_ (fun ev hv => by cases hv) (put_self hf) rfl (fun i _ => neutral_nil i) (by simp [goto]) ?_⟩
      · intro cm hc
        cases cm <;> simp only [Linked] at hc ⊢
        exact hc.2
      · obtain ⟨_, _, _, hst, _⟩ := hg
        rcases hst with hst | hst | hst <;> simp [Good, hst]
    · cases Outcome.ok.inj h
      refine ⟨hfl, eff_own (evs := []) (g := f) (p' := .allocStart info join sk timed) hp rfl rfl ?_ (fun ev hv => by cases hv) (put_self hf) rfl (fun i _ => neutral_nil i) (by simp [goto]) ?_⟩
      · intro cm hc
        cases cm <;> simp only [Linked] at hc ⊢
        exact hc
      · rw [List.append_nil]; exact hg
  | allocStart info join sk timed =>
    rw [hp] at h hgood
    dsimp only at h
    obtain ⟨f, hf, hg⟩ := hgood info.id rfl
    obtain ⟨⟨r, o⟩, hr, h⟩ := bind_eq_ok.mp h
    obtain ⟨rfl, f1, hf1, rfl⟩ := waitAllocatedStart_at hfl hr
    rw [hf] at hf1
    cases hf1
    cases Outcome.ok.inj h
    refine ⟨hfl, eff_own (evs := []) (g := f) (p' := .allocWait f.ptr info join sk timed) hp rfl rfl ?_ (fun ev hv => by cases hv) (put_self hf) rfl (fun i _ => neutral_nil i) (by simp [goto]) ?_⟩
    · intro cm hc
      cases cm <;> simp only [Linked] at hc ⊢
      exact hc
    · rw [List.append_nil]; exact ⟨rfl, hg⟩
  | allocWait p info join sk timed =>
    rw [hp] at h hgood
    dsimp only at h
    obtain ⟨f, hf, hptr, hg⟩ := hgood info.id rfl
    obtain ⟨⟨r, o⟩, hr, h⟩ := bind_eq_ok.mp h
    obtain ⟨hi', f1, hf1, hptr1, hcase⟩ := waitAllocatedWake_at hfl hr
    obtain ⟨rfl, hid⟩ := flow_eq_ptr hfl hf hf1 (hptr.trans hptr1.symm)
    have hdrop : ∀ err, ∀ c, Linked c (.allocWait p info join sk timed) → Linked c (.drop f.info.id err timed) := by
      intro err cm hc
      cases cm <;> simp only [Linked] at hc ⊢
      exact hc.2
    rcases hcase with ⟨rfl, _, hsame⟩ | ⟨ht, rfl, hput⟩ | ⟨_, hst, rfl, hput⟩ | ⟨_, hst, rfl, hput⟩
    · cases Outcome.ok.inj h
      subst hsame
      refine ⟨hi', eff_own (evs := []) (g := f) (p' := .allocWait p info join sk timed) hp rfl rfl (fun _ hc => hc) (fun ev hv => by cases hv) (put_self hf) rfl (fun i _ => neutral_nil i) ?_ ?_⟩
      · have : (fun u => if u = t then Pc.allocWait p info join sk timed else s.pc u) = s.pc := by
          funext u; split
          · rename_i hu; rw [hu, hp]
          · rfl
        rw [this]; simp
      · rw [List.append_nil]; exact ⟨hptr, hg⟩
    · dsimp only at h
      rw [if_pos rfl] at h
      cases Outcome.ok.inj h
      refine ⟨hi', eff_own (evs := []) (p' := .drop f.info.id (-ETIMEDOUT) timed) hp rfl (by rw [← hid]; rfl) (hdrop _) (fun ev hv => by cases hv) (hid ▸ hput) rfl (fun i _ => neutral_nil i) (by simp [goto]) ?_⟩
      simp [Good]
    · dsimp only at h
      rw [if_neg (by decide), if_neg (by decide)] at h
      obtain ⟨rfl, hnp, hn1, _, hsk, hsent, hansw⟩ := hg
      have hreq : ∀ c, Linked c (.allocWait p info false sk timed) → requester c = some f.info.npid := by
        intro cm hc
        obtain ⟨j, d, rfl, hj⟩ := linked_all hc
        simp [requester, hnp, hj]
      have hall : ∀ c, Linked c (.allocWait p info false sk timed) → ∃ i d b, c = .alloc i d b := by
        intro cm hc
        obtain ⟨j, d, rfl, hj⟩ := linked_all hc
        exact ⟨_, _, _, rfl⟩
      split at h
      · rename_i hcy
        have hcy : f.info.cypher ≠ 0 := by simpa using hcy
        split at h
        · cases Outcome.ok.inj h
          refine ⟨hi', eff_own (evs := []) (p' := .drop f.info.id (-ECRYPT) timed) hp rfl (by rw [← hid]; rfl) (hdrop _) (fun ev hv => by cases hv) (hid ▸ hput) rfl (fun i _ => neutral_nil i) (by simp [goto]) ?_⟩
          simp [Good, hst]
        · rename_i k hd
          cases Outcome.ok.inj h
          obtain ⟨k0, rfl⟩ := Option.isSome_iff_exists.mp (hsk.mpr (Nat.pos_of_ne_zero hcy))
          refine ⟨hi', eff_grant (g := { f with data := none }) hp (id := f.info.id) (by rw [hid]; rfl) hput rfl rfl ⟨hst, hn1, hreq, .inr ⟨hall, .inr ⟨hcy, k0, f.data, k, rfl, hd, hsent, hansw hst⟩⟩⟩⟩
      · rename_i hcy
        have hcy : f.info.cypher = 0 := by simpa using hcy
        cases Outcome.ok.inj h
        exact ⟨hi', eff_grant (g := { f with data := none }) hp (id := f.info.id) (by rw [hid]; rfl) hput rfl rfl ⟨hst, hn1, hreq, .inr ⟨hall, .inl ⟨hcy, rfl⟩⟩⟩⟩
    · dsimp only at h
      rw [if_neg (by decide), if_pos rfl] at h
      cases Outcome.ok.inj h
      refine ⟨hi', eff_own (evs := []) (p' := .drop f.info.id (-EPIPE) timed) hp rfl (by rw [← hid]; rfl) (hdrop _) (fun ev hv => by cases hv) (hid ▸ hput) rfl (fun i _ => neutral_nil i) (by simp [goto]) ?_⟩
      simp [Good, hst]
  | drop id err timed =>
    rw [hp] at h
    dsimp only at h
    obtain ⟨⟨r, o⟩, hr, h⟩ := bind_eq_ok.mp h
    obtain ⟨hi', hrem⟩ := destroyFlow_at hfl hr
    cases Outcome.ok.inj h
    exact ⟨hi', eff_drop hp hrem rfl⟩
  | reqWait info algo hh pk second =>
    rw [hp] at h
    dsimp only at h
    obtain ⟨⟨r, o⟩, hr, h⟩ := bind_eq_ok.mp h
    obtain ⟨rfl, x, rfl, hx⟩ := pollAccepting_int hr
    have hu : ∀ c, Linked c (s.pc t) → untimed c = false := by
      rw [hp]
      intro cm hc
      cases cm <;> simp only [Linked] at hc
      rfl
    have hfin : ∀ r, Eff e s (finish s t false r) (some t) := fun r =>
      eff_fin (s' := finish s t false r) (by rw [hp]; simp) (by rw [hp]; simp) (by rw [hp]; rfl) (by rw [hp]; intro i hc; cases hc) rfl rfl (fun _ _ => hu)
    dsimp only at h
    split at h
    · split at h
      · split at h
        · cases Outcome.ok.inj h
          exact ⟨hfl, hfin _⟩
        · cases Outcome.ok.inj h
          refine ⟨hfl, eff_move (p' := .reqExec info algo hh pk) (by rw [hp]; simp) (by rw [hp]; simp) (by simp) (by simp) (by rw [hp]; rfl) (by rw [hp]; intro i hc; cases hc) rfl (by intro i hc; cases hc) ?_ rfl rfl⟩
          rw [hp]
          intro cm hc
          cases cm <;> simp only [Linked] at hc ⊢
      · cases Outcome.ok.inj h
        refine ⟨hfl, eff_move (p' := .reqWait info algo hh pk second) (by rw [hp]; simp) (by rw [hp]; simp) (by simp) (by simp) (by rw [hp]; rfl) (by rw [hp]; intro i hc; cases hc) rfl (by intro i hc; cases hc) ?_ rfl ?_⟩
        · rw [hp]; exact fun _ hc => hc
        · have : (fun u => if u = t then Pc.reqWait info algo hh pk second else s.pc u) = s.pc := by
            funext u; split
            · rename_i hu; rw [hu, hp]
            · rfl
          unfold goto
          dsimp only
          rw [this]
    · split at h
      · cases Outcome.ok.inj h
        exact ⟨hfl, hfin _⟩
      · cases Outcome.ok.inj h
        refine ⟨hfl, eff_move (p' := .reqRespond _ pk) (by rw [hp]; simp) (by rw [hp]; simp) (by simp) (by simp) (by rw [hp]; rfl) (by rw [hp]; intro i hc; cases hc) rfl (by intro i hc; cases hc) ?_ rfl rfl⟩
        rw [hp]
        intro cm hc
        cases cm <;> simp only [Linked] at hc ⊢
  | reqExec info algo hh pk =>
    rw [hp] at h
    dsimp only at h
    obtain ⟨⟨r, o⟩, hr, h⟩ := bind_eq_ok.mp h
    have hre := getExec_ok hr
    subst hre
    have hu : ∀ c, Linked c (s.pc t) → untimed c = false := by
      rw [hp]
      intro cm hc
      cases cm <;> simp only [Linked] at hc
      rfl
    have hfin : ∀ r, Eff e s (finish s t false r) (some t) := fun r =>
      eff_fin (s' := finish s t false r) (by rw [hp]; simp) (by rw [hp]; simp) (by rw [hp]; rfl) (by rw [hp]; intro i hc; cases hc) rfl rfl (fun _ _ => hu)
    split at h
    · rename_i heq
      cases heq
      split at h
      · cases Outcome.ok.inj h
        refine ⟨hfl, eff_move (p' := .reqWait info algo hh pk true) (by rw [hp]; simp) (by rw [hp]; simp) (by simp) (by simp) (by rw [hp]; rfl) (by rw [hp]; intro i hc; cases hc) rfl (by intro i hc; cases hc) ?_ rfl rfl⟩
        rw [hp]
        intro cm hc
        cases cm <;> simp only [Linked] at hc ⊢
      · cases Outcome.ok.inj h
        exact ⟨hfl, hfin _⟩
    · rename_i heq
      cases heq
      cases Outcome.ok.inj h
      exact ⟨hfl, hfin _⟩
  | reqRespond info pk =>
    rw [hp] at h
    dsimp only at h
    obtain ⟨⟨r, o⟩, hr, h⟩ := bind_eq_ok.mp h
    have hu : ∀ c, Linked c (s.pc t) → untimed c = false := by
      rw [hp]
      intro cm hc
      cases cm <;> simp only [Linked] at hc
      rfl
    obtain ⟨hi', ⟨hre, rfl⟩ | ⟨f, g, b', hf, hst, hn1, rfl, hput, hg⟩⟩ := respondAccept_at hfl hr
    · cases Outcome.ok.inj h
      subst hre
      exact ⟨hfl, eff_fin (by rw [hp]; simp) (by rw [hp]; simp) (by rw [hp]; rfl) (by rw [hp]; intro i hc; cases hc) rfl rfl (fun _ _ => hu)⟩
    · cases Outcome.ok.inj h
      have hid : f.info.id = info.id := flowAt_id hfl.ids hf
      have hgid : g.info.id = info.id := by rw [hg]; exact hid
      refine ⟨hi', .thread t [.handed t g.info pk] .done rfl rfl (Link.goFin (evs := []) (by rw [hp]; simp) (by rw [hp]; simp) (fun ev hv => by cases hv) ?_ ?_) ?_⟩
      · exact ⟨by simp [isReply], fun u hu => by simpa [isReply] using fun hc => hu hc.symm, by simp, by simp⟩
      · intro hx; cases hx
      · refine .respond info.id f g hf hput (by rw [hp]; rfl) rfl (by rw [hp]; intro i hc; cases hc) (by intro i hc; cases hc) rfl ?_ (.inl hst) ?_ ?_
        · intro i hne
          refine neutral_cons ⟨?_, rfl, rfl⟩ (neutral_nil i)
          simp [handedPk, hgid, hne.symm]
        · have hhand : latest (handedPk info.id) (s.log ++ [.handed t g.info pk]) = some pk :=
            latest_snoc (evs := []) (by simp [handedPk, hgid]) (fun ev hv => by cases hv)
          have hlog : (goto (note { s with reg := r } (.handed t g.info pk)) t .done).log = s.log ++ [.handed t g.info pk] := rfl
          rw [hlog]
          have hacc : ∀ np, AccOk s.log f np → AccOk (s.log ++ [.handed t g.info pk]) g np := by
            intro np ⟨h1, h2, h3⟩
            refine ⟨by rw [hg]; exact h1, .inr (.inl (by rw [hg])), fun _ => ⟨by rw [hg]; exact hn1, fun hcy => ?_⟩⟩
            rw [hgid, hhand]
            rw [hg] at hcy ⊢
            dsimp only at hcy ⊢
            rw [if_pos (Nat.pos_of_ne_zero hcy)]
          intro pc hgood
          cases pc <;> simp only [Good, AllOk, AllSt, hst] at hgood
          all_goals try (exfalso; simp at hgood; done)
          case accStart => exact hacc _ hgood
          case accWait => exact ⟨by rw [hg]; exact hgood.1, hacc _ hgood.2⟩
        · intro u i pk' hm
          cases List.mem_singleton.mp hm
          exact ⟨hst, rfl, by rw [hg]⟩
  | deallocSent =>
    rw [hp] at h
    cases Outcome.ok.inj h
    refine ⟨hfl, eff_fin (by rw [hp]; simp) (by rw [hp]; simp) (by rw [hp]; rfl) (by rw [hp]; intro i hc; cases hc) rfl rfl ?_⟩
    intro _ _
    rw [hp]
    intro cm hc
    cases cm <;> simp only [Linked] at hc
    rfl
  | freeing id =>
    rw [hp] at h
    dsimp only at h
    obtain ⟨⟨r, o⟩, hr, h⟩ := bind_eq_ok.mp h
    obtain ⟨hi', hrem⟩ := destroyFlow_at hfl hr
    cases Outcome.ok.inj h
    refine ⟨hi', .thread t ([.released t id] ++ [finEv t false 0]) .done rfl ?_ (Link.goFin (by rw [hp]; simp) (by rw [hp]; simp) ?_ (finEv_answer t _ _) ?_) ?_⟩
    · rw [finish_eq]; simp [note]
    · intro ev hv; rw [List.mem_singleton.mp hv]; rfl
    · intro hx; exact absurd (finEv_timeo hx).2 (by decide)
    · refine .free id hrem hp rfl ?_ ?_
      · rw [List.filterMap_append, List.filterMap_cons_none (finEv_held _ _ _)]; rfl
      · intro i
        exact neutral_cons ⟨rfl, rfl, rfl⟩ (neutral_cons (finEv_neutral i t _ _) (neutral_nil i))

theorem act_eff {e : Env} {s s' : Sys} {a : Act} (hi : Own e s) (hp : polite s a = true) (h : act e s a = .ok s') :
    FlowInv s'.reg ∧ Eff e s s' (actor a) := by
  cases a with
  | start t cmd c =>
    unfold act at h
    dsimp only at h
    split at h
    · rename_i h0
      exact start_eff hi h0 hp h
    · cases h
  | go t c => exact go_eff hi h
  | table op =>
    unfold act at h
    dsimp only at h
    split at h
    · rename_i ht
      obtain ⟨⟨r, o⟩, hr, h⟩ := bind_eq_ok.mp h
      cases Outcome.ok.inj h
      obtain ⟨hi', hf⟩ := table_at hi.flow ht hr
      exact ⟨hi', .table rfl rfl hf⟩
    · cases h

end Ouro.IrmdFlow
