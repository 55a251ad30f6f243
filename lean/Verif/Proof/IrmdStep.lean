import Verif.Proof.IrmdEff

/-!
# Every piece of an execution has one of the effects
-/

namespace Ouro.IrmdFlow

open Ouro.Registry Spec.FiniteMap Spec.IrmdFlow

/-- The flows the threads own. -/
structure Own (e : Env) (s : Sys) : Prop where
  flow : FlowInv s.reg
  good : ∀ t id, holds (s.pc t) = some id → ∃ f, flowAt s.reg id = some f ∧ Good e s.log f (s.pc t)

theorem hasProc_eq {s s' : Reg} {p : Nat} {o : Out} (h : hasProc s p = .ok (s', o)) : s' = s := by
  cases Outcome.ok.inj h; rfl

theorem start_eff {e : Env} {s s' : Sys} {t : Nat} {cmd : Cmd} {c : Choice} (hi : Own e s) (h0 : s.pc t = .idle)
    (hp : polite s (.start t cmd c) = true) (h : start e s t cmd c = .ok s') : FlowInv s'.reg ∧ Eff e s s' (some t) := by
  unfold start at h
  dsimp only at h
  cases cmd with
  | accept info timed =>
    dsimp only at h
    obtain ⟨⟨r, o⟩, hr, h⟩ := bind_eq_ok.mp h
    have hre := hasProc_eq hr
    split at h <;> rename_i heq <;> cases heq <;> cases Outcome.ok.inj h
    · refine ⟨by subst hre; exact hi.flow, eff_move0 (cmd := .accept info timed) (p' := .accCreate info timed) h0 (by simp) (by simp) rfl (by intro i hc; cases hc) ⟨rfl, rfl⟩ (by subst hre; rfl) rfl⟩
    · exact ⟨by subst hre; exact hi.flow, eff_fin0 (cmd := .accept info timed) (d := false) (r := -EINVAL) h0 (by subst hre; rfl) rfl (by decide)⟩
  | alloc info dst timed =>
    dsimp only at h
    split at h
    · cases Outcome.ok.inj h
      exact ⟨hi.flow, eff_fin0 (cmd := .alloc info dst timed) (d := !timed) (r := -ECRYPT) h0 rfl rfl (by decide)⟩
    · obtain ⟨⟨r, o⟩, hr, h⟩ := bind_eq_ok.mp h
      obtain ⟨hi', ⟨id, rfl, hst, hn1, hnone, hput⟩ | ⟨j, rfl, hsame⟩⟩ := createFlow_at hi.flow hr
      · try dsimp only at h
        cases Outcome.ok.inj h
        refine ⟨hi', .thread t [.started t (.alloc info dst timed)]
          (.allocFind { info with id := id } dst (if 0 < info.cypher then some c.sk else none) timed) rfl rfl
          (Link.start h0 (by simp) (by simp) (fun ev hv => by cases hv) ⟨rfl, rfl⟩) ?_⟩
        refine .create id _ hnone hput (by rw [h0]; rfl) rfl (by rw [h0]; intro i hc; cases hc) (by intro i hc; cases hc) rfl
          (fun i => neutral_cons ⟨rfl, rfl, rfl⟩ (neutral_nil i)) ⟨rfl, hst, ?_⟩
        by_cases hc : 0 < info.cypher
        · simp [hc]
        · simp [hc]
      · try dsimp only at h
        cases Outcome.ok.inj h
        exact ⟨hi', eff_fin0 (cmd := .alloc info dst timed) (d := !timed) (r := -EBADF) h0 hsame rfl (by decide)⟩
  | join info dst timed =>
    dsimp only at h
    obtain ⟨⟨r, o⟩, hr, h⟩ := bind_eq_ok.mp h
    obtain ⟨hi', ⟨id, rfl, hst, hn1, hnone, hput⟩ | ⟨j, rfl, hsame⟩⟩ := createFlow_at hi.flow hr
    · try dsimp only at h
      cases Outcome.ok.inj h
      refine ⟨hi', .thread t [.started t (.join info dst timed)]
        (.joinFind { info with id := id } dst timed) rfl rfl
        (Link.start h0 (by simp) (by simp) (fun ev hv => by cases hv) ⟨rfl, rfl⟩) ?_⟩
      exact .create id _ hnone hput (by rw [h0]; rfl) rfl (by rw [h0]; intro i hc; cases hc) (by intro i hc; cases hc) rfl
        (fun i => neutral_cons ⟨rfl, rfl, rfl⟩ (neutral_nil i)) ⟨rfl, hst, hn1⟩
    · try dsimp only at h
      cases Outcome.ok.inj h
      exact ⟨hi', eff_fin0 (cmd := .join info dst timed) (d := !timed) (r := -EBADF) h0 hsame rfl (by decide)⟩
  | reqArr info hsh pk =>
    dsimp only at h
    obtain ⟨⟨r, o⟩, hr, h⟩ := bind_eq_ok.mp h
    have hre := findIpcp_ok hr
    split at h <;> rename_i heq <;> cases heq <;> cases Outcome.ok.inj h
    · refine ⟨by subst hre; exact hi.flow, eff_move0 (cmd := .reqArr info hsh pk) (p' := .reqWait info _ hsh pk false) h0 (by simp) (by simp) rfl (by intro i hc; cases hc) trivial (by subst hre; rfl) rfl⟩
    · exact ⟨by subst hre; exact hi.flow, eff_fin0 (cmd := .reqArr info hsh pk) (d := false) (r := -EIPCP) h0 (by subst hre; rfl) rfl (by decide)⟩
  | allocReply info response pk =>
    dsimp only at h
    obtain ⟨⟨r, o⟩, hr, h⟩ := bind_eq_ok.mp h
    obtain ⟨hi', ⟨hre, rfl⟩ | ⟨f, g, hf, hst, rfl, hput, hg⟩⟩ := respondAlloc_at hi.flow hr
    · try dsimp only at h
      cases Outcome.ok.inj h
      exact ⟨hi', eff_fin0 (cmd := .allocReply info response pk) (d := false) (r := -EBADF) h0 (by subst hre; rfl) rfl (by decide)⟩
    · try dsimp only at h
      cases Outcome.ok.inj h
      dsimp only at hf hput
      refine ⟨hi', .thread t (.started t (.allocReply info response pk) :: ([.answered t info.id response pk] ++ [finEv t false 0])) .done rfl ?_
        (Link.startFin h0 ?_ (finEv_answer t _ _) ?_) ?_⟩
      · rw [finish_eq]; simp [note]
      · intro ev hv; rw [List.mem_singleton.mp hv]; rfl
      · intro hx; exact absurd (finEv_timeo hx).2 (by decide)
      · refine .respond info.id f g hf hput (by rw [h0]; rfl) rfl (by rw [h0]; intro i hc; cases hc) (by intro i hc; cases hc) ?_ ?_ (.inr hst) ?_ ?_
        · rw [List.filterMap_cons_none rfl, List.cons_append, List.filterMap_cons_none rfl, List.nil_append, List.filterMap_cons_none (finEv_held _ _ _)]; rfl
        · intro i hne
          refine neutral_cons ⟨rfl, rfl, rfl⟩ (neutral_cons ⟨rfl, ?_, rfl⟩ (neutral_cons (finEv_neutral i t _ _) (neutral_nil i)))
          simp [answeredPk, hne.symm]
        · have hid : f.info.id = info.id := flowAt_id hi.flow.ids hf
          have hlog : (finish (note { note s (.started t (.allocReply info response pk)) with reg := r } (.answered t info.id response pk)) t false 0).log =
              s.log ++ [.started t (.allocReply info response pk), .answered t info.id response pk, finEv t false 0] := by
            rw [finish_eq]; simp [note]
          have hsent : latest (sentPk info.id) (s.log ++ [.started t (.allocReply info response pk), .answered t info.id response pk, finEv t false 0]) = latest (sentPk info.id) s.log := by
            refine latest_skip fun ev hv => ?_
            simp only [List.mem_cons, List.not_mem_nil, or_false] at hv
            rcases hv with rfl | rfl | rfl
            · rfl
            · rfl
            · exact (finEv_neutral _ _ _ _).2.2
          have hansw : latest (answeredPk info.id) (s.log ++ [.started t (.allocReply info response pk), .answered t info.id response pk, finEv t false 0]) = some pk := by
            rw [show s.log ++ [.started t (.allocReply info response pk), .answered t info.id response pk, finEv t false 0] =
              (s.log ++ [.started t (.allocReply info response pk)]) ++ (.answered t info.id response pk :: [finEv t false 0]) by simp]
            refine latest_snoc (by simp [answeredPk]) fun ev hv => ?_
            rw [List.mem_singleton.mp hv]
            exact (finEv_neutral _ _ _ _).2.1
          intro pc hgood
          rw [hlog]
          cases pc <;> simp only [Good, AccOk, AccSt, hst] at hgood
          all_goals try (exfalso; simp at hgood; done)
          case allocSent i j sk tm =>
            obtain ⟨h1, h2, h3, h4, h5, h6, h7⟩ := hgood
            obtain ⟨hs, rfl⟩ | ⟨hs, rfl⟩ := hg
            · exact ⟨h1, h2, h3, .inr (.inl rfl), h5, by dsimp only; rw [hid, hsent, ← hid]; exact h6, fun _ => by dsimp only; rw [hid, hansw]⟩
            · exact ⟨h1, h2, h3, .inr (.inr rfl), h5, by dsimp only; rw [hid, hsent, ← hid]; exact h6, fun hc => by cases hc⟩
          case allocStart i j sk tm =>
            obtain ⟨h1, h2, h3, h4, h5, h6, h7⟩ := hgood
            obtain ⟨hs, rfl⟩ | ⟨hs, rfl⟩ := hg
            · exact ⟨h1, h2, h3, .inr (.inl rfl), h5, by dsimp only; rw [hid, hsent, ← hid]; exact h6, fun _ => by dsimp only; rw [hid, hansw]⟩
            · exact ⟨h1, h2, h3, .inr (.inr rfl), h5, by dsimp only; rw [hid, hsent, ← hid]; exact h6, fun hc => by cases hc⟩
          case allocWait p i j sk tm =>
            obtain ⟨h0, h1, h2, h3, h4, h5, h6, h7⟩ := hgood
            obtain ⟨hs, rfl⟩ | ⟨hs, rfl⟩ := hg
            · exact ⟨h0, h1, h2, h3, .inr (.inl rfl), h5, by dsimp only; rw [hid, hsent, ← hid]; exact h6, fun _ => by dsimp only; rw [hid, hansw]⟩
            · exact ⟨h0, h1, h2, h3, .inr (.inr rfl), h5, by dsimp only; rw [hid, hsent, ← hid]; exact h6, fun hc => by cases hc⟩
          case drop => obtain ⟨hs, rfl⟩ | ⟨hs, rfl⟩ := hg <;> simp [Good]
        · intro u i pk' hm
          simp only [List.cons_append, List.nil_append, List.mem_cons, List.not_mem_nil, or_false, reduceCtorEq, false_or] at hm
          rcases finEv_cases t false 0 with h1 | ⟨r', h1, _⟩ <;> rw [h1] at hm <;> cases hm
  | dealloc info =>
    dsimp only at h
    obtain ⟨⟨r, o⟩, hr, h⟩ := bind_eq_ok.mp h
    obtain ⟨hi', f, g, hf, hst, hg, rfl, hput⟩ := deallocFlow_at hi.flow hr
    try dsimp only at h
    cases Outcome.ok.inj h
    refine ⟨hi', .thread t (.started t (.dealloc info) :: [.toIpcp g.info.n1pid (.dealloc g.info.id)]) .deallocSent rfl ?_
      (Link.start h0 (by simp) (by simp) ?_ trivial) ?_⟩
    · simp [note, goto]
    · intro ev hv; rw [List.mem_singleton.mp hv]; rfl
    · refine .dealloc info.id f g hf hput (by rw [h0]; rfl) rfl (by rw [h0]; intro i hc; cases hc) rfl
        (fun i => neutral_cons ⟨rfl, rfl, rfl⟩ (neutral_cons ⟨rfl, rfl, rfl⟩ (neutral_nil i))) hst (by rw [hg]) (by rw [hg]; exact ⟨rfl, rfl⟩) ?_
      unfold polite at hp
      rw [of_decide_eq_true hp]
      rfl
  | deallocResp info =>
    dsimp only at h
    obtain ⟨⟨r, o⟩, hr, h⟩ := bind_eq_ok.mp h
    obtain ⟨hi', f, g, hf, hst, hg, rfl, hput⟩ := deallocFlowResp_at hi.flow hr
    try dsimp only at h
    cases Outcome.ok.inj h
    have hid : g.info.id = info.id := by
      have := flowAt_id hi.flow.ids hf
      rw [hg]; exact this
    refine ⟨hi', .thread t [.started t (.deallocResp info)] (.freeing g.info.id) rfl ?_
      (Link.start h0 (by simp) (by simp) (fun ev hv => by cases hv) trivial) ?_⟩
    · simp [note, goto]
    · exact .resp info.id f g hf hput h0 (by rw [hid]) rfl (fun i => neutral_cons ⟨rfl, rfl, rfl⟩ (neutral_nil i)) hst (by rw [hg]) (by rw [hg]; exact ⟨rfl, rfl⟩)

end Ouro.IrmdFlow
