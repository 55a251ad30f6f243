import Verif.Proof.IrmdInv

/-!
# Requests of IPCPs are answered when nobody sets a time limit on accepting
-/

namespace Ouro.IrmdFlow

open Ouro.Registry Spec.FiniteMap Spec.IrmdFlow

/-- Accepting, without a time limit. -/
def Waiting (id : Int) : Pc → Prop
  | .accStart i _ b => i.id = id ∧ b = false
  | .accWait _ i _ b => i.id = id ∧ b = false
  | .accRespond i _ _ b => i.id = id ∧ b = false
  | _ => False

theorem Waiting.holds {id : Int} {p : Pc} (h : Waiting id p) : holds p = some id := by
  cases p <;> simp only [Waiting] at h
  all_goals exact congrArg some h.1

/-- The answer to a request is still to be given. -/
def Owed (s : Sys) (info : FlowInfo) : Prop :=
  ∃ t f, flowAt s.reg info.id = some f ∧ f.info = info ∧ info.state = .allocated ∧ Waiting info.id (s.pc t)

structure PInv (s : Sys) : Prop where
  noTime : ∀ t i b, Ev.started t (.accept i b) ∈ s.log → b = false
  owed : ∀ l1 l2 u info pk, s.log = l1 ++ .handed u info pk :: l2 →
    (∃ r pk', Ev.toIpcp info.n1pid (.allocResp info.id info.npid r pk') ∈ l2) ∨ Owed s info

theorem patient_polite (s : Sys) (a : Act) (h : patient s a = true) : polite s a = true := by
  cases a with
  | start t cmd c => cases cmd <;> first | exact h | rfl
  | go t c => rfl
  | table op => rfl

/-- A thread that runs does not touch the flow of another one that is waiting. -/
theorem owed_other {e : Env} {s s' : Sys} {who : Option Nat} (hi : Inv e s) (heff : Eff e s s' who) {t : Nat} (ht : who ≠ some t) {info : FlowInfo} {f : Flow}
    (h1 : flowAt s.reg info.id = some f) (h2 : f.info = info) (h3 : info.state = .allocated) (h4 : Waiting info.id (s.pc t)) : Owed s' info := by
  have hst : f.info.state = .allocated := by rw [h2]; exact h3
  have hh := h4.holds
  cases heff with
  | table hp hl hf =>
    refine ⟨t, f, ?_, h2, h3, by rw [hp]; exact h4⟩
    rcases hf with hf | ⟨p, hf⟩
    · rw [hf]; exact h1
    · rw [hf]
      dsimp only
      rw [h1]
      unfold cancelled
      simp [hst]
  | thread u evs p' hp hl hk hf =>
    have hne : t ≠ u := by rintro rfl; exact ht rfl
    have hpc : s'.pc t = s.pc t := by rw [hp]; simp [hne]
    refine ⟨t, f, ?_, h2, h3, by rw [hpc]; exact h4⟩
    have hnl := hi.notLive t _ hh
    cases hf with
    | quiet hf => rw [hf]; exact h1
    | respond id f1 g ha hf _ _ _ _ _ _ hs =>
      rw [hf, put_ne]
      · exact h1
      · rintro rfl
        rw [h1] at ha; cases ha
        rw [hst] at hs
        rcases hs with hs | hs <;> cases hs
    | create id f1 ha hf =>
      rw [hf, put_ne]
      · exact h1
      · rintro rfl
        rw [h1] at ha; cases ha
    | own id g hf h0 =>
      rw [hf, put_ne]
      · exact h1
      · rintro rfl
        exact hne (hi.uniq t u _ hh h0)
    | grant id g key hf h0 =>
      rw [hf, put_ne]
      · exact h1
      · rintro rfl
        exact hne (hi.uniq t u _ hh h0)
    | drop id hf h0 =>
      rw [hf, remove_ne]
      · exact h1
      · rintro rfl
        exact hne (hi.uniq t u _ hh h0)
    | dealloc id f1 g ha hf _ _ _ _ _ _ _ _ hl =>
      rw [hf, put_ne]
      · exact h1
      · rintro rfl
        rw [hnl] at hl; cases hl
    | resp id f1 g ha hf _ _ _ _ hs =>
      rw [hf, put_ne]
      · exact h1
      · rintro rfl
        rw [h1] at ha; cases ha
        rw [hst] at hs; cases hs
    | free id hf h0 =>
      rw [hf, remove_ne]
      · exact h1
      · rintro rfl
        have := (hi.freeing u _ h0).1
        rw [hnl] at this; cases this

/-- The waiting thread itself goes on or answers. -/
theorem owed_self {e : Env} {s s' : Sys} {t : Nat} {c : Choice} (hi : Inv e s) (h : go e s t c = .ok s') {info : FlowInfo} {f : Flow}
    (h1 : flowAt s.reg info.id = some f) (h2 : f.info = info) (h3 : info.state = .allocated) (h4 : Waiting info.id (s.pc t)) :
    Owed s' info ∨ ∃ r pk', s'.log = s.log ++ [.toIpcp info.n1pid (.allocResp info.id info.npid r pk')] := by
  have hfl := hi.own.flow
  have hst : f.info.state = .allocated := by rw [h2]; exact h3
  obtain ⟨f0, hf0, hg⟩ := hi.own.good t _ h4.holds
  rw [h1] at hf0
  cases hf0
  unfold go at h
  cases hp : s.pc t <;> rw [hp] at h4 hg <;> simp only [Waiting] at h4
  case accStart i sk b =>
    rw [hp] at h
    dsimp only at h
    obtain ⟨⟨r, o⟩, hr, h⟩ := bind_eq_ok.mp h
    obtain ⟨_, _, f1, hf1, hs1, _⟩ := waitAcceptedStart_at hfl hr
    rw [h4.1, h1] at hf1
    cases hf1
    rw [hst] at hs1; cases hs1
  case accWait p i sk b =>
    obtain ⟨hid, rfl⟩ := h4
    rw [hp] at h
    dsimp only at h
    obtain ⟨⟨r, o⟩, hr, h⟩ := bind_eq_ok.mp h
    obtain ⟨hi', f1, hf1, hptr1, hcase⟩ := waitAcceptedWake_at hfl hr
    obtain ⟨rfl, hid1⟩ := flow_eq_ptr hfl h1 hf1 (hg.1.trans hptr1.symm)
    rcases hcase with ⟨rfl, _, hsame⟩ | ⟨ht, rfl, hput⟩ | ⟨_, _, rfl, hput⟩ | ⟨_, hs, rfl, hput⟩
    · cases Outcome.ok.inj h
      subst hsame
      exact .inl ⟨t, f, h1, h2, h3, by show Waiting _ (s.pc t); rw [hp]; exact ⟨hid, rfl⟩⟩
    · simp at ht
    · dsimp only at h
      rw [if_neg (by decide), if_neg (by decide)] at h
      cases Outcome.ok.inj h
      refine .inl ⟨t, { f with data := none }, ?_, h2, h3, ?_⟩
      · show flowAt r _ = _
        rw [hput, ← hid1]; exact put_eq
      · simp [goto, Waiting, hid1]
    · rw [hst] at hs; cases hs
  case accRespond i sk rpk b =>
    obtain ⟨hinfo, _⟩ := hg
    rw [hp] at h
    dsimp only at h
    have hi' : i = info := hinfo.symm.trans h2
    subst hi'
    right
    split at h
    · split at h
      · cases Outcome.ok.inj h
        exact ⟨_, _, rfl⟩
      · cases Outcome.ok.inj h
        exact ⟨_, _, rfl⟩
    · cases Outcome.ok.inj h
      exact ⟨_, _, rfl⟩

theorem owed_step {e : Env} {s s' : Sys} {a : Act} (hi : Inv e s) (hp : polite s a = true) (h : act e s a = .ok s') {info : FlowInfo}
    (ho : Owed s info) : Owed s' info ∨ ∃ r pk', s'.log = s.log ++ [.toIpcp info.n1pid (.allocResp info.id info.npid r pk')] := by
  obtain ⟨t, f, h1, h2, h3, h4⟩ := ho
  obtain ⟨_, heff⟩ := act_eff hi.own hp h
  by_cases ha : actor a = some t
  · cases a with
    | start u cmd c =>
      cases ha
      unfold act at h
      dsimp only at h
      split at h
      · rename_i h0
        rw [h0] at h4
        exact h4.elim
      · cases h
    | go u c =>
      cases ha
      exact owed_self hi h h1 h2 h3 h4
    | table op => cases ha
  · exact .inl (owed_other hi heff ha h1 h2 h3 h4)

theorem linked_waiting {c : Cmd} {p : Pc} {id : Int} (hl : Linked c p) (hh : holds p = some id) (hnt : ∀ i b, c = .accept i b → b = false)
    (hp : (∃ i sk b, p = .accStart i sk b) ∨ ∃ q i sk b, p = .accWait q i sk b) : Waiting id p := by
  rcases hp with ⟨i, sk, b, rfl⟩ | ⟨q, i, sk, b, rfl⟩
  · cases c <;> simp only [Linked] at hl
    rename_i j b'
    exact ⟨by injection hh, by rw [hl.2]; exact hnt _ _ rfl⟩
  · cases c <;> simp only [Linked] at hl
    rename_i j b'
    exact ⟨by injection hh, by rw [hl.2]; exact hnt _ _ rfl⟩

theorem start_started {e : Env} {s s' : Sys} {t : Nat} {cmd : Cmd} {c : Choice} (h : start e s t cmd c = .ok s') : Ev.started t cmd ∈ s'.log := by
  unfold start at h
  cases cmd <;> dsimp only at h
  all_goals
    first
      | (obtain ⟨⟨r, o⟩, hr, h⟩ := bind_eq_ok.mp h
         split at h <;> cases Outcome.ok.inj h <;> simp [goto, note, finish])
      | (split at h
         · cases Outcome.ok.inj h; simp [note, finish, goto]
         · obtain ⟨⟨r, o⟩, hr, h⟩ := bind_eq_ok.mp h
           split at h <;> cases Outcome.ok.inj h <;> simp [goto, note, finish])

theorem act_pinv {e : Env} {s s' : Sys} {a : Act} (hi : Inv e s) (hpi : PInv s) (hp : patient s a = true) (h : act e s a = .ok s') : PInv s' := by
  have hpol := patient_polite s a hp
  obtain ⟨_, heff⟩ := act_eff hi.own hpol h
  have hi' := act_inv hi hpol h
  have hno : ∀ t i b, Ev.started t (.accept i b) ∈ s'.log → b = false := by
    intro t i b hm
    cases a with
    | start u cmd c =>
      generalize hw : actor (.start u cmd c) = who at heff
      cases heff with
      | table _ hl _ => rw [hl] at hm; exact hpi.noTime t i b hm
      | thread v evs p' _ hl hk _ =>
        rw [hl] at hm
        rcases List.mem_append.mp hm with hm | hm
        · exact hpi.noTime t i b hm
        · have hlk := hi'.link t (.accept i b) (by rw [hl]; exact List.mem_append_right _ hm)
          rcases hk.kind with ⟨cmd', evs', h0, rfl, hn, _⟩ | ⟨_, hn, _⟩
          · rcases List.mem_cons.mp hm with hm | hm
            · cases hm
              cases hw
              simp only [act, if_pos h0] at h
              have hcmd := start_started h
              rw [hl] at hcmd
              rcases List.mem_append.mp hcmd with hcmd | hcmd
              · exact absurd hcmd (hi.idle t h0 cmd)
              · rcases List.mem_cons.mp hcmd with hcmd | hcmd
                · cases hcmd
                  simpa [patient] using hp
                · exact absurd hcmd (hn t cmd)
            · exact absurd hm (hn t _)
          · exact absurd hm (hn t _)
    | go u c =>
      generalize hw : actor (.go u c) = who at heff
      cases heff with
      | table _ hl _ => rw [hl] at hm; exact hpi.noTime t i b hm
      | thread v evs p' _ hl hk _ =>
        cases hw
        rw [hl] at hm
        rcases List.mem_append.mp hm with hm | hm
        · exact hpi.noTime t i b hm
        · rcases hk.kind with ⟨cmd', evs', h0, _⟩ | ⟨_, hn, _⟩
          · exfalso
            have : go e s u c = .ok s' := h
            unfold go at this
            rw [h0] at this
            cases this
          · exact absurd hm (hn t _)
    | table op =>
      generalize hw : actor (.table op) = who at heff
      cases heff with
      | table _ hl _ => rw [hl] at hm; exact hpi.noTime t i b hm
      | thread v evs p' _ hl hk _ => cases hw
  refine ⟨hno, ?_⟩
  intro l1 l2 u info pk hs
  obtain ⟨evs, hl⟩ : ∃ evs, s'.log = s.log ++ evs := by
    generalize actor a = who at heff
    cases heff with
    | table _ hl _ => exact ⟨[], by rw [hl, List.append_nil]⟩
    | thread v evs p' _ hl hk _ => exact ⟨evs, hl⟩
  have hs2 := hs
  rw [hl] at hs2
  rcases split_append hs2 with ⟨m, hm⟩ | ⟨m, hm1, hm2⟩
  · have hl2 : l2 = m ++ evs := by
      rw [hm, List.append_assoc, List.cons_append] at hs2
      have := List.append_cancel_left hs2
      injection this with _ this
      exact this.symm
    rcases hpi.owed l1 m u info pk hm with ⟨r, pk', hr⟩ | ho
    · exact .inl ⟨r, pk', by rw [hl2]; exact List.mem_append_left _ hr⟩
    · rcases owed_step hi hpol h ho with ho | ⟨r, pk', hr⟩
      · exact .inr ho
      · refine .inl ⟨r, pk', ?_⟩
        rw [hl] at hr
        rw [hl2, List.append_cancel_left hr]
        simp
  · have hmem : Ev.handed u info pk ∈ evs := by rw [hm2]; simp
    right
    generalize actor a = who at heff
    cases heff with
    | table _ hl' _ =>
      rw [hl'] at hl
      have : evs = [] := by simpa using hl
      rw [this] at hmem; cases hmem
    | thread t evs' p' hpc hl' hk hf =>
      rw [hl'] at hl
      have := List.append_cancel_left hl
      subst this
      have hnn : ¬ Neutral info.id evs' := fun hc => by
        have := (hc _ hmem).1
        simp [handedPk] at this
      cases hf with
      | quiet _ _ _ _ _ _ hn => exact absurd (hn _) hnn
      | create _ _ _ _ _ _ _ _ _ hn => exact absurd (hn _) hnn
      | own id g _ _ h1 =>
        exfalso
        have hd : p' ≠ .done := by rintro rfl; cases h1
        have hr := hk.reply
        rw [if_neg hd, List.length_eq_zero_iff, List.filter_eq_nil_iff] at hr
        by_cases hut : u = t
        · exact hr _ hmem (by simp [isReply, hut])
        · have := hk.others u hut
          rw [List.filter_eq_nil_iff] at this
          exact this _ hmem (by simp [isReply])
      | grant _ _ _ _ _ _ _ _ he _ => rw [he] at hmem; simp at hmem
      | drop _ _ _ _ _ _ hn => exact absurd (hn _) hnn
      | dealloc _ _ _ _ _ _ _ _ _ hn => exact absurd (hn _) hnn
      | resp _ _ _ _ _ _ _ _ hn => exact absurd (hn _) hnn
      | free _ _ _ _ _ hn => exact absurd (hn _) hnn
      | respond id f g ha hf h0 h1 h2 h3 hh hn hst hgood hhand =>
        obtain ⟨hst, hg, hsi⟩ := hhand u info pk hmem
        have hid : info.id = id := by
          by_contra hne
          exact hnn (hn _ hne)
        have hfat : flowAt s'.reg info.id = some g := by rw [hf, hid]; exact put_eq
        rcases hi.known id f ha with ⟨v, hv⟩ | hlive
        · have hvt : v ≠ t := by rintro rfl; rw [h0] at hv; cases hv
          obtain ⟨f1, hf1, hgd⟩ := hi.own.good v id hv
          rw [ha] at hf1; cases hf1
          have hpv : s'.pc v = s.pc v := by rw [hpc]; simp [hvt]
          refine ⟨v, g, hfat, hg, hsi, ?_⟩
          rw [hpv, hid]
          have hni : s.pc v ≠ .idle := by intro hc; rw [hc] at hv; cases hv
          obtain ⟨cm, hcm⟩ := hi.busy v hni
          refine linked_waiting (hi.link v cm hcm) hv (fun i b hc => hpi.noTime v i b (hc ▸ hcm)) ?_
          cases hpv' : s.pc v <;> rw [hpv'] at hgd <;> simp only [Good, AllOk, AllSt, hst] at hgd
          all_goals try (exfalso; simp at hgd; done)
          · exact .inl ⟨_, _, _, rfl⟩
          · exact .inr ⟨_, _, _, _, rfl⟩
        · exfalso
          obtain ⟨p, hpp⟩ := Option.isSome_iff_exists.mp hlive
          obtain ⟨f1, hf1, _, hlo⟩ := hi.live id p hpp
          rw [ha] at hf1; cases hf1
          unfold LiveOk at hlo
          rw [hst] at hlo
          rcases hlo with hlo | hlo | ⟨hlo, _⟩ <;> cases hlo

theorem runFrom_pinv {e : Env} {l : List Act} : ∀ {s s' : Sys}, Inv e s → PInv s → runFrom e patient s l = .ok s' → Inv e s' ∧ PInv s' := by
  induction l with
  | nil => intro s s' hi hp h; cases Outcome.ok.inj h; exact ⟨hi, hp⟩
  | cons a l ih =>
    intro s s' hi hpi h
    unfold runFrom at h
    split at h
    · rename_i hp
      obtain ⟨s1, h1, h⟩ := bind_eq_ok.mp h
      exact ih (act_inv hi (patient_polite _ _ hp) h1) (act_pinv hi hpi hp h1) h
    · cases h

theorem run_pinv {e : Env} {l : List Act} {s : Sys} (h : run e patient l = .ok s) : Inv e s ∧ PInv s := by
  unfold run at h
  obtain ⟨s0, h0, h⟩ := bind_eq_ok.mp h
  refine runFrom_pinv (init_inv h0) ?_ h
  unfold init at h0
  obtain ⟨r, hr, h0⟩ := bind_eq_ok.mp h0
  cases Outcome.ok.inj h0
  refine ⟨fun t i b hm => (by cases hm), fun l1 l2 u info pk hs => ?_⟩
  cases l1 <;> cases hs

end Ouro.IrmdFlow
