import Verif.Proof.IrmdGo

/-!
# The invariant of the daemon
-/

namespace Ouro.IrmdFlow

open Ouro.Registry Spec.FiniteMap Spec.IrmdFlow

/-- What holds before a flow is handed to a process. -/
def GrantSpec (e : Env) (l : List Ev) (t : Nat) (info : FlowInfo) (key : Option Nat) : Prop :=
  info.state = .allocated ∧ info.n1pid ≠ 0 ∧ holder l info.id = none ∧
  ∃ c, Ev.started t c ∈ l ∧ requester c = some info.npid ∧
    ((∃ i b, c = .accept i b) ∧ KeyAcc e l info key ∨ (∃ i d b, c = .alloc i d b) ∧ KeyAll e l info key)

/-- A flow handed to a process. -/
def LiveOk (s : Sys) (id : Int) (f : Flow) : Prop :=
  f.info.state = .allocated ∨ f.info.state = .deallocPending ∨ (f.info.state = .deallocated ∧ ∃ t, s.pc t = .freeing id)

structure Inv (e : Env) (s : Sys) : Prop where
  own : Own e s
  uniq : ∀ t u id, holds (s.pc t) = some id → holds (s.pc u) = some id → t = u
  notLive : ∀ t id, holds (s.pc t) = some id → holder s.log id = none
  live : ∀ id p, holder s.log id = some p → ∃ f, flowAt s.reg id = some f ∧ f.info.npid = p ∧ LiveOk s id f
  known : ∀ id f, flowAt s.reg id = some f → (∃ t, holds (s.pc t) = some id) ∨ (holder s.log id).isSome
  freeing : ∀ t id, s.pc t = .freeing id → (holder s.log id).isSome ∧ ∃ f, flowAt s.reg id = some f ∧ f.info.state = .deallocated
  funiq : ∀ t u id, s.pc t = .freeing id → s.pc u = .freeing id → t = u
  idle : ∀ t, s.pc t = .idle → ∀ c, Ev.started t c ∉ s.log
  link : ∀ t c, Ev.started t c ∈ s.log → Linked c (s.pc t)
  busy : ∀ t, s.pc t ≠ .idle → ∃ c, Ev.started t c ∈ s.log
  once : ∀ t, (s.log.filter (isReply t)).length = if s.pc t = .done then 1 else 0
  timeo : ∀ t c, Ev.started t c ∈ s.log → untimed c = true → Ev.result t (-ETIMEDOUT) ∉ s.log
  grants : ∀ l1 l2 t info key, s.log = l1 ++ .granted t info key :: l2 → GrantSpec e l1 t info key

theorem holder_append (log evs : List Ev) : holder (log ++ evs) = (evs.filterMap heldEv).foldl HEv.apply (holder log) := by
  unfold holder held
  rw [List.filterMap_append, List.foldl_append]

/-- An element of a list that is extended. -/
theorem split_append {α : Type} {l evs l1 l2 : List α} {x : α} (h : l ++ evs = l1 ++ x :: l2) :
    (∃ m, l = l1 ++ x :: m) ∨ (∃ m, l1 = l ++ m ∧ evs = m ++ x :: l2) := by
  rcases List.append_eq_append_iff.mp h with ⟨a, h1, h2⟩ | ⟨a, h1, h2⟩
  · exact .inr ⟨a, h1, h2⟩
  · cases a with
    | nil =>
      rw [List.append_nil] at h1
      exact .inr ⟨[], by rw [List.append_nil, h1], h2.symm⟩
    | cons y a =>
      rw [List.cons_append] at h2
      cases h2
      exact .inl ⟨a, h1⟩

theorem init_inv {e : Env} {s : Sys} (h : init = .ok s) : Inv e s := by
  unfold init at h
  obtain ⟨r, hr, h⟩ := bind_eq_ok.mp h
  cases Outcome.ok.inj h
  have hfl := flow_init hr
  have hnil : r.flows = [] := by
    unfold Registry.init at hr
    obtain ⟨b, hb, hr⟩ := bind_eq_ok.mp hr
    cases Outcome.ok.inj hr
    rfl
  have hat : ∀ id, flowAt r id = none := fun id => by unfold flowAt; rw [hnil]; rfl
  have hho : ∀ id, holder [] id = none := fun id => rfl
  refine ⟨⟨hfl, ?_⟩, ?_, ?_, ?_, ?_, ?_, ?_, ?_, ?_, ?_, ?_, ?_, ?_⟩
  · intro t id h; cases h
  · intro t u id h; cases h
  · intro t id h; cases h
  · intro id p h; rw [hho] at h; cases h
  · intro id f h; rw [hat] at h; cases h
  · intro t id h; cases h
  · intro t u id h; cases h
  · intro t _ c hc; cases hc
  · intro t c hc; cases hc
  · intro t h; exact absurd rfl h
  · intro t; simp
  · intro t c hc; cases hc
  · intro l1 l2 t info key h; cases l1 <;> cases h

theorem linked_idle {c : Cmd} : ¬ Linked c .idle := by cases c <;> exact id

section thread
variable {e : Env} {s s' : Sys} {t : Nat} {evs : List Ev} {p' : Pc}

theorem link_part (hi : Inv e s) (hp : s'.pc = fun u => if u = t then p' else s.pc u) (hl : s'.log = s.log ++ evs) (hk : Link s t evs p') :
    (∀ t, s'.pc t = .idle → ∀ c, Ev.started t c ∉ s'.log) ∧ (∀ t c, Ev.started t c ∈ s'.log → Linked c (s'.pc t)) ∧
    (∀ t, s'.pc t ≠ .idle → ∃ c, Ev.started t c ∈ s'.log) ∧
    (∀ t, (s'.log.filter (isReply t)).length = if s'.pc t = .done then 1 else 0) ∧
    (∀ t c, Ev.started t c ∈ s'.log → untimed c = true → Ev.result t (-ETIMEDOUT) ∉ s'.log) := by
  have hpt : s'.pc t = p' := by rw [hp]; simp
  have hpu : ∀ u, u ≠ t → s'.pc u = s.pc u := fun u hu => by rw [hp]; simp [hu]
  have hst : ∀ u c, u ≠ t → Ev.started u c ∉ evs := by
    intro u c hu hm
    rcases hk.kind with ⟨cmd, evs', _, rfl, hn, _⟩ | ⟨_, hn, _⟩
    · rcases List.mem_cons.mp hm with hm | hm
      · cases hm; exact hu rfl
      · exact hn u c hm
    · exact hn u c hm
  have hlink : ∀ u c, Ev.started u c ∈ s'.log → Linked c (s'.pc u) := by
    intro u c hm
    rw [hl] at hm
    rcases List.mem_append.mp hm with hm | hm
    · by_cases hu : u = t
      · subst hu
        rw [hpt]
        rcases hk.kind with ⟨cmd, evs', h0, _⟩ | ⟨_, _, hn⟩
        · exact absurd hm (hi.idle u h0 c)
        · exact hn c (hi.link u c hm)
      · rw [hpu u hu]; exact hi.link u c hm
    · by_cases hu : u = t
      · subst hu
        rw [hpt]
        rcases hk.kind with ⟨cmd, evs', h0, rfl, hn, hlk⟩ | ⟨_, hn, _⟩
        · rcases List.mem_cons.mp hm with hm | hm
          · cases hm; exact hlk
          · exact absurd hm (hn u c)
        · exact absurd hm (hn u c)
      · exact absurd hm (hst u c hu)
  refine ⟨?_, hlink, ?_, ?_, ?_⟩
  · intro u hu c hm
    have := hlink u c hm
    rw [hu] at this
    exact linked_idle this
  · intro u hu
    rw [hl]
    by_cases hut : u = t
    · subst hut
      rcases hk.kind with ⟨cmd, evs', h0, rfl, hn, hlk⟩ | ⟨h0, hn, _⟩
      · exact ⟨cmd, by simp⟩
      · obtain ⟨c, hc⟩ := hi.busy u h0
        exact ⟨c, List.mem_append_left _ hc⟩
    · rw [hpu u hut] at hu
      obtain ⟨c, hc⟩ := hi.busy u hu
      exact ⟨c, List.mem_append_left _ hc⟩
  · intro u
    rw [hl, List.filter_append, List.length_append, hi.once u]
    by_cases hut : u = t
    · subst hut
      rw [hpt, hk.reply, if_neg hk.notDone]
      omega
    · rw [hpu u hut, hk.others u hut]; rfl
  · intro u c hm hu hr
    rw [hl] at hr hm
    have hlk : Linked c (s.pc u) ∨ Ev.started u c ∈ evs := by
      rcases List.mem_append.mp hm with hm | hm
      · exact .inl (hi.link u c hm)
      · exact .inr hm
    rcases List.mem_append.mp hr with hr | hr
    · rcases List.mem_append.mp hm with hm | hm
      · exact hi.timeo u c hm hu hr
      · have hut : u = t := by
          by_contra hne
          exact hst u c hne hm
        subst hut
        have h1 := hi.once u
        rw [if_neg hk.notDone] at h1
        rw [List.length_eq_zero_iff, List.filter_eq_nil_iff] at h1
        exact h1 _ hr (by simp [isReply])
    · obtain ⟨rfl, h1⟩ := hk.timeo u _ hr
      have := h1 rfl c hlk
      rw [hu] at this
      cases this

theorem good_other (hi : Inv e s) {u : Nat} {id : Int} (hh : holds (s.pc u) = some id)
    (hf : flowAt s'.reg id = flowAt s.reg id) (hl : s'.log = s.log ++ evs) (hn : Neutral id evs) :
    ∃ f, flowAt s'.reg id = some f ∧ Good e s'.log f (s.pc u) := by
  obtain ⟨f, h1, h2⟩ := hi.own.good u id hh
  have hid := flowAt_id hi.own.flow.ids h1
  refine ⟨f, hf.trans h1, ?_⟩
  rw [hl]
  exact h2.frame (by rw [hh, hid]) (by rw [hid]; exact hn)

/-- Splits of the log that concern grants. -/
theorem grants_part (hi : Inv e s) (hl : s'.log = s.log ++ evs)
    (h : ∀ m l2 t info key, evs = m ++ .granted t info key :: l2 → GrantSpec e (s.log ++ m) t info key) :
    ∀ l1 l2 t info key, s'.log = l1 ++ .granted t info key :: l2 → GrantSpec e l1 t info key := by
  intro l1 l2 u info key hs
  rw [hl] at hs
  rcases split_append hs with ⟨m, hm⟩ | ⟨m, rfl, hm⟩
  · exact hi.grants l1 m u info key hm
  · exact h m l2 u info key hm

theorem no_grant {evs m l2 : List Ev} {t : Nat} {info : FlowInfo} {key : Option Nat} (hh : evs.filterMap heldEv = []) :
    evs ≠ m ++ .granted t info key :: l2 := by
  rintro rfl
  rw [List.filterMap_append, List.filterMap_cons_some (f := heldEv) (b := HEv.grant info.id info.npid) rfl] at hh
  simp at hh

theorem put_eq {κ α : Type} [DecidableEq κ] {m : Map κ α} {k : κ} {v : α} : put m k v k = some v := by simp [put]
theorem put_ne {κ α : Type} [DecidableEq κ] {m : Map κ α} {k x : κ} {v : α} (h : x ≠ k) : put m k v x = m x := by simp [put, h]
theorem remove_eq {κ α : Type} [DecidableEq κ] {m : Map κ α} {k : κ} : remove m k k = none := by simp [remove]
theorem remove_ne {κ α : Type} [DecidableEq κ] {m : Map κ α} {k x : κ} (h : x ≠ k) : remove m k x = m x := by simp [remove, h]

theorem holds_notFreeing {p : Pc} {id : Int} (h : holds p = some id) : NotFreeing p := by
  rintro i rfl; cases h

theorem liveOk_mono {id : Int} {f : Flow} (h : LiveOk s id f) (hm : ∀ u, s.pc u = .freeing id → s'.pc u = .freeing id) : LiveOk s' id f := by
  rcases h with h | h | ⟨h, u, hu⟩
  · exact .inl h
  · exact .inr (.inl h)
  · exact .inr (.inr ⟨h, u, hm u hu⟩)

theorem thread_inv (hi : Inv e s) (hfl : FlowInv s'.reg) (hp : s'.pc = fun u => if u = t then p' else s.pc u)
    (hl : s'.log = s.log ++ evs) (hk : Link s t evs p') (hf : FEff e s s' t evs p') : Inv e s' := by
  obtain ⟨hidle, hlink, hbusy, honce, htimeo⟩ := link_part hi hp hl hk
  have hpt : s'.pc t = p' := by rw [hp]; simp
  have hpu : ∀ u, u ≠ t → s'.pc u = s.pc u := fun u hu => by rw [hp]; simp [hu]
  have hpcase : ∀ u p, s'.pc u = p → (u = t ∧ p' = p) ∨ (u ≠ t ∧ s.pc u = p) := by
    intro u p h
    by_cases hu : u = t
    · subst hu; exact .inl ⟨rfl, hpt.symm.trans h⟩
    · exact .inr ⟨hu, (hpu u hu).symm.trans h⟩
  have hcase : ∀ u i, holds (s'.pc u) = some i → (u = t ∧ holds p' = some i) ∨ (u ≠ t ∧ holds (s.pc u) = some i) := by
    intro u i h
    by_cases hu : u = t
    · subst hu; exact .inl ⟨rfl, by rw [← hpt]; exact h⟩
    · exact .inr ⟨hu, by rw [← hpu u hu]; exact h⟩
  have hmono : NotFreeing (s.pc t) → ∀ i u, s.pc u = .freeing i → s'.pc u = .freeing i := by
    intro h i u hu
    have : u ≠ t := by rintro rfl; exact h i hu
    rw [hpu u this]; exact hu
  have hhold : evs.filterMap heldEv = [] → holder s'.log = holder s.log := by
    intro h; rw [hl, holder_append, h]; rfl
  cases hf with
  | quiet hf h0 h1 h2 h3 hh hn =>
    have hho := hhold hh
    refine ⟨⟨hfl, ?_⟩, ?_, ?_, ?_, ?_, ?_, ?_, hidle, hlink, hbusy, honce, htimeo, ?_⟩
    · intro u i hu
      rcases hcase u i hu with ⟨_, hu⟩ | ⟨hne, hu⟩
      · rw [h1] at hu; cases hu
      · rw [hpu u hne]; exact good_other hi hu (by rw [hf]) hl (hn i)
    · intro u v i hu hv
      rcases hcase u i hu with ⟨_, hu⟩ | ⟨_, hu⟩
      · rw [h1] at hu; cases hu
      · rcases hcase v i hv with ⟨_, hv⟩ | ⟨_, hv⟩
        · rw [h1] at hv; cases hv
        · exact hi.uniq u v i hu hv
    · intro u i hu
      rw [hho]
      rcases hcase u i hu with ⟨_, hu⟩ | ⟨_, hu⟩
      · rw [h1] at hu; cases hu
      · exact hi.notLive u i hu
    · intro i p hh
      rw [hho] at hh
      obtain ⟨f, a, b, c⟩ := hi.live i p hh
      exact ⟨f, by rw [hf]; exact a, b, liveOk_mono c (hmono h2 i)⟩
    · intro i f hff
      rw [hf] at hff
      rw [hho]
      rcases hi.known i f hff with ⟨u, hu⟩ | h
      · have : u ≠ t := by rintro rfl; rw [h0] at hu; cases hu
        exact .inl ⟨u, by rw [hpu u this]; exact hu⟩
      · exact .inr h
    · intro u i hu
      rw [hho, hf]
      rcases hpcase u _ hu with ⟨_, hu⟩ | ⟨_, hu⟩
      · exact absurd hu (h3 i)
      · exact hi.freeing u i hu
    · intro u v i hu hv
      rcases hpcase u _ hu with ⟨_, hu⟩ | ⟨_, hu⟩
      · exact absurd hu (h3 i)
      · rcases hpcase v _ hv with ⟨_, hv⟩ | ⟨_, hv⟩
        · exact absurd hv (h3 i)
        · exact hi.funiq u v i hu hv
    · exact grants_part hi hl fun m l2 u info key he => absurd he (no_grant hh)
  | respond id f g ha hf h0 h1 h2 h3 hh hn hst hgood hhand =>
    have hho := hhold hh
    have hnl : holder s.log id = none := by
      cases hc : holder s.log id with
      | none => rfl
      | some p =>
        obtain ⟨f1, a, b, c⟩ := hi.live id p hc
        rw [ha] at a; cases a
        rcases hst with hst | hst <;> rcases c with c | c | ⟨c, _⟩ <;> rw [hst] at c <;> cases c
    refine ⟨⟨hfl, ?_⟩, ?_, ?_, ?_, ?_, ?_, ?_, hidle, hlink, hbusy, honce, htimeo, ?_⟩
    · intro u i hu
      rcases hcase u i hu with ⟨_, hu⟩ | ⟨hne, hu⟩
      · rw [h1] at hu; cases hu
      · rw [hpu u hne]
        by_cases hii : i = id
        · subst hii
          obtain ⟨f1, a, b⟩ := hi.own.good u i hu
          rw [ha] at a; cases a
          exact ⟨g, by rw [hf]; exact put_eq, hgood _ b⟩
        · exact good_other hi hu (by rw [hf]; exact put_ne hii) hl (hn i hii)
    · intro u v i hu hv
      rcases hcase u i hu with ⟨_, hu⟩ | ⟨_, hu⟩
      · rw [h1] at hu; cases hu
      · rcases hcase v i hv with ⟨_, hv⟩ | ⟨_, hv⟩
        · rw [h1] at hv; cases hv
        · exact hi.uniq u v i hu hv
    · intro u i hu
      rw [hho]
      rcases hcase u i hu with ⟨_, hu⟩ | ⟨_, hu⟩
      · rw [h1] at hu; cases hu
      · exact hi.notLive u i hu
    · intro i p hh
      rw [hho] at hh
      have hne : i ≠ id := by rintro rfl; rw [hnl] at hh; cases hh
      obtain ⟨f1, a, b, c⟩ := hi.live i p hh
      exact ⟨f1, by rw [hf, put_ne hne]; exact a, b, liveOk_mono c (hmono h2 i)⟩
    · intro i f1 hff
      rw [hho]
      have : ∃ f2, flowAt s.reg i = some f2 := by
        rw [hf] at hff
        by_cases hii : i = id
        · exact ⟨f, by rw [hii]; exact ha⟩
        · rw [put_ne hii] at hff; exact ⟨f1, hff⟩
      obtain ⟨f2, hf2⟩ := this
      rcases hi.known i f2 hf2 with ⟨u, hu⟩ | h
      · have : u ≠ t := by rintro rfl; rw [h0] at hu; cases hu
        exact .inl ⟨u, by rw [hpu u this]; exact hu⟩
      · exact .inr h
    · intro u i hu
      rw [hho, hf]
      rcases hpcase u _ hu with ⟨_, hu⟩ | ⟨_, hu⟩
      · exact absurd hu (h3 i)
      · obtain ⟨a, f1, b, c⟩ := hi.freeing u i hu
        have hne : i ≠ id := by rintro rfl; rw [hnl] at a; cases a
        exact ⟨a, f1, by rw [put_ne hne]; exact b, c⟩
    · intro u v i hu hv
      rcases hpcase u _ hu with ⟨_, hu⟩ | ⟨_, hu⟩
      · exact absurd hu (h3 i)
      · rcases hpcase v _ hv with ⟨_, hv⟩ | ⟨_, hv⟩
        · exact absurd hv (h3 i)
        · exact hi.funiq u v i hu hv
    · exact grants_part hi hl fun m l2 u info key he => absurd he (no_grant hh)
  | create id f ha hf h0 h1 h2 h3 hh hn hgood =>
    have hho := hhold hh
    have hnh : ∀ u, holds (s.pc u) ≠ some id := by
      intro u hu
      obtain ⟨f1, a, _⟩ := hi.own.good u id hu
      rw [ha] at a; cases a
    have hnl : holder s.log id = none := by
      cases hc : holder s.log id with
      | none => rfl
      | some p =>
        obtain ⟨f1, a, b, c⟩ := hi.live id p hc
        rw [ha] at a; cases a
    refine ⟨⟨hfl, ?_⟩, ?_, ?_, ?_, ?_, ?_, ?_, hidle, hlink, hbusy, honce, htimeo, ?_⟩
    · intro u i hu
      rcases hcase u i hu with ⟨rfl, hu⟩ | ⟨hne, hu⟩
      · rw [h1] at hu; cases hu
        rw [hpt]
        exact ⟨f, by rw [hf]; exact put_eq, hgood⟩
      · rw [hpu u hne]
        have hii : i ≠ id := by rintro rfl; exact hnh u hu
        exact good_other hi hu (by rw [hf]; exact put_ne hii) hl (hn i)
    · intro u v i hu hv
      rcases hcase u i hu with ⟨rfl, hu⟩ | ⟨_, hu⟩
      · rcases hcase v i hv with ⟨rfl, hv⟩ | ⟨_, hv⟩
        · rfl
        · rw [h1] at hu; cases hu; exact absurd hv (hnh v)
      · rcases hcase v i hv with ⟨_, hv⟩ | ⟨_, hv⟩
        · rw [h1] at hv; cases hv; exact absurd hu (hnh u)
        · exact hi.uniq u v i hu hv
    · intro u i hu
      rw [hho]
      rcases hcase u i hu with ⟨_, hu⟩ | ⟨_, hu⟩
      · rw [h1] at hu; cases hu; exact hnl
      · exact hi.notLive u i hu
    · intro i p hh
      rw [hho] at hh
      have hne : i ≠ id := by rintro rfl; rw [hnl] at hh; cases hh
      obtain ⟨f1, a, b, c⟩ := hi.live i p hh
      exact ⟨f1, by rw [hf, put_ne hne]; exact a, b, liveOk_mono c (hmono h2 i)⟩
    · intro i f1 hff
      rw [hho]
      by_cases hii : i = id
      · exact .inl ⟨t, by rw [hpt, hii]; exact h1⟩
      · rw [hf, put_ne hii] at hff
        rcases hi.known i f1 hff with ⟨u, hu⟩ | h
        · have : u ≠ t := by rintro rfl; rw [h0] at hu; cases hu
          exact .inl ⟨u, by rw [hpu u this]; exact hu⟩
        · exact .inr h
    · intro u i hu
      rw [hho, hf]
      rcases hpcase u _ hu with ⟨_, hu⟩ | ⟨_, hu⟩
      · exact absurd hu (h3 i)
      · obtain ⟨a, f1, b, c⟩ := hi.freeing u i hu
        have hne : i ≠ id := by rintro rfl; rw [hnl] at a; cases a
        exact ⟨a, f1, by rw [put_ne hne]; exact b, c⟩
    · intro u v i hu hv
      rcases hpcase u _ hu with ⟨_, hu⟩ | ⟨_, hu⟩
      · exact absurd hu (h3 i)
      · rcases hpcase v _ hv with ⟨_, hv⟩ | ⟨_, hv⟩
        · exact absurd hv (h3 i)
        · exact hi.funiq u v i hu hv
    · exact grants_part hi hl fun m l2 u info key he => absurd he (no_grant hh)
  | own id g hf h0 h1 h2 h3 hh hn hgood =>
    have hho := hhold hh
    have hnh : ∀ u, u ≠ t → holds (s.pc u) ≠ some id := fun u hne hu => hne (hi.uniq u t id hu h0)
    have hnl := hi.notLive t id h0
    refine ⟨⟨hfl, ?_⟩, ?_, ?_, ?_, ?_, ?_, ?_, hidle, hlink, hbusy, honce, htimeo, ?_⟩
    · intro u i hu
      rcases hcase u i hu with ⟨rfl, hu⟩ | ⟨hne, hu⟩
      · rw [h1] at hu; cases hu
        rw [hpt]
        exact ⟨g, by rw [hf]; exact put_eq, hgood⟩
      · rw [hpu u hne]
        have hii : i ≠ id := by rintro rfl; exact hnh u hne hu
        exact good_other hi hu (by rw [hf]; exact put_ne hii) hl (hn i hii)
    · intro u v i hu hv
      rcases hcase u i hu with ⟨rfl, hu⟩ | ⟨hu', hu⟩
      · rcases hcase v i hv with ⟨rfl, hv⟩ | ⟨hne, hv⟩
        · rfl
        · rw [h1] at hu; cases hu; exact absurd hv (hnh v hne)
      · rcases hcase v i hv with ⟨_, hv⟩ | ⟨_, hv⟩
        · rw [h1] at hv; cases hv; exact absurd hu (hnh u hu')
        · exact hi.uniq u v i hu hv
    · intro u i hu
      rw [hho]
      rcases hcase u i hu with ⟨_, hu⟩ | ⟨_, hu⟩
      · rw [h1] at hu; cases hu; exact hnl
      · exact hi.notLive u i hu
    · intro i p hh
      rw [hho] at hh
      have hne : i ≠ id := by rintro rfl; rw [hnl] at hh; cases hh
      obtain ⟨f1, a, b, c⟩ := hi.live i p hh
      exact ⟨f1, by rw [hf, put_ne hne]; exact a, b, liveOk_mono c (hmono h2 i)⟩
    · intro i f1 hff
      rw [hho]
      by_cases hii : i = id
      · exact .inl ⟨t, by rw [hpt, hii]; exact h1⟩
      · rw [hf, put_ne hii] at hff
        rcases hi.known i f1 hff with ⟨u, hu⟩ | h
        · have : u ≠ t := by rintro rfl; rw [h0] at hu; cases hu; exact hii rfl
          exact .inl ⟨u, by rw [hpu u this]; exact hu⟩
        · exact .inr h
    · intro u i hu
      rw [hho, hf]
      rcases hpcase u _ hu with ⟨_, hu⟩ | ⟨_, hu⟩
      · exact absurd hu (h3 i)
      · obtain ⟨a, f1, b, c⟩ := hi.freeing u i hu
        have hne : i ≠ id := by rintro rfl; rw [hnl] at a; cases a
        exact ⟨a, f1, by rw [put_ne hne]; exact b, c⟩
    · intro u v i hu hv
      rcases hpcase u _ hu with ⟨_, hu⟩ | ⟨_, hu⟩
      · exact absurd hu (h3 i)
      · rcases hpcase v _ hv with ⟨_, hv⟩ | ⟨_, hv⟩
        · exact absurd hv (h3 i)
        · exact hi.funiq u v i hu hv
    · exact grants_part hi hl fun m l2 u info key he => absurd he (no_grant hh)
  | grant id g key hf h0 h1 h2 hid he hok =>
    subst h1
    have hho : holder s'.log = put (holder s.log) id g.info.npid := by
      rw [hl, holder_append, he, ← hid]; rfl
    have hnh : ∀ u, u ≠ t → holds (s.pc u) ≠ some id := fun u hne hu => hne (hi.uniq u t id hu h0)
    have hnl := hi.notLive t id h0
    have hneu : ∀ i, Neutral i evs := fun i => by rw [he]; exact neutral_cons ⟨rfl, rfl, rfl⟩ (neutral_nil i)
    refine ⟨⟨hfl, ?_⟩, ?_, ?_, ?_, ?_, ?_, ?_, hidle, hlink, hbusy, honce, htimeo, ?_⟩
    · intro u i hu
      rcases hcase u i hu with ⟨rfl, hu⟩ | ⟨hne, hu⟩
      · cases hu
      · rw [hpu u hne]
        have hii : i ≠ id := by rintro rfl; exact hnh u hne hu
        exact good_other hi hu (by rw [hf]; exact put_ne hii) hl (hneu i)
    · intro u v i hu hv
      rcases hcase u i hu with ⟨rfl, hu⟩ | ⟨hu', hu⟩
      · cases hu
      · rcases hcase v i hv with ⟨_, hv⟩ | ⟨_, hv⟩
        · cases hv
        · exact hi.uniq u v i hu hv
    · intro u i hu
      rw [hho]
      rcases hcase u i hu with ⟨_, hu⟩ | ⟨hne, hu⟩
      · cases hu
      · have hii : i ≠ id := by rintro rfl; exact hnh u hne hu
        rw [put_ne hii]
        exact hi.notLive u i hu
    · intro i p hh
      rw [hho] at hh
      by_cases hii : i = id
      · subst hii
        rw [put_eq] at hh; cases hh
        exact ⟨g, by rw [hf]; exact put_eq, rfl, .inl hok.1⟩
      · rw [put_ne hii] at hh
        obtain ⟨f1, a, b, c⟩ := hi.live i p hh
        exact ⟨f1, by rw [hf, put_ne hii]; exact a, b, liveOk_mono c (hmono h2 i)⟩
    · intro i f1 hff
      rw [hho]
      by_cases hii : i = id
      · exact .inr (by rw [hii, put_eq]; rfl)
      · rw [hf, put_ne hii] at hff
        rw [put_ne hii]
        rcases hi.known i f1 hff with ⟨u, hu⟩ | h
        · have : u ≠ t := by rintro rfl; rw [h0] at hu; cases hu; exact hii rfl
          exact .inl ⟨u, by rw [hpu u this]; exact hu⟩
        · exact .inr h
    · intro u i hu
      rw [hho, hf]
      rcases hpcase u _ hu with ⟨_, hu⟩ | ⟨_, hu⟩
      · cases hu
      · obtain ⟨a, f1, b, c⟩ := hi.freeing u i hu
        have hne : i ≠ id := by rintro rfl; rw [hnl] at a; cases a
        exact ⟨by rw [put_ne hne]; exact a, f1, by rw [put_ne hne]; exact b, c⟩
    · intro u v i hu hv
      rcases hpcase u _ hu with ⟨_, hu⟩ | ⟨_, hu⟩
      · cases hu
      · rcases hpcase v _ hv with ⟨_, hv⟩ | ⟨_, hv⟩
        · cases hv
        · exact hi.funiq u v i hu hv
    · refine grants_part hi hl fun m l2 u info k heq => ?_
      rw [he] at heq
      have hm : m = [] ∧ Ev.granted u info k = .granted t g.info key := by
        cases m with
        | nil => simp only [List.nil_append, List.cons.injEq] at heq; exact ⟨rfl, heq.1.symm⟩
        | cons a m => simp at heq
      obtain ⟨rfl, hm⟩ := hm
      cases hm
      rw [List.append_nil]
      obtain ⟨a, b, c, d⟩ := hok
      have hni : s.pc t ≠ .idle := by intro hc; rw [hc] at h0; cases h0
      obtain ⟨cm, hcm⟩ := hi.busy t hni
      have hlk := hi.link t cm hcm
      refine ⟨a, b, by rw [hid]; exact hnl, cm, hcm, c cm hlk, ?_⟩
      rcases d with ⟨d1, d2⟩ | ⟨d1, d2⟩
      · exact .inl ⟨d1 cm hlk, d2⟩
      · exact .inr ⟨d1 cm hlk, d2⟩
  | drop id hf h0 h1 h2 hh hn =>
    subst h1
    have hho := hhold hh
    have hnh : ∀ u, u ≠ t → holds (s.pc u) ≠ some id := fun u hne hu => hne (hi.uniq u t id hu h0)
    have hnl := hi.notLive t id h0
    refine ⟨⟨hfl, ?_⟩, ?_, ?_, ?_, ?_, ?_, ?_, hidle, hlink, hbusy, honce, htimeo, ?_⟩
    · intro u i hu
      rcases hcase u i hu with ⟨rfl, hu⟩ | ⟨hne, hu⟩
      · cases hu
      · rw [hpu u hne]
        have hii : i ≠ id := by rintro rfl; exact hnh u hne hu
        exact good_other hi hu (by rw [hf]; exact remove_ne hii) hl (hn i)
    · intro u v i hu hv
      rcases hcase u i hu with ⟨rfl, hu⟩ | ⟨hu', hu⟩
      · cases hu
      · rcases hcase v i hv with ⟨_, hv⟩ | ⟨_, hv⟩
        · cases hv
        · exact hi.uniq u v i hu hv
    · intro u i hu
      rw [hho]
      rcases hcase u i hu with ⟨_, hu⟩ | ⟨_, hu⟩
      · cases hu
      · exact hi.notLive u i hu
    · intro i p hh
      rw [hho] at hh
      have hne : i ≠ id := by rintro rfl; rw [hnl] at hh; cases hh
      obtain ⟨f1, a, b, c⟩ := hi.live i p hh
      exact ⟨f1, by rw [hf, remove_ne hne]; exact a, b, liveOk_mono c (hmono h2 i)⟩
    · intro i f1 hff
      rw [hho]
      by_cases hii : i = id
      · rw [hf, hii, remove_eq] at hff; cases hff
      · rw [hf, remove_ne hii] at hff
        rcases hi.known i f1 hff with ⟨u, hu⟩ | h
        · have : u ≠ t := by rintro rfl; rw [h0] at hu; cases hu; exact hii rfl
          exact .inl ⟨u, by rw [hpu u this]; exact hu⟩
        · exact .inr h
    · intro u i hu
      rw [hho, hf]
      rcases hpcase u _ hu with ⟨_, hu⟩ | ⟨_, hu⟩
      · cases hu
      · obtain ⟨a, f1, b, c⟩ := hi.freeing u i hu
        have hne : i ≠ id := by rintro rfl; rw [hnl] at a; cases a
        exact ⟨a, f1, by rw [remove_ne hne]; exact b, c⟩
    · intro u v i hu hv
      rcases hpcase u _ hu with ⟨_, hu⟩ | ⟨_, hu⟩
      · cases hu
      · rcases hpcase v _ hv with ⟨_, hv⟩ | ⟨_, hv⟩
        · cases hv
        · exact hi.funiq u v i hu hv
    · exact grants_part hi hl fun m l2 u info key he => absurd he (no_grant hh)
  | dealloc id f g ha hf h0 h1 h2 hh hn hs hs' hpid hlv =>
    subst h1
    have hho := hhold hh
    have hnh : ∀ u, holds (s.pc u) ≠ some id := by
      intro u hu
      rw [hi.notLive u id hu] at hlv; cases hlv
    have hnf : ∀ u, s.pc u ≠ .freeing id := by
      intro u hu
      obtain ⟨_, f1, a, b⟩ := hi.freeing u id hu
      rw [ha] at a; cases a
      rw [hs] at b; cases b
    refine ⟨⟨hfl, ?_⟩, ?_, ?_, ?_, ?_, ?_, ?_, hidle, hlink, hbusy, honce, htimeo, ?_⟩
    · intro u i hu
      rcases hcase u i hu with ⟨rfl, hu⟩ | ⟨hne, hu⟩
      · cases hu
      · rw [hpu u hne]
        have hii : i ≠ id := by rintro rfl; exact hnh u hu
        exact good_other hi hu (by rw [hf]; exact put_ne hii) hl (hn i)
    · intro u v i hu hv
      rcases hcase u i hu with ⟨rfl, hu⟩ | ⟨hu', hu⟩
      · cases hu
      · rcases hcase v i hv with ⟨_, hv⟩ | ⟨_, hv⟩
        · cases hv
        · exact hi.uniq u v i hu hv
    · intro u i hu
      rw [hho]
      rcases hcase u i hu with ⟨_, hu⟩ | ⟨_, hu⟩
      · cases hu
      · exact hi.notLive u i hu
    · intro i p hh
      rw [hho] at hh
      obtain ⟨f1, a, b, c⟩ := hi.live i p hh
      by_cases hii : i = id
      · subst hii
        rw [ha] at a; cases a
        exact ⟨g, by rw [hf]; exact put_eq, hpid.1.trans b, .inr (.inl hs')⟩
      · exact ⟨f1, by rw [hf, put_ne hii]; exact a, b, liveOk_mono c (hmono h2 i)⟩
    · intro i f1 hff
      rw [hho]
      by_cases hii : i = id
      · exact .inr (by rw [hii]; exact hlv)
      · rw [hf, put_ne hii] at hff
        rcases hi.known i f1 hff with ⟨u, hu⟩ | h
        · have : u ≠ t := by rintro rfl; rw [h0] at hu; cases hu
          exact .inl ⟨u, by rw [hpu u this]; exact hu⟩
        · exact .inr h
    · intro u i hu
      rw [hho, hf]
      rcases hpcase u _ hu with ⟨_, hu⟩ | ⟨_, hu⟩
      · cases hu
      · obtain ⟨a, f1, b, c⟩ := hi.freeing u i hu
        have hne : i ≠ id := by rintro rfl; exact hnf u hu
        exact ⟨a, f1, by rw [put_ne hne]; exact b, c⟩
    · intro u v i hu hv
      rcases hpcase u _ hu with ⟨_, hu⟩ | ⟨_, hu⟩
      · cases hu
      · rcases hpcase v _ hv with ⟨_, hv⟩ | ⟨_, hv⟩
        · cases hv
        · exact hi.funiq u v i hu hv
    · exact grants_part hi hl fun m l2 u info key he => absurd he (no_grant hh)
  | resp id f g ha hf h0 h1 hh hn hs hs' hpid =>
    subst h1
    have hho := hhold hh
    have hnh : ∀ u, holds (s.pc u) ≠ some id := by
      intro u hu
      obtain ⟨f1, a, b⟩ := hi.own.good u id hu
      rw [ha] at a; cases a
      exact b.st hs
    have hnf : ∀ u, s.pc u ≠ .freeing id := by
      intro u hu
      obtain ⟨_, f1, a, b⟩ := hi.freeing u id hu
      rw [ha] at a; cases a
      rw [hs] at b; cases b
    have hlv : (holder s.log id).isSome := by
      rcases hi.known id f ha with ⟨u, hu⟩ | h
      · exact absurd hu (hnh u)
      · exact h
    have h2 : NotFreeing (s.pc t) := by rw [h0]; intro i hc; cases hc
    refine ⟨⟨hfl, ?_⟩, ?_, ?_, ?_, ?_, ?_, ?_, hidle, hlink, hbusy, honce, htimeo, ?_⟩
    · intro u i hu
      rcases hcase u i hu with ⟨rfl, hu⟩ | ⟨hne, hu⟩
      · cases hu
      · rw [hpu u hne]
        have hii : i ≠ id := by rintro rfl; exact hnh u hu
        exact good_other hi hu (by rw [hf]; exact put_ne hii) hl (hn i)
    · intro u v i hu hv
      rcases hcase u i hu with ⟨rfl, hu⟩ | ⟨hu', hu⟩
      · cases hu
      · rcases hcase v i hv with ⟨_, hv⟩ | ⟨_, hv⟩
        · cases hv
        · exact hi.uniq u v i hu hv
    · intro u i hu
      rw [hho]
      rcases hcase u i hu with ⟨_, hu⟩ | ⟨_, hu⟩
      · cases hu
      · exact hi.notLive u i hu
    · intro i p hh
      rw [hho] at hh
      obtain ⟨f1, a, b, c⟩ := hi.live i p hh
      by_cases hii : i = id
      · subst hii
        rw [ha] at a; cases a
        exact ⟨g, by rw [hf]; exact put_eq, hpid.1.trans b, .inr (.inr ⟨hs', t, hpt⟩)⟩
      · exact ⟨f1, by rw [hf, put_ne hii]; exact a, b, liveOk_mono c (hmono h2 i)⟩
    · intro i f1 hff
      rw [hho]
      by_cases hii : i = id
      · exact .inr (by rw [hii]; exact hlv)
      · rw [hf, put_ne hii] at hff
        rcases hi.known i f1 hff with ⟨u, hu⟩ | h
        · have : u ≠ t := by rintro rfl; rw [h0] at hu; cases hu
          exact .inl ⟨u, by rw [hpu u this]; exact hu⟩
        · exact .inr h
    · intro u i hu
      rw [hho, hf]
      rcases hpcase u _ hu with ⟨_, hu⟩ | ⟨_, hu⟩
      · cases hu
        exact ⟨hlv, g, put_eq, hs'⟩
      · obtain ⟨a, f1, b, c⟩ := hi.freeing u i hu
        have hne : i ≠ id := by rintro rfl; exact hnf u hu
        exact ⟨a, f1, by rw [put_ne hne]; exact b, c⟩
    · intro u v i hu hv
      rcases hpcase u _ hu with ⟨hut, hu⟩ | ⟨_, hu⟩
      · rcases hpcase v _ hv with ⟨hvt, hv⟩ | ⟨_, hv⟩
        · rw [hut, hvt]
        · cases hu; exact absurd hv (hnf v)
      · rcases hpcase v _ hv with ⟨_, hv⟩ | ⟨_, hv⟩
        · cases hv; exact absurd hu (hnf u)
        · exact hi.funiq u v i hu hv
    · exact grants_part hi hl fun m l2 u info key he => absurd he (no_grant hh)
  | free id hf h0 h1 hh hn =>
    subst h1
    have hho : holder s'.log = remove (holder s.log) id := by
      rw [hl, holder_append, hh]; rfl
    have hlv := (hi.freeing t id h0).1
    have hnh : ∀ u, holds (s.pc u) ≠ some id := by
      intro u hu
      rw [hi.notLive u id hu] at hlv; cases hlv
    refine ⟨⟨hfl, ?_⟩, ?_, ?_, ?_, ?_, ?_, ?_, hidle, hlink, hbusy, honce, htimeo, ?_⟩
    · intro u i hu
      rcases hcase u i hu with ⟨rfl, hu⟩ | ⟨hne, hu⟩
      · cases hu
      · rw [hpu u hne]
        have hii : i ≠ id := by rintro rfl; exact hnh u hu
        exact good_other hi hu (by rw [hf]; exact remove_ne hii) hl (hn i)
    · intro u v i hu hv
      rcases hcase u i hu with ⟨rfl, hu⟩ | ⟨hu', hu⟩
      · cases hu
      · rcases hcase v i hv with ⟨_, hv⟩ | ⟨_, hv⟩
        · cases hv
        · exact hi.uniq u v i hu hv
    · intro u i hu
      rw [hho]
      rcases hcase u i hu with ⟨_, hu⟩ | ⟨_, hu⟩
      · cases hu
      · have hii : i ≠ id := by rintro rfl; exact hnh u hu
        rw [remove_ne hii]; exact hi.notLive u i hu
    · intro i p hh
      rw [hho] at hh
      by_cases hii : i = id
      · rw [hii, remove_eq] at hh; cases hh
      · rw [remove_ne hii] at hh
        obtain ⟨f1, a, b, c⟩ := hi.live i p hh
        refine ⟨f1, by rw [hf, remove_ne hii]; exact a, b, liveOk_mono c ?_⟩
        intro u hu
        have : u ≠ t := by rintro rfl; rw [h0] at hu; cases hu; exact hii rfl
        rw [hpu u this]; exact hu
    · intro i f1 hff
      by_cases hii : i = id
      · rw [hf, hii, remove_eq] at hff; cases hff
      · rw [hf, remove_ne hii] at hff
        rw [hho, remove_ne hii]
        rcases hi.known i f1 hff with ⟨u, hu⟩ | h
        · have : u ≠ t := by rintro rfl; rw [h0] at hu; cases hu
          exact .inl ⟨u, by rw [hpu u this]; exact hu⟩
        · exact .inr h
    · intro u i hu
      rw [hho, hf]
      rcases hpcase u _ hu with ⟨_, hu⟩ | ⟨hne, hu⟩
      · cases hu
      · obtain ⟨a, f1, b, c⟩ := hi.freeing u i hu
        have hii : i ≠ id := by rintro rfl; exact hne (hi.funiq u t i hu h0)
        exact ⟨by rw [remove_ne hii]; exact a, f1, by rw [remove_ne hii]; exact b, c⟩
    · intro u v i hu hv
      rcases hpcase u _ hu with ⟨_, hu⟩ | ⟨_, hu⟩
      · cases hu
      · rcases hpcase v _ hv with ⟨_, hv⟩ | ⟨_, hv⟩
        · cases hv
        · exact hi.funiq u v i hu hv
    · refine grants_part hi hl fun m l2 u info key he => ?_
      exfalso
      rw [he, List.filterMap_append, List.filterMap_cons_some (f := heldEv) (b := HEv.grant info.id info.npid) rfl] at hh
      have := congrArg (fun l => HEv.grant info.id info.npid ∈ l) hh
      simp at this

end thread

theorem cancelled_good {e : Env} {log : List Ev} {f : Flow} {pc : Pc} (p : Nat) (h : Good e log f pc) : Good e log (cancelled p f) pc := by
  by_cases hc : f.info.npid = p ∧ (f.info.state = .allocPending ∨ f.info.state = .acceptPending)
  · have hcf : cancelled p f = { f with info := { f.info with state := .deallocated } } := by
      unfold cancelled; rw [if_pos hc]
    rw [hcf]
    cases pc <;> simp only [Good, AccOk, AllOk, AccSt, AllSt] at h ⊢
    case drop => simp
    case accStart => exact ⟨h.1, .inr (.inr trivial), fun hx => by cases hx⟩
    case accWait => exact ⟨h.1, h.2.1, .inr (.inr trivial), fun hx => by cases hx⟩
    case allocSent => exact ⟨h.1, h.2.1, h.2.2.1, .inr (.inr trivial), h.2.2.2.2.1, h.2.2.2.2.2.1, fun hx => by cases hx⟩
    case allocStart => exact ⟨h.1, h.2.1, h.2.2.1, .inr (.inr trivial), h.2.2.2.2.1, h.2.2.2.2.2.1, fun hx => by cases hx⟩
    case allocWait => exact ⟨h.1, h.2.1, h.2.2.1, h.2.2.2.1, .inr (.inr trivial), h.2.2.2.2.2.1, h.2.2.2.2.2.2.1, fun hx => by cases hx⟩
    all_goals
      exfalso
      rcases hc.2 with hc | hc <;> simp [hc] at h
  · have : cancelled p f = f := by unfold cancelled; rw [if_neg hc]
    rw [this]; exact h

theorem table_inv {e : Env} {s s' : Sys} (hi : Inv e s) (hfl : FlowInv s'.reg) (hp : s'.pc = s.pc) (hl : s'.log = s.log)
    (hf : flowAt s'.reg = flowAt s.reg ∨ ∃ p, flowAt s'.reg = fun id => (flowAt s.reg id).map (cancelled p)) : Inv e s' := by
  have key : ∀ id f, flowAt s.reg id = some f → ∃ g, flowAt s'.reg id = some g ∧ g.info.npid = f.info.npid ∧
      (∀ pc, Good e s.log f pc → Good e s.log g pc) ∧
      (f.info.state = .allocated ∨ f.info.state = .deallocPending ∨ f.info.state = .deallocated → g.info.state = f.info.state) := by
    intro id f h
    rcases hf with hf | ⟨p, hf⟩
    · exact ⟨f, by rw [hf]; exact h, rfl, fun _ hg => hg, fun _ => rfl⟩
    · refine ⟨cancelled p f, by rw [hf]; simp [h], by unfold cancelled; split <;> rfl, fun _ hg => cancelled_good p hg, ?_⟩
      intro hs
      unfold cancelled
      split
      · rename_i hc
        exfalso
        rcases hc.2 with hc | hc <;> simp [hc] at hs
      · rfl
  have back : ∀ id g, flowAt s'.reg id = some g → ∃ f, flowAt s.reg id = some f := by
    intro id g h
    rcases hf with hf | ⟨p, hf⟩
    · exact ⟨g, by rw [← hf]; exact h⟩
    · rw [hf] at h
      obtain ⟨f, h1, _⟩ := Option.map_eq_some_iff.mp h
      exact ⟨f, h1⟩
  refine ⟨⟨hfl, ?_⟩, by rw [hp]; exact hi.uniq, by rw [hp, hl]; exact hi.notLive, ?_, ?_, ?_, by rw [hp]; exact hi.funiq,
    by rw [hp, hl]; exact hi.idle, by rw [hp, hl]; exact hi.link, by rw [hp, hl]; exact hi.busy, by rw [hp, hl]; exact hi.once,
    by rw [hl]; exact hi.timeo, by rw [hl]; exact hi.grants⟩
  · rw [hp, hl]
    intro t id hh
    obtain ⟨f, a, b⟩ := hi.own.good t id hh
    obtain ⟨g, h1, _, h2, _⟩ := key id f a
    exact ⟨g, h1, h2 _ b⟩
  · rw [hl]
    intro id p hh
    obtain ⟨f, a, b, c⟩ := hi.live id p hh
    obtain ⟨g, h1, h2, _, h3⟩ := key id f a
    refine ⟨g, h1, h2.trans b, ?_⟩
    unfold LiveOk at c ⊢
    rw [hp]
    rcases c with c | c | c
    · rw [h3 (.inl c)]; exact .inl c
    · rw [h3 (.inr (.inl c))]; exact .inr (.inl c)
    · rw [h3 (.inr (.inr c.1))]; exact .inr (.inr c)
  · rw [hp, hl]
    intro id g hg
    obtain ⟨f, h⟩ := back id g hg
    exact hi.known id f h
  · rw [hp, hl]
    intro t id hh
    obtain ⟨a, f, b, c⟩ := hi.freeing t id hh
    obtain ⟨g, h1, _, _, h3⟩ := key id f b
    exact ⟨a, g, h1, by rw [h3 (.inr (.inr c))]; exact c⟩

theorem act_inv {e : Env} {s s' : Sys} {a : Act} (hi : Inv e s) (hp : polite s a = true) (h : act e s a = .ok s') : Inv e s' := by
  obtain ⟨hfl, heff⟩ := act_eff hi.own hp h
  generalize actor a = who at heff
  cases heff with
  | table hp hl hf => exact table_inv hi hfl hp hl hf
  | thread t evs p' hp hl hk hf => exact thread_inv hi hfl hp hl hk hf

theorem runFrom_inv {e : Env} {al : Sys → Act → Bool} (hal : ∀ s a, al s a = true → polite s a = true) {l : List Act} :
    ∀ {s s' : Sys}, Inv e s → runFrom e al s l = .ok s' → Inv e s' := by
  induction l with
  | nil => intro s s' hi h; cases Outcome.ok.inj h; exact hi
  | cons a l ih =>
    intro s s' hi h
    unfold runFrom at h
    split at h
    · rename_i hp
      obtain ⟨s1, h1, h⟩ := bind_eq_ok.mp h
      exact ih (act_inv hi (hal s a hp) h1) h
    · cases h

theorem run_inv {e : Env} {al : Sys → Act → Bool} (hal : ∀ s a, al s a = true → polite s a = true) {l : List Act} {s : Sys}
    (h : run e al l = .ok s) : Inv e s := by
  unfold run at h
  obtain ⟨s0, h0, h⟩ := bind_eq_ok.mp h
  exact runFrom_inv hal (init_inv h0) h

end Ouro.IrmdFlow
