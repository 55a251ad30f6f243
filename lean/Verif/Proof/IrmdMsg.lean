import Verif.Proof.IrmdSame

/-!
# Where the messages of the daemon come from
-/

namespace Ouro.IrmdFlow

open Ouro.Registry Spec.FiniteMap Spec.IrmdFlow

/-! ## The IPCP of a flow that a process has -/

def NInv (s : Sys) : Prop := ∀ id p f, holder s.log id = some p → flowAt s.reg id = some f → latest (grantN id) s.log = some f.info.n1pid

theorem grantN_none {evs : List Ev} (h : evs.filterMap heldEv = []) (id : Int) : ∀ ev ∈ evs, grantN id ev = none := by
  intro ev hv
  cases ev <;> try rfl
  rename_i t info key
  have := (List.filterMap_eq_nil_iff.mp h) _ hv
  cases this

theorem act_ninv {e : Env} {s s' : Sys} {a : Act} (hi : Inv e s) (hn : NInv s) (hp : polite s a = true) (h : act e s a = .ok s') : NInv s' := by
  obtain ⟨_, heff⟩ := act_eff hi.own hp h
  generalize actor a = who at heff
  cases heff with
  | table _ hl hf =>
    intro id p f hh hff
    rw [hl] at hh ⊢
    rcases hf with hf | ⟨q, hf⟩
    · rw [hf] at hff; exact hn id p f hh hff
    · rw [hf] at hff
      obtain ⟨g, h1, h2⟩ := Option.map_eq_some_iff.mp hff
      rw [hn id p g hh h1, ← h2]
      unfold cancelled
      split <;> rfl
  | thread t evs p' hpc hl hk hf =>
    have keep : evs.filterMap heldEv = [] → holder s'.log = holder s.log ∧ ∀ id, latest (grantN id) s'.log = latest (grantN id) s.log := by
      intro hh
      constructor
      · rw [hl, holder_append, hh]; rfl
      · intro id; rw [hl, latest_skip (grantN_none hh id)]
    cases hf with
    | quiet hf h0 h1 h2 h3 hh hnn =>
      obtain ⟨k1, k2⟩ := keep hh
      intro id p f hho hff
      rw [k1] at hho; rw [hf] at hff; rw [k2]
      exact hn id p f hho hff
    | respond id f g ha hf h0 h1 h2 h3 hh hnn hst hgood hhand =>
      obtain ⟨k1, k2⟩ := keep hh
      intro i p f' hho hff
      rw [k1] at hho; rw [hf] at hff; rw [k2]
      by_cases hid : i = id
      · subst hid
        obtain ⟨f1, a, b, c⟩ := hi.live i p hho
        rw [ha] at a; cases a
        rcases hst with hst | hst <;> rcases c with c | c | ⟨c, _⟩ <;> rw [hst] at c <;> cases c
      · rw [put_ne hid] at hff; exact hn i p f' hho hff
    | create id f ha hf h0 h1 h2 h3 hh hnn hgood =>
      obtain ⟨k1, k2⟩ := keep hh
      intro i p f' hho hff
      rw [k1] at hho; rw [hf] at hff; rw [k2]
      by_cases hid : i = id
      · subst hid
        obtain ⟨f1, a, b, c⟩ := hi.live i p hho
        rw [ha] at a; cases a
      · rw [put_ne hid] at hff; exact hn i p f' hho hff
    | own id g hf h0 h1 h2 h3 hh hnn hgood =>
      obtain ⟨k1, k2⟩ := keep hh
      intro i p f' hho hff
      rw [k1] at hho; rw [hf] at hff; rw [k2]
      by_cases hid : i = id
      · subst hid
        rw [hi.notLive t i h0] at hho; cases hho
      · rw [put_ne hid] at hff; exact hn i p f' hho hff
    | grant id g key hf h0 h1 h2 hid he hok =>
      intro i p f' hho hff
      rw [hf] at hff
      rw [hl, he] at hho ⊢
      by_cases hii : i = id
      · subst hii
        rw [put_eq] at hff
        cases hff
        exact latest_snoc (evs := []) (by simp [grantN, hid]) (fun ev hv => by cases hv)
      · rw [put_ne hii] at hff
        rw [holder_append] at hho
        have hs : holder s.log i = some p := by
          have h1 : ([Ev.granted t g.info key].filterMap heldEv).foldl HEv.apply (holder s.log) = put (holder s.log) g.info.id g.info.npid := rfl
          rw [h1, put_ne (by rw [hid]; exact hii)] at hho
          exact hho
        rw [latest_skip (fun ev hv => by rw [List.mem_singleton.mp hv]; simp [grantN, hid, Ne.symm hii])]
        exact hn i p f' hs hff
    | drop id hf h0 h1 h2 hh hnn =>
      obtain ⟨k1, k2⟩ := keep hh
      intro i p f' hho hff
      rw [k1] at hho; rw [hf] at hff; rw [k2]
      by_cases hid : i = id
      · subst hid; rw [remove_eq] at hff; cases hff
      · rw [remove_ne hid] at hff; exact hn i p f' hho hff
    | dealloc id f g ha hf h0 h1 h2 hh hnn hs hs' hpid hlv =>
      obtain ⟨k1, k2⟩ := keep hh
      intro i p f' hho hff
      rw [k1] at hho; rw [hf] at hff; rw [k2]
      by_cases hid : i = id
      · subst hid
        rw [put_eq] at hff; cases hff
        rw [hpid.2]
        exact hn i p f hho ha
      · rw [put_ne hid] at hff; exact hn i p f' hho hff
    | resp id f g ha hf h0 h1 hh hnn hs hs' hpid =>
      obtain ⟨k1, k2⟩ := keep hh
      intro i p f' hho hff
      rw [k1] at hho; rw [hf] at hff; rw [k2]
      by_cases hid : i = id
      · subst hid
        rw [put_eq] at hff; cases hff
        rw [hpid.2]
        exact hn i p f hho ha
      · rw [put_ne hid] at hff; exact hn i p f' hho hff
    | free id hf h0 h1 hh hnn =>
      intro i p f' hho hff
      rw [hf] at hff
      by_cases hid : i = id
      · subst hid; rw [remove_eq] at hff; cases hff
      · rw [remove_ne hid] at hff
        rw [hl, holder_append, hh] at hho
        have hs : holder s.log i = some p := by
          have h1 : [HEv.release id].foldl HEv.apply (holder s.log) = remove (holder s.log) id := rfl
          rw [h1, remove_ne hid] at hho
          exact hho
        rw [hl, latest_skip]
        · exact hn i p f' hs hff
        · intro ev hv
          cases ev <;> try rfl
          rename_i t' info key
          have hm : HEv.grant info.id info.npid ∈ evs.filterMap heldEv := List.mem_filterMap.mpr ⟨_, hv, rfl⟩
          rw [hh] at hm
          cases List.mem_singleton.mp hm

/-! ## The messages -/

/-- What a thread remembers of its command. -/
def Detail : Cmd → Pc → Prop
  | .reqArr i h pk, .reqWait j _ h' pk' _ => j = i ∧ h' = h ∧ pk' = pk
  | .reqArr i h pk, .reqExec j _ h' pk' => j = i ∧ h' = h ∧ pk' = pk
  | .reqArr i _ pk, .reqRespond j pk' => (∃ x, j = { i with id := x, state := .allocated }) ∧ pk' = pk
  | .alloc i d _, .allocFind j d' _ _ => d' = d ∧ j.cypher = i.cypher
  | .alloc i d _, .allocPrepare j _ d' _ _ => d' = d ∧ j.cypher = i.cypher
  | _, _ => True

/-- The origin of a message, in the log before it. -/
def MsgOk (l : List Ev) : Ev → Prop
  | .handed u info pk => ∃ i h, Ev.started u (.reqArr i h pk) ∈ l ∧ info.n1pid = i.n1pid ∧ info.qs = i.qs ∧ info.cypher = i.cypher ∧ info.mpl = i.mpl
  | .toIpcp _ (.alloc _ npid _ dst cypher _) => ∃ t i b, Ev.started t (.alloc i dst b) ∈ l ∧ i.npid = npid ∧ i.cypher = cypher
  | .toIpcp n (.dealloc id) => latest (grantN id) l = some n ∧ ∃ t i, Ev.started t (.dealloc i) ∈ l ∧ i.id = id ∧ holder l id = some i.npid
  | _ => True

/-- Events that need no origin. -/
def dull : Ev → Bool
  | .handed _ _ _ | .toIpcp _ (.alloc _ _ _ _ _ _) | .toIpcp _ (.dealloc _) | .started _ _ => false
  | _ => true

theorem MsgOk.dull {l : List Ev} {v : Ev} (h : dull v = true) : MsgOk l v := by
  cases v <;> first | trivial | cases h | skip
  rename_i n m
  cases m <;> first | trivial | cases h

/-- What a piece of a thread does, as far as messages are concerned. -/
structure MStep (s s' : Sys) (t : Nat) : Prop where
  main : ∃ evs p', s'.pc = (fun u => if u = t then p' else s.pc u) ∧ s'.log = s.log ++ evs ∧ (∀ u c, Ev.started u c ∉ evs) ∧
    (∀ c, Ev.started t c ∈ s.log → Detail c (s.pc t) → Detail c p') ∧ (∀ m1 v m2, evs = m1 ++ v :: m2 → MsgOk (s.log ++ m1) v)

theorem mstep_goto {s : Sys} {t : Nat} {r : Reg} (p' : Pc) (hd : ∀ c, Ev.started t c ∈ s.log → Detail c (s.pc t) → Detail c p') :
    MStep s (goto { s with reg := r } t p') t :=
  ⟨[], p', rfl, by simp [goto], fun _ _ hm => (by cases hm), hd, fun m1 v m2 hc => (by cases m1 <;> cases hc)⟩

theorem mstep_wait {s : Sys} {t : Nat} {r : Reg} : MStep s { s with reg := r } t :=
  ⟨[], s.pc t, by funext u; by_cases h : u = t <;> simp [h], by simp, fun _ _ hm => (by cases hm), fun _ _ h => h, fun m1 v m2 hc => (by cases m1 <;> cases hc)⟩

theorem mstep_note {s : Sys} {t : Nat} {r : Reg} (v : Ev) (p' : Pc) (hv : ∀ u c, v ≠ .started u c) (hm : MsgOk s.log v)
    (hd : ∀ c, Ev.started t c ∈ s.log → Detail c (s.pc t) → Detail c p') : MStep s (goto (note { s with reg := r } v) t p') t := by
  refine ⟨[v], p', rfl, rfl, fun u c hc => hv u c (List.mem_singleton.mp hc).symm, hd, ?_⟩
  intro m1 w m2 hc
  cases m1 with
  | nil =>
    cases hc
    rw [List.append_nil]
    exact hm
  | cons x m1 =>
    have := congrArg List.length hc
    simp at this

theorem mstep_fin {s : Sys} {t : Nat} {r : Reg} {d : Bool} {x : Int} : MStep s (finish { s with reg := r } t d x) t := by
  rw [finish_eq]
  have hv : ∀ u c, finEv t d x ≠ .started u c := by
    intro u c hc
    rcases finEv_cases t d x with h1 | ⟨r', h1, _⟩ <;> rw [h1] at hc <;> cases hc
  have hm : MsgOk s.log (finEv t d x) := by
    rcases finEv_cases t d x with h1 | ⟨r', h1, _⟩ <;> rw [h1] <;> trivial
  exact mstep_note (finEv t d x) .done hv hm (fun c _ _ => by cases c <;> trivial)

theorem mstep_fin2 {s : Sys} {t : Nat} {r : Reg} {d : Bool} {x : Int} (v : Ev) (hv : dull v = true) : MStep s (finish (note { s with reg := r } v) t d x) t := by
  rw [finish_eq]
  refine ⟨[v, finEv t d x], .done, rfl, by simp [note], ?_, fun c _ _ => by cases c <;> trivial, ?_⟩
  · intro u c hm
    rcases List.mem_cons.mp hm with hm | hm
    · rw [← hm] at hv; cases hv
    · have hm := List.mem_singleton.mp hm
      rcases finEv_cases t d x with h1 | ⟨r', h1, _⟩ <;> rw [h1] at hm <;> cases hm
  · intro m1 w m2 hc
    have hw : w ∈ [v, finEv t d x] := by rw [hc]; simp
    rcases List.mem_cons.mp hw with hw | hw
    · rw [hw]; exact MsgOk.dull hv
    · rw [List.mem_singleton.mp hw]
      rcases finEv_cases t d x with h1 | ⟨r', h1, _⟩ <;> rw [h1] <;> trivial

/-- `Detail` asks nothing of most places. -/
macro "free" : tactic => `(tactic| (intro c _ _; cases c <;> trivial))

theorem go_msg {e : Env} {s s' : Sys} {t : Nat} {c : Choice} (hi : Inv e s) (hd : ∀ c, Ev.started t c ∈ s.log → Detail c (s.pc t))
    (h : go e s t c = .ok s') : MStep s s' t := by
  have hfl := hi.own.flow
  have hgood := hi.own.good t
  unfold go at h
  cases hp : s.pc t with
  | idle => rw [hp] at h; cases h
  | done => rw [hp] at h; cases h
  | accCreate info timed =>
    rw [hp] at h
    dsimp only at h
    split at h
    · cases Outcome.ok.inj h; exact mstep_fin (r := s.reg)
    · obtain ⟨⟨r, o⟩, hr, h⟩ := bind_eq_ok.mp h
      try dsimp only at h
      split at h <;> cases Outcome.ok.inj h
      · exact mstep_goto _ (by free)
      · exact mstep_fin
  | accPrepare info sk timed =>
    rw [hp] at h
    dsimp only at h
    obtain ⟨⟨r, o⟩, hr, h⟩ := bind_eq_ok.mp h
    try dsimp only at h
    split at h <;> cases Outcome.ok.inj h
    · exact mstep_goto _ (by free)
    · exact mstep_goto _ (by free)
  | accStart info sk timed =>
    rw [hp] at h
    dsimp only at h
    obtain ⟨⟨r, o⟩, hr, h⟩ := bind_eq_ok.mp h
    try dsimp only at h
    split at h <;> cases Outcome.ok.inj h
    · exact mstep_goto _ (by free)
    · exact mstep_goto _ (by free)
  | accWait p info sk timed =>
    rw [hp] at h
    dsimp only at h
    obtain ⟨⟨r, o⟩, hr, h⟩ := bind_eq_ok.mp h
    try dsimp only at h
    split at h
    · cases Outcome.ok.inj h; exact mstep_wait
    · split at h
      · cases Outcome.ok.inj h; exact mstep_goto _ (by free)
      · split at h <;> cases Outcome.ok.inj h
        · exact mstep_goto _ (by free)
        · exact mstep_goto _ (by free)
    · cases h
  | accRespond info sk rpk timed =>
    rw [hp] at h
    dsimp only at h
    split at h
    · split at h <;> cases Outcome.ok.inj h
      · exact mstep_note (r := s.reg) _ _ (by intro u c hc; cases hc) trivial (by free)
      · exact mstep_note (r := s.reg) _ _ (by intro u c hc; cases hc) trivial (by free)
    · cases Outcome.ok.inj h
      exact mstep_note (r := s.reg) _ _ (by intro u c hc; cases hc) trivial (by free)
  | accSent info key timed =>
    rw [hp] at h
    dsimp only at h
    split at h <;> cases Outcome.ok.inj h
    · exact mstep_goto (r := s.reg) _ (by free)
    · exact mstep_note (r := s.reg) _ _ (by intro u c hc; cases hc) trivial (by free)
  | allocFind info dst sk timed =>
    rw [hp] at h hd
    dsimp only at h
    obtain ⟨⟨r, o⟩, hr, h⟩ := bind_eq_ok.mp h
    try dsimp only at h
    split at h
    · split at h <;> cases Outcome.ok.inj h
      · refine mstep_goto _ ?_
        intro c hc hx
        rw [hp] at hx
        cases c <;> try trivial
      · exact mstep_goto _ (by free)
    · cases h
  | allocPrepare info algo dst sk timed =>
    rw [hp] at h hd hgood
    dsimp only at h
    obtain ⟨⟨r, o⟩, hr, h⟩ := bind_eq_ok.mp h
    obtain ⟨f, hf, hnp, hst, _, hcy⟩ := hgood info.id rfl
    obtain ⟨hi', f1, g, hf1, _, hn1, rfl, rfl, hput⟩ := prepareAlloc_at hfl hr
    rw [hf] at hf1
    cases hf1
    cases Outcome.ok.inj h
    refine mstep_note _ _ (by intro u c hc; cases hc) ?_ (by free)
    obtain ⟨c, hc⟩ := hi.busy t (by rw [hp]; simp)
    have hl := hi.link t c hc
    have hdd := hd c hc
    rw [hp] at hl
    cases c <;> simp only [Linked] at hl
    rw [← hdd.1] at hc
    exact ⟨t, _, _, hc, (hnp.trans hl.1).symm, (hcy.trans hdd.2).symm⟩
  | joinFind info dst timed =>
    rw [hp] at h
    dsimp only at h
    obtain ⟨⟨r, o⟩, hr, h⟩ := bind_eq_ok.mp h
    try dsimp only at h
    split at h <;> cases Outcome.ok.inj h
    · exact mstep_goto _ (by free)
    · exact mstep_goto _ (by free)
  | joinPrepare info algo timed =>
    rw [hp] at h
    dsimp only at h
    obtain ⟨⟨r, o⟩, hr, h⟩ := bind_eq_ok.mp h
    try dsimp only at h
    split at h
    · cases Outcome.ok.inj h
      exact mstep_note _ _ (by intro u c hc; cases hc) trivial (by free)
    · cases h
  | allocSent info join sk timed =>
    rw [hp] at h
    dsimp only at h
    split at h <;> cases Outcome.ok.inj h
    · exact mstep_goto (r := s.reg) _ (by free)
    · exact mstep_goto (r := s.reg) _ (by free)
  | allocStart info join sk timed =>
    rw [hp] at h
    dsimp only at h
    obtain ⟨⟨r, o⟩, hr, h⟩ := bind_eq_ok.mp h
    try dsimp only at h
    split at h
    · cases Outcome.ok.inj h
      exact mstep_goto _ (by free)
    · cases h
  | allocWait p info join sk timed =>
    rw [hp] at h
    dsimp only at h
    obtain ⟨⟨r, o⟩, hr, h⟩ := bind_eq_ok.mp h
    try dsimp only at h
    split at h
    · cases Outcome.ok.inj h; exact mstep_wait
    · split at h
      · cases Outcome.ok.inj h; exact mstep_goto _ (by free)
      · split at h
        · cases Outcome.ok.inj h; exact mstep_goto _ (by free)
        · split at h
          · split at h <;> cases Outcome.ok.inj h
            · exact mstep_goto _ (by free)
            · exact mstep_note _ _ (by intro u c hc; cases hc) trivial (by free)
          · cases Outcome.ok.inj h
            exact mstep_note _ _ (by intro u c hc; cases hc) trivial (by free)
    · cases h
  | drop id err timed =>
    rw [hp] at h
    dsimp only at h
    obtain ⟨⟨r, o⟩, hr, h⟩ := bind_eq_ok.mp h
    cases Outcome.ok.inj h
    exact mstep_fin
  | reqWait info algo hh pk second =>
    rw [hp] at h
    dsimp only at h
    obtain ⟨⟨r, o⟩, hr, h⟩ := bind_eq_ok.mp h
    try dsimp only at h
    split at h
    · split at h
      · split at h
        · split at h <;> cases Outcome.ok.inj h
          · exact mstep_fin
          · refine mstep_goto _ ?_
            intro c hc hx
            rw [hp] at hx
            cases c <;> try trivial
        · cases Outcome.ok.inj h; exact mstep_wait
      · split at h <;> cases Outcome.ok.inj h
        · exact mstep_fin
        · refine mstep_goto _ ?_
          intro c hc hx
          rw [hp] at hx
          cases c <;> try trivial
          exact ⟨⟨_, by rw [hx.1]⟩, hx.2.2⟩
    · cases h
  | reqExec info algo hh pk =>
    rw [hp] at h
    dsimp only at h
    obtain ⟨⟨r, o⟩, hr, h⟩ := bind_eq_ok.mp h
    try dsimp only at h
    split at h
    · split at h <;> cases Outcome.ok.inj h
      · refine mstep_goto _ ?_
        intro c hc hx
        rw [hp] at hx
        cases c <;> try trivial
      · exact mstep_fin
    · cases Outcome.ok.inj h
      exact mstep_fin
  | reqRespond info pk =>
    rw [hp] at h hd
    dsimp only at h
    obtain ⟨⟨r, o⟩, hr, h⟩ := bind_eq_ok.mp h
    obtain ⟨hi', ⟨rfl, rfl⟩ | ⟨f, g, b', hf, hst, hn1, rfl, hput, hg⟩⟩ := respondAccept_at hfl hr
    · cases Outcome.ok.inj h
      exact mstep_fin (r := s.reg)
    · cases Outcome.ok.inj h
      refine mstep_note _ _ (by intro u c hc; cases hc) ?_ (by free)
      obtain ⟨c, hc⟩ := hi.busy t (by rw [hp]; simp)
      have hl := hi.link t c hc
      have hdd := hd c hc
      rw [hp] at hl
      cases c <;> simp only [Linked] at hl
      obtain ⟨⟨x, rfl⟩, rfl⟩ := hdd
      exact ⟨_, _, hc, by rw [hg], by rw [hg], by rw [hg], by rw [hg]⟩
  | deallocSent =>
    rw [hp] at h
    dsimp only at h
    cases Outcome.ok.inj h
    exact mstep_fin (r := s.reg)
  | freeing id =>
    rw [hp] at h
    dsimp only at h
    obtain ⟨⟨r, o⟩, hr, h⟩ := bind_eq_ok.mp h
    cases Outcome.ok.inj h
    exact mstep_fin2 _ rfl

theorem start_msg {e : Env} {s s' : Sys} {t : Nat} {cmd : Cmd} {c : Choice} (hi : Inv e s) (hn : NInv s) (hp : polite s (.start t cmd c) = true)
    (h0 : s.pc t = .idle) (h : start e s t cmd c = .ok s') :
    ∃ evs p', s'.pc = (fun u => if u = t then p' else s.pc u) ∧ s'.log = s.log ++ .started t cmd :: evs ∧ (∀ u c, Ev.started u c ∉ evs) ∧ Detail cmd p' ∧
      (∀ m1 v m2, evs = m1 ++ v :: m2 → MsgOk (s.log ++ .started t cmd :: m1) v) := by
  have wrap : ∀ {s'}, MStep (note s (.started t cmd)) s' t → (∀ c, Detail c (s.pc t) → True) →
      (∀ p', s'.pc t = p' → Detail cmd p') → ∃ evs p', s'.pc = (fun u => if u = t then p' else s.pc u) ∧ s'.log = s.log ++ .started t cmd :: evs ∧
        (∀ u c, Ev.started u c ∉ evs) ∧ Detail cmd p' ∧ (∀ m1 v m2, evs = m1 ++ v :: m2 → MsgOk (s.log ++ .started t cmd :: m1) v) := by
    rintro s' ⟨evs, p', h1, h2, h3, _, h5⟩ _ hd
    refine ⟨evs, p', h1, by rw [h2]; simp [note], h3, hd p' (by rw [h1]; simp), ?_⟩
    intro m1 v m2 hc
    have := h5 m1 v m2 hc
    simpa [note] using this
  have hany : ∀ c, Detail c (s.pc t) → True := fun _ _ => trivial
  unfold start at h
  cases cmd with
  | accept info timed =>
    dsimp only at h
    obtain ⟨⟨r, o⟩, hr, h⟩ := bind_eq_ok.mp h
    try dsimp only at h
    split at h <;> cases Outcome.ok.inj h
    · exact wrap (mstep_goto _ (by free)) hany (by intro p' _; cases p' <;> trivial)
    · exact wrap mstep_fin hany (by intro p' _; cases p' <;> trivial)
  | alloc info dst timed =>
    dsimp only at h
    split at h
    · cases Outcome.ok.inj h
      refine wrap (mstep_fin (r := s.reg)) hany ?_
      intro p' hp'
      have : p' = .done := by rw [← hp']; simp [finish, goto]
      rw [this]; trivial
    · obtain ⟨⟨r, o⟩, hr, h⟩ := bind_eq_ok.mp h
      obtain ⟨hi', ⟨id, rfl, hst, hn1, hnone, hput⟩ | ⟨j, rfl, hsame⟩⟩ := createFlow_at hi.own.flow hr
      · cases Outcome.ok.inj h
        refine wrap (mstep_goto (s := note s (.started t (.alloc info dst timed))) _ ?_) hany ?_
        · intro c hc hx
          have hs : c = .alloc info dst timed := by
            rcases List.mem_append.mp hc with hc | hc
            · exact absurd hc (hi.idle t h0 c)
            · cases List.mem_singleton.mp hc; rfl
          subst hs
          exact ⟨rfl, rfl⟩
        · intro p' hp'
          rw [← hp']
          simp only [goto, if_pos]
          exact ⟨rfl, rfl⟩
      · cases Outcome.ok.inj h
        refine wrap (mstep_fin) hany ?_
        intro p' hp'
        have : p' = .done := by rw [← hp']; simp [finish, goto]
        rw [this]; trivial
  | join info dst timed =>
    dsimp only at h
    obtain ⟨⟨r, o⟩, hr, h⟩ := bind_eq_ok.mp h
    try dsimp only at h
    split at h <;> cases Outcome.ok.inj h
    · exact wrap (mstep_goto _ (by free)) hany (by intro p' _; cases p' <;> trivial)
    · exact wrap mstep_fin hany (by intro p' _; cases p' <;> trivial)
  | reqArr info hh pk =>
    dsimp only at h
    obtain ⟨⟨r, o⟩, hr, h⟩ := bind_eq_ok.mp h
    try dsimp only at h
    split at h <;> cases Outcome.ok.inj h
    · refine wrap (mstep_goto (s := note s (.started t (.reqArr info hh pk))) _ ?_) hany ?_
      · intro c hc hx
        have hs : c = .reqArr info hh pk := by
          rcases List.mem_append.mp hc with hc | hc
          · exact absurd hc (hi.idle t h0 c)
          · cases List.mem_singleton.mp hc; rfl
        subst hs
        exact ⟨rfl, rfl, rfl⟩
      · intro p' hp'
        rw [← hp']
        simp only [goto, if_pos]
        exact ⟨rfl, rfl, rfl⟩
    · refine wrap (mstep_fin) hany ?_
      intro p' hp'
      have : p' = .done := by rw [← hp']; simp [finish, goto]
      rw [this]; trivial
  | allocReply info response pk =>
    dsimp only at h
    obtain ⟨⟨r, o⟩, hr, h⟩ := bind_eq_ok.mp h
    try dsimp only at h
    split at h <;> cases Outcome.ok.inj h
    · exact wrap (mstep_fin2 (s := note s (.started t (.allocReply info response pk))) _ rfl) hany (by intro p' _; cases p' <;> trivial)
    · exact wrap mstep_fin hany (by intro p' _; cases p' <;> trivial)
  | dealloc info =>
    dsimp only at h
    obtain ⟨⟨r, o⟩, hr, h⟩ := bind_eq_ok.mp h
    obtain ⟨hi', f, g, hf, hst, hg, rfl, hput⟩ := deallocFlow_at hi.own.flow hr
    cases Outcome.ok.inj h
    refine wrap (mstep_note (s := note s (.started t (.dealloc info))) _ _ (by intro u c hc; cases hc) ?_ (by free)) hany (by intro p' _; cases p' <;> trivial)
    have hid := flowAt_id hi.own.flow.ids hf
    have hh : holder s.log info.id = some info.npid := of_decide_eq_true hp
    have e1 : g.info.id = info.id := by rw [hg]; exact hid
    have e2 : g.info.n1pid = f.info.n1pid := by rw [hg]
    show latest (grantN g.info.id) (s.log ++ [.started t (.dealloc info)]) = some g.info.n1pid ∧ _
    rw [e1, e2]
    refine ⟨?_, t, info, ?_, rfl, ?_⟩
    · rw [latest_skip (fun ev hv => by rw [List.mem_singleton.mp hv]; rfl)]
      exact hn _ _ f hh hf
    · show _ ∈ s.log ++ [_]; simp
    · show holder (s.log ++ [.started t (.dealloc info)]) _ = _
      rw [holder_append]
      exact hh
  | deallocResp info =>
    dsimp only at h
    obtain ⟨⟨r, o⟩, hr, h⟩ := bind_eq_ok.mp h
    try dsimp only at h
    split at h <;> cases Outcome.ok.inj h
    · exact wrap (mstep_goto _ (by free)) hany (by intro p' _; cases p' <;> trivial)
    · exact wrap mstep_fin hany (by intro p' _; cases p' <;> trivial)

/-- The messages in the log have an origin before them, and threads remember their commands. -/
structure MInv (s : Sys) : Prop where
  n : NInv s
  detail : ∀ t c, Ev.started t c ∈ s.log → Detail c (s.pc t)
  msgs : ∀ l1 v l2, s.log = l1 ++ v :: l2 → MsgOk l1 v

theorem msgs_append {log evs : List Ev} (h1 : ∀ l1 v l2, log = l1 ++ v :: l2 → MsgOk l1 v) (h2 : ∀ m1 v m2, evs = m1 ++ v :: m2 → MsgOk (log ++ m1) v) :
    ∀ l1 v l2, log ++ evs = l1 ++ v :: l2 → MsgOk l1 v := by
  intro l1 v l2 h
  rcases List.append_eq_append_iff.mp h with ⟨a, rfl, h'⟩ | ⟨a, h1', h'⟩
  · exact h2 a v l2 h'
  · cases a with
    | nil =>
      rw [List.append_nil] at h1'
      subst h1'
      have := h2 [] v l2 h'.symm
      rwa [List.append_nil] at this
    | cons x a =>
      cases h'
      exact h1 l1 _ a h1'

theorem act_minv {e : Env} {s s' : Sys} {a : Act} (hi : Inv e s) (hm : MInv s) (hp : polite s a = true) (h : act e s a = .ok s') : MInv s' := by
  have hn := act_ninv hi hm.n hp h
  cases a with
  | start t cmd c =>
    unfold act at h
    dsimp only at h
    split at h
    · rename_i h0
      obtain ⟨evs, p', h1, h2, h3, h4, h5⟩ := start_msg hi hm.n hp h0 h
      refine ⟨hn, ?_, ?_⟩
      · intro u c' hc
        rw [h2] at hc
        rw [h1]
        by_cases hu : u = t
        · subst hu
          simp only [if_pos]
          rcases List.mem_append.mp hc with hc | hc
          · exact absurd hc (hi.idle u h0 c')
          · rcases List.mem_cons.mp hc with hc | hc
            · cases hc; exact h4
            · exact absurd hc (h3 u c')
        · simp only [if_neg hu]
          rcases List.mem_append.mp hc with hc | hc
          · exact hm.detail u c' hc
          · rcases List.mem_cons.mp hc with hc | hc
            · cases hc; exact absurd rfl hu
            · exact absurd hc (h3 u c')
      · rw [h2]
        refine msgs_append hm.msgs ?_
        intro m1 v m2 hc
        cases m1 with
        | nil => cases hc; trivial
        | cons x m1 =>
          cases hc
          exact h5 m1 v m2 rfl
    · cases h
  | go t c =>
    obtain ⟨evs, p', h1, h2, h3, h4, h5⟩ := go_msg hi (fun c hc => hm.detail t c hc) h
    refine ⟨hn, ?_, ?_⟩
    · intro u c' hc
      rw [h2] at hc
      rw [h1]
      have hc : Ev.started u c' ∈ s.log := by
        rcases List.mem_append.mp hc with hc | hc
        · exact hc
        · exact absurd hc (h3 u c')
      by_cases hu : u = t
      · subst hu
        simp only [if_pos]
        exact h4 c' hc (hm.detail u c' hc)
      · simp only [if_neg hu]
        exact hm.detail u c' hc
    · rw [h2]
      exact msgs_append hm.msgs h5
  | table op =>
    unfold act at h
    dsimp only at h
    split at h
    · obtain ⟨⟨r, o⟩, hr, h⟩ := bind_eq_ok.mp h
      cases Outcome.ok.inj h
      exact ⟨hn, hm.detail, hm.msgs⟩
    · cases h

theorem runFrom_minv {e : Env} {l : List Act} : ∀ {s s' : Sys}, Inv e s → MInv s → runFrom e polite s l = .ok s' → MInv s' := by
  induction l with
  | nil => intro s s' _ hm h; cases Outcome.ok.inj h; exact hm
  | cons a l ih =>
    intro s s' hi hm h
    unfold runFrom at h
    split at h
    · rename_i hp
      obtain ⟨s1, h1, h⟩ := bind_eq_ok.mp h
      exact ih (act_inv hi hp h1) (act_minv hi hm hp h1) h
    · cases h

theorem run_minv {e : Env} {l : List Act} {s : Sys} (h : run e polite l = .ok s) : MInv s := by
  unfold run at h
  obtain ⟨s0, h0, h⟩ := bind_eq_ok.mp h
  refine runFrom_minv (init_inv h0) ?_ h
  unfold init at h0
  obtain ⟨r, hr, h0⟩ := bind_eq_ok.mp h0
  cases Outcome.ok.inj h0
  refine ⟨fun id p f hh => (by cases hh), fun t c hm => (by cases hm), fun l1 v l2 hs => ?_⟩
  cases l1 <;> cases hs

end Ouro.IrmdFlow
