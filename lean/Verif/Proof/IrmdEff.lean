import Verif.Proof.IrmdFlow

/-!
# What one piece of an execution does to the flows, the threads and the log
-/

namespace Ouro.IrmdFlow

open Ouro.Registry Spec.FiniteMap Spec.IrmdFlow

/-- Not about to free a flow. -/
def NotFreeing (p : Pc) : Prop := ∀ id, p ≠ .freeing id

/-- The facts that hold when a flow is handed to a process. -/
def GrantOk (e : Env) (log : List Ev) (pc : Pc) (info : FlowInfo) (key : Option Nat) : Prop :=
  info.state = .allocated ∧ info.n1pid ≠ 0 ∧ (∀ c, Linked c pc → requester c = some info.npid) ∧
  ((∀ c, Linked c pc → ∃ i b, c = .accept i b) ∧ KeyAcc e log info key ∨
   (∀ c, Linked c pc → ∃ i d b, c = .alloc i d b) ∧ KeyAll e log info key)

/-- What a piece of thread `t` does to the flows. -/
inductive FEff (e : Env) (s s' : Sys) (t : Nat) (evs : List Ev) (p' : Pc) : Prop where
  | quiet (hf : flowAt s'.reg = flowAt s.reg) (h0 : holds (s.pc t) = none) (h1 : holds p' = none)
      (h2 : NotFreeing (s.pc t)) (h3 : NotFreeing p') (hh : evs.filterMap heldEv = []) (hn : ∀ id, Neutral id evs)
  | respond (id : Int) (f g : Flow) (ha : flowAt s.reg id = some f) (hf : flowAt s'.reg = put (flowAt s.reg) id g)
      (h0 : holds (s.pc t) = none) (h1 : holds p' = none)
      (h2 : NotFreeing (s.pc t)) (h3 : NotFreeing p') (hh : evs.filterMap heldEv = []) (hn : ∀ i, i ≠ id → Neutral i evs)
      (hst : f.info.state = .acceptPending ∨ f.info.state = .allocPending)
      (hgood : ∀ pc, Good e s.log f pc → Good e s'.log g pc)
      (hhand : ∀ u i pk, Ev.handed u i pk ∈ evs → f.info.state = .acceptPending ∧ g.info = i ∧ i.state = .allocated)
  | create (id : Int) (f : Flow) (ha : flowAt s.reg id = none) (hf : flowAt s'.reg = put (flowAt s.reg) id f)
      (h0 : holds (s.pc t) = none) (h1 : holds p' = some id) (h2 : NotFreeing (s.pc t)) (h3 : NotFreeing p')
      (hh : evs.filterMap heldEv = []) (hn : ∀ i, Neutral i evs) (hgood : Good e s'.log f p')
  | own (id : Int) (g : Flow) (hf : flowAt s'.reg = put (flowAt s.reg) id g)
      (h0 : holds (s.pc t) = some id) (h1 : holds p' = some id) (h2 : NotFreeing (s.pc t)) (h3 : NotFreeing p')
      (hh : evs.filterMap heldEv = []) (hn : ∀ i, i ≠ id → Neutral i evs) (hgood : Good e s'.log g p')
  | grant (id : Int) (g : Flow) (key : Option Nat) (hf : flowAt s'.reg = put (flowAt s.reg) id g)
      (h0 : holds (s.pc t) = some id) (h1 : p' = .done) (h2 : NotFreeing (s.pc t)) (hid : g.info.id = id)
      (he : evs = [.granted t g.info key]) (hok : GrantOk e s.log (s.pc t) g.info key)
  | drop (id : Int) (hf : flowAt s'.reg = remove (flowAt s.reg) id)
      (h0 : holds (s.pc t) = some id) (h1 : p' = .done) (h2 : NotFreeing (s.pc t))
      (hh : evs.filterMap heldEv = []) (hn : ∀ i, Neutral i evs)
  | dealloc (id : Int) (f g : Flow) (ha : flowAt s.reg id = some f) (hf : flowAt s'.reg = put (flowAt s.reg) id g)
      (h0 : holds (s.pc t) = none) (h1 : p' = .deallocSent) (h2 : NotFreeing (s.pc t))
      (hh : evs.filterMap heldEv = []) (hn : ∀ i, Neutral i evs)
      (hs : f.info.state = .allocated) (hs' : g.info.state = .deallocPending) (hp : g.info.npid = f.info.npid ∧ g.info.n1pid = f.info.n1pid)
      (hl : (holder s.log id).isSome)
  | resp (id : Int) (f g : Flow) (ha : flowAt s.reg id = some f) (hf : flowAt s'.reg = put (flowAt s.reg) id g)
      (h0 : s.pc t = .idle) (h1 : p' = .freeing id)
      (hh : evs.filterMap heldEv = []) (hn : ∀ i, Neutral i evs)
      (hs : f.info.state = .deallocPending) (hs' : g.info.state = .deallocated) (hp : g.info.npid = f.info.npid ∧ g.info.n1pid = f.info.n1pid)
  | free (id : Int) (hf : flowAt s'.reg = remove (flowAt s.reg) id)
      (h0 : s.pc t = .freeing id) (h1 : p' = .done)
      (hh : evs.filterMap heldEv = [.release id]) (hn : ∀ i, Neutral i evs)

/-- What one piece of an execution does; the index is the thread that ran. -/
inductive Eff (e : Env) (s s' : Sys) : Option Nat → Prop where
  | table (hp : s'.pc = s.pc) (hl : s'.log = s.log)
      (hf : flowAt s'.reg = flowAt s.reg ∨ ∃ p, flowAt s'.reg = fun id => (flowAt s.reg id).map (cancelled p)) : Eff e s s' none
  | thread (t : Nat) (evs : List Ev) (p' : Pc) (hp : s'.pc = fun u => if u = t then p' else s.pc u) (hl : s'.log = s.log ++ evs)
      (hk : Link s t evs p') (hf : FEff e s s' t evs p') : Eff e s s' (some t)

/-- The thread that runs. -/
def actor : Act → Option Nat
  | .start t _ _ => some t
  | .go t _ => some t
  | .table _ => none

theorem put_self {κ α : Type} [DecidableEq κ] {m : Map κ α} {k : κ} {v : α} (h : m k = some v) : m = put m k v := by
  funext x
  unfold put
  split
  · rename_i he; rw [he, h]
  · rfl

theorem neutral_nil (id : Int) : Neutral id [] := fun _ h => by cases h

theorem neutral_cons {id : Int} {ev : Ev} {evs : List Ev} (h : handedPk id ev = none ∧ answeredPk id ev = none ∧ sentPk id ev = none)
    (hn : Neutral id evs) : Neutral id (ev :: evs) := by
  intro x hx
  rcases List.mem_cons.mp hx with rfl | hx
  · exact h
  · exact hn x hx

/-- A place before the daemon has a flow, at which a thread can end. -/
theorem eff_fin {e : Env} {s s' : Sys} {t : Nat} {d : Bool} {r : Int} (h0 : s.pc t ≠ .idle) (h1 : s.pc t ≠ .done)
    (hh : holds (s.pc t) = none) (hf : NotFreeing (s.pc t))
    (hr : flowAt s'.reg = flowAt s.reg) (hs : s' = finish { s with reg := s'.reg } t d r)
    (ht : d = false → r = -ETIMEDOUT → ∀ c, Linked c (s.pc t) → untimed c = false) : Eff e s s' (some t) := by
  refine .thread t [finEv t d r] .done ?_ ?_ (Link.goFin (evs := []) h0 h1 (fun ev hv => by cases hv) (finEv_answer t d r) ?_) ?_
  · rw [hs, finish_eq]
  · rw [hs, finish_eq]
  · intro hx c hc
    exact ht (finEv_timeo hx).1 (finEv_timeo hx).2 c hc
  · refine .quiet hr hh rfl hf (by intro id h; cases h) ?_ ?_
    · rw [List.filterMap_cons_none (finEv_held t d r)]; rfl
    · intro id
      exact neutral_cons (finEv_neutral id t d r) (neutral_nil id)

/-- The same for the first piece. -/
theorem eff_fin0 {e : Env} {s s' : Sys} {t : Nat} {cmd : Cmd} {d : Bool} {r : Int} (h0 : s.pc t = .idle)
    (hr : flowAt s'.reg = flowAt s.reg) (hs : s' = finish { note s (.started t cmd) with reg := s'.reg } t d r)
    (ht : r ≠ -ETIMEDOUT) : Eff e s s' (some t) := by
  refine .thread t (.started t cmd :: [finEv t d r]) .done ?_ ?_ (Link.startFin (evs := []) h0 (fun ev hv => by cases hv) (finEv_answer t d r) ?_) ?_
  · rw [hs, finish_eq]; rfl
  · rw [hs, finish_eq]; simp [note]
  · intro hx
    exact absurd (finEv_timeo hx).2 ht
  · refine .quiet hr (by rw [h0]; rfl) rfl (by rw [h0]; intro id h; cases h) (by intro id h; cases h) ?_ ?_
    · rw [List.filterMap_cons_none rfl, List.filterMap_cons_none (finEv_held t d r)]; rfl
    · intro id
      exact neutral_cons ⟨rfl, rfl, rfl⟩ (neutral_cons (finEv_neutral id t d r) (neutral_nil id))

/-- A move that concerns no flow. -/
theorem eff_move {e : Env} {s s' : Sys} {t : Nat} {p' : Pc} (h0 : s.pc t ≠ .idle) (h1 : s.pc t ≠ .done) (h2 : p' ≠ .idle) (h3 : p' ≠ .done)
    (hh : holds (s.pc t) = none) (hf : NotFreeing (s.pc t)) (hh' : holds p' = none) (hf' : NotFreeing p')
    (hl : ∀ c, Linked c (s.pc t) → Linked c p')
    (hr : flowAt s'.reg = flowAt s.reg) (hs : s' = goto { s with reg := s'.reg } t p') : Eff e s s' (some t) := by
  refine .thread t [] p' ?_ ?_ (Link.go h0 h1 h2 h3 (fun ev hv => by cases hv) hl) ?_
  · rw [hs]; rfl
  · rw [hs]; simp [goto]
  · exact .quiet hr hh hh' hf hf' rfl (fun id => neutral_nil id)

theorem eff_move0 {e : Env} {s s' : Sys} {t : Nat} {cmd : Cmd} {p' : Pc} (h0 : s.pc t = .idle) (h2 : p' ≠ .idle) (h3 : p' ≠ .done)
    (hh' : holds p' = none) (hf' : NotFreeing p') (hl : Linked cmd p')
    (hr : flowAt s'.reg = flowAt s.reg) (hs : s' = goto { note s (.started t cmd) with reg := s'.reg } t p') : Eff e s s' (some t) := by
  refine .thread t [.started t cmd] p' ?_ ?_ (Link.start h0 h2 h3 (fun ev hv => by cases hv) hl) ?_
  · rw [hs]; rfl
  · rw [hs]; simp [goto, note]
  · exact .quiet hr (by rw [h0]; rfl) hh' (by rw [h0]; intro id h; cases h) hf' rfl (fun id => neutral_cons ⟨rfl, rfl, rfl⟩ (neutral_nil id))

/-- A move of a thread that owns a flow, with at most a message to an IPCP. -/
theorem eff_own {e : Env} {s s' : Sys} {t : Nat} {p p' : Pc} {id : Int} {g : Flow} {evs : List Ev} (hp : s.pc t = p)
    (hh : holds p = some id) (hh' : holds p' = some id)
    (hl : ∀ c, Linked c p → Linked c p') (hpl : ∀ ev ∈ evs, plain ev = true)
    (hr : flowAt s'.reg = put (flowAt s.reg) id g) (hhd : evs.filterMap heldEv = []) (hn : ∀ i, i ≠ id → Neutral i evs)
    (hs : s' = { reg := s'.reg, pc := fun u => if u = t then p' else s.pc u, log := s.log ++ evs })
    (hg : Good e (s.log ++ evs) g p') : Eff e s s' (some t) := by
  have hne : ∀ q, holds q ≠ none → q ≠ .idle ∧ q ≠ .done ∧ NotFreeing q := by
    intro q hq
    refine ⟨?_, ?_, ?_⟩
    · rintro rfl; exact hq rfl
    · rintro rfl; exact hq rfl
    · rintro i rfl; exact hq rfl
  obtain ⟨h0, h1, h2⟩ := hne p (by rw [hh]; simp)
  obtain ⟨h3, h4, h5⟩ := hne p' (by rw [hh']; simp)
  subst hp
  refine .thread t evs p' (by rw [hs]) (by rw [hs]) (Link.go h0 h1 h3 h4 hpl hl) ?_
  exact .own id g hr hh hh' h2 h5 hhd hn (by rw [hs]; exact hg)

/-- A thread that owns a flow destroys it and ends. -/
theorem eff_drop {e : Env} {s s' : Sys} {t : Nat} {id : Int} {err : Int} {timed : Bool} (hp : s.pc t = .drop id err timed)
    (hr : flowAt s'.reg = remove (flowAt s.reg) id) (hs : s' = finish { s with reg := s'.reg } t (!timed) err) : Eff e s s' (some t) := by
  refine .thread t [finEv t (!timed) err] .done ?_ ?_
    (Link.goFin (evs := []) (by rw [hp]; simp) (by rw [hp]; simp) (fun ev hv => by cases hv) (finEv_answer t _ _) ?_) ?_
  · rw [hs, finish_eq]
  · rw [hs, finish_eq]
  · intro hx c hc
    have h1 := (finEv_timeo hx).1
    rw [hp] at hc
    cases c <;> simp only [Linked] at hc <;> first | exact hc.elim | (subst hc; simpa [untimed] using h1)
  · refine .drop id hr (by rw [hp]; rfl) rfl (by rw [hp]; intro i h; cases h) ?_ ?_
    · rw [List.filterMap_cons_none (finEv_held t _ _)]; rfl
    · intro i
      exact neutral_cons (finEv_neutral i t _ _) (neutral_nil i)

theorem eff_grant {e : Env} {s s' : Sys} {t : Nat} {p : Pc} {id : Int} {g : Flow} {key : Option Nat} (hp : s.pc t = p)
    (hh : holds p = some id) (hr : flowAt s'.reg = put (flowAt s.reg) id g) (hid : g.info.id = id)
    (hs : s' = { reg := s'.reg, pc := fun u => if u = t then .done else s.pc u, log := s.log ++ [.granted t g.info key] })
    (hok : GrantOk e s.log p g.info key) : Eff e s s' (some t) := by
  have h0 : p ≠ .idle := by rintro rfl; cases hh
  have h1 : p ≠ .done := by rintro rfl; cases hh
  have h2 : NotFreeing p := by rintro i rfl; cases hh
  subst hp
  refine .thread t [.granted t g.info key] .done (by rw [hs]) (by rw [hs]) (Link.goFin (evs := []) h0 h1 (fun ev hv => by cases hv) ?_ ?_) ?_
  · exact ⟨by simp [isReply], fun u hu => by simpa [isReply] using fun hc => hu hc.symm, by simp, by simp⟩
  · intro hx; cases hx
  · exact .grant id g key hr hh rfl h2 hid rfl hok

end Ouro.IrmdFlow
