import Verif.Proof.IrmdReg
import Verif.Spec.IrmdLog

/-!
# The flows of the daemon: who owns which flow, over all interleavings
-/

namespace Ouro.IrmdFlow

open Ouro.Registry Spec.FiniteMap Spec.IrmdFlow

/-! ## What a thread owns -/

/-- The flow a thread has made and has not handed over or destroyed yet. -/
def holds : Pc → Option Int
  | .accPrepare i _ _ => some i.id
  | .accStart i _ _ => some i.id
  | .accWait _ i _ _ => some i.id
  | .accRespond i _ _ _ => some i.id
  | .accSent i _ _ => some i.id
  | .allocFind i _ _ _ => some i.id
  | .allocPrepare i _ _ _ _ => some i.id
  | .joinFind i _ _ => some i.id
  | .joinPrepare i _ _ => some i.id
  | .allocSent i _ _ _ => some i.id
  | .allocStart i _ _ _ => some i.id
  | .allocWait _ i _ _ _ => some i.id
  | .drop id _ _ => some id
  | _ => none

def AccSt (st : FState) : Prop := st = .acceptPending ∨ st = .allocated ∨ st = .deallocated
def AllSt (st : FState) : Prop := st = .allocPending ∨ st = .allocated ∨ st = .deallocated

/-- The key of an accepted flow. -/
def KeyAcc (e : Env) (log : List Ev) (i : FlowInfo) (key : Option Nat) : Prop :=
  (i.cypher = 0 ∧ key = none) ∨
  (i.cypher ≠ 0 ∧ ∃ sk pk k, key = some k ∧ e.derive sk pk = some k ∧ latest (sentPk i.id) log = some (some (e.pub sk)) ∧
    latest (handedPk i.id) log = some pk)

/-- The key of an allocated flow. -/
def KeyAll (e : Env) (log : List Ev) (i : FlowInfo) (key : Option Nat) : Prop :=
  (i.cypher = 0 ∧ key = none) ∨
  (i.cypher ≠ 0 ∧ ∃ sk pk k, key = some k ∧ e.derive sk pk = some k ∧ latest (sentPk i.id) log = some (some (e.pub sk)) ∧
    latest (answeredPk i.id) log = some pk)

def AccOk (log : List Ev) (f : Flow) (npid : Nat) : Prop :=
  f.info.npid = npid ∧ AccSt f.info.state ∧
  (f.info.state = .allocated → f.info.n1pid ≠ 0 ∧ (f.info.cypher ≠ 0 → latest (handedPk f.info.id) log = some f.data))

def AllOk (e : Env) (log : List Ev) (f : Flow) (npid : Nat) (join : Bool) (sk : Option Nat) : Prop :=
  join = false ∧ f.info.npid = npid ∧ f.info.n1pid ≠ 0 ∧ AllSt f.info.state ∧ (sk.isSome ↔ 0 < f.info.cypher) ∧
  latest (sentPk f.info.id) log = some (sk.map e.pub) ∧ (f.info.state = .allocated → latest (answeredPk f.info.id) log = some f.data)

/-- The flow of a thread that owns one. -/
def Good (e : Env) (log : List Ev) (f : Flow) : Pc → Prop
  | .accPrepare i _ _ => f.info = i ∧ f.info.state = .init
  | .accStart i _ _ => AccOk log f i.npid
  | .accWait p i _ _ => f.ptr = p ∧ AccOk log f i.npid
  | .accRespond i _ rpk _ => f.info = i ∧ f.info.state = .allocated ∧ i.n1pid ≠ 0 ∧ (i.cypher ≠ 0 → latest (handedPk i.id) log = some rpk)
  | .accSent i key _ => f.info = i ∧ f.info.state = .allocated ∧ i.n1pid ≠ 0 ∧ KeyAcc e log i key
  | .allocFind i _ sk _ => f.info = i ∧ f.info.state = .init ∧ (sk.isSome ↔ 0 < i.cypher)
  | .allocPrepare i _ _ sk _ => f.info.npid = i.npid ∧ f.info.state = .init ∧ (sk.isSome ↔ 0 < f.info.cypher) ∧ f.info.cypher = i.cypher
  | .joinFind i _ _ => f.info = i ∧ f.info.state = .init ∧ i.n1pid = 0
  | .joinPrepare i _ _ => f.info = i ∧ f.info.state = .init ∧ i.n1pid = 0
  | .allocSent i join sk _ => AllOk e log f i.npid join sk
  | .allocStart i join sk _ => AllOk e log f i.npid join sk
  | .allocWait p i join sk _ => f.ptr = p ∧ AllOk e log f i.npid join sk
  | .drop _ _ _ => f.info.state ≠ .deallocPending ∧ f.info.state ≠ .acceptPending
  | _ => False

theorem Good.st {e log f pc} (h : Good e log f pc) : f.info.state ≠ .deallocPending := by
  cases pc <;> simp only [Good, AccOk, AllOk, AccSt, AllSt] at h
  case drop => exact h.1
  all_goals
    intro hc
    simp [hc] at h

/-- Events that say nothing about the keys of flow `id`. -/
def Neutral (id : Int) (evs : List Ev) : Prop :=
  ∀ ev ∈ evs, handedPk id ev = none ∧ answeredPk id ev = none ∧ sentPk id ev = none

theorem latest_skip {α β : Type} {k : α → Option β} {l evs : List α} (h : ∀ ev ∈ evs, k ev = none) : latest k (l ++ evs) = latest k l := by
  unfold latest
  rw [List.filterMap_append]
  have : evs.filterMap k = [] := by
    rw [List.filterMap_eq_nil_iff]
    exact h
  rw [this, List.append_nil]

theorem latest_snoc {α β : Type} {k : α → Option β} {l evs : List α} {x : α} {b : β} (h : k x = some b) (he : ∀ ev ∈ evs, k ev = none) :
    latest k (l ++ (x :: evs)) = some b := by
  unfold latest
  rw [List.filterMap_append, List.filterMap_cons_some h]
  have : evs.filterMap k = [] := by
    rw [List.filterMap_eq_nil_iff]
    exact he
  rw [this]
  simp

theorem Good.frame {e log f pc evs} (h : Good e log f pc) (hid : holds pc = some f.info.id) (hn : Neutral f.info.id evs) :
    Good e (log ++ evs) f pc := by
  have h1 : latest (handedPk f.info.id) (log ++ evs) = latest (handedPk f.info.id) log := latest_skip fun ev hv => (hn ev hv).1
  have h2 : latest (answeredPk f.info.id) (log ++ evs) = latest (answeredPk f.info.id) log := latest_skip fun ev hv => (hn ev hv).2.1
  have h3 : latest (sentPk f.info.id) (log ++ evs) = latest (sentPk f.info.id) log := latest_skip fun ev hv => (hn ev hv).2.2
  cases pc <;> simp only [Good, AccOk, AllOk, KeyAcc] at h ⊢
  case accStart => rw [h1]; exact h
  case accWait => rw [h1]; exact h
  case accRespond =>
    obtain ⟨rfl, h4, h5⟩ := h
    rw [h1]; exact ⟨rfl, h4, h5⟩
  case accSent =>
    obtain ⟨rfl, h4, h5⟩ := h
    rw [h1, h3]; exact ⟨rfl, h4, h5⟩
  case allocSent => rw [h2, h3]; exact h
  case allocStart => rw [h2, h3]; exact h
  case allocWait => rw [h2, h3]; exact h
  all_goals exact h

/-! ## Requests and answers -/

/-- The places a thread can be at while it carries out a command. -/
def Linked : Cmd → Pc → Prop
  | _, .done => True
  | .accept i b, .accCreate j c => j.npid = i.npid ∧ c = b
  | .accept i b, .accPrepare j _ c => j.npid = i.npid ∧ c = b
  | .accept i b, .accStart j _ c => j.npid = i.npid ∧ c = b
  | .accept i b, .accWait _ j _ c => j.npid = i.npid ∧ c = b
  | .accept i b, .accRespond j _ _ c => j.npid = i.npid ∧ c = b
  | .accept i b, .accSent j _ c => j.npid = i.npid ∧ c = b
  | .alloc i _ b, .allocFind j _ _ c => j.npid = i.npid ∧ c = b
  | .alloc i _ b, .allocPrepare j _ _ _ c => j.npid = i.npid ∧ c = b
  | .alloc i _ b, .allocSent j _ _ c => j.npid = i.npid ∧ c = b
  | .alloc i _ b, .allocStart j _ _ c => j.npid = i.npid ∧ c = b
  | .alloc i _ b, .allocWait _ j _ _ c => j.npid = i.npid ∧ c = b
  | .join i _ b, .joinFind j _ c => j.npid = i.npid ∧ c = b
  | .join i _ b, .joinPrepare j _ c => j.npid = i.npid ∧ c = b
  | .accept _ b, .drop _ _ c => c = b
  | .alloc _ _ b, .drop _ _ c => c = b
  | .join _ _ b, .drop _ _ c => c = b
  | .reqArr _ _ _, .reqWait _ _ _ _ _ => True
  | .reqArr _ _ _, .reqExec _ _ _ _ => True
  | .reqArr _ _ _, .reqRespond _ _ => True
  | .dealloc _, .deallocSent => True
  | .deallocResp _, .freeing _ => True
  | _, _ => False

/-- Events that are neither requests nor answers. -/
def plain : Ev → Bool
  | .toIpcp _ _ | .answered _ _ _ _ | .released _ _ => true
  | _ => false

/-- What a piece of a thread adds to the log, as far as requests and answers are concerned. -/
structure Link (s : Sys) (t : Nat) (evs : List Ev) (p' : Pc) : Prop where
  notDone : s.pc t ≠ .done
  notIdle : p' ≠ .idle
  kind : (∃ cmd evs', s.pc t = .idle ∧ evs = .started t cmd :: evs' ∧ (∀ u c, Ev.started u c ∉ evs') ∧ Linked cmd p') ∨
    (s.pc t ≠ .idle ∧ (∀ u c, Ev.started u c ∉ evs) ∧ ∀ c, Linked c (s.pc t) → Linked c p')
  reply : (evs.filter (isReply t)).length = if p' = .done then 1 else 0
  others : ∀ u, u ≠ t → evs.filter (isReply u) = []
  timeo : ∀ u r, Ev.result u r ∈ evs → u = t ∧ (r = -ETIMEDOUT → ∀ c, (Linked c (s.pc t) ∨ Ev.started t c ∈ evs) → untimed c = false)

theorem plain_reply {ev : Ev} (h : plain ev = true) (u : Nat) : isReply u ev = false := by
  cases ev <;> first | rfl | cases h

theorem filter_plain {evs : List Ev} (h : ∀ ev ∈ evs, plain ev = true) (u : Nat) : evs.filter (isReply u) = [] := by
  rw [List.filter_eq_nil_iff]
  intro ev hv
  rw [plain_reply (h ev hv)]
  simp

theorem Link.go {s : Sys} {t : Nat} {evs : List Ev} {p' : Pc} (h0 : s.pc t ≠ .idle) (h1 : s.pc t ≠ .done) (h2 : p' ≠ .idle) (h3 : p' ≠ .done)
    (hp : ∀ ev ∈ evs, plain ev = true) (hl : ∀ c, Linked c (s.pc t) → Linked c p') : Link s t evs p' where
  notDone := h1
  notIdle := h2
  kind := .inr ⟨h0, fun u c hm => by simpa [plain] using hp _ hm, hl⟩
  reply := by rw [filter_plain hp, if_neg h3]; rfl
  others := fun u _ => filter_plain hp u
  timeo := fun u r hm => by simpa [plain] using hp _ hm

theorem Link.start {s : Sys} {t : Nat} {cmd : Cmd} {evs : List Ev} {p' : Pc} (h0 : s.pc t = .idle) (h2 : p' ≠ .idle) (h3 : p' ≠ .done)
    (hp : ∀ ev ∈ evs, plain ev = true) (hl : Linked cmd p') : Link s t (.started t cmd :: evs) p' where
  notDone := by rw [h0]; simp
  notIdle := h2
  kind := .inl ⟨cmd, evs, h0, rfl, fun u c hm => by simpa [plain] using hp _ hm, hl⟩
  reply := by
    rw [List.filter_cons_of_neg (by simp [isReply]), filter_plain hp, if_neg h3]; rfl
  others := fun u _ => by
    rw [List.filter_cons_of_neg (by simp [isReply]), filter_plain hp]
  timeo := fun u r hm => by
    rcases List.mem_cons.mp hm with hm | hm
    · cases hm
    · simpa [plain] using hp _ hm

/-- A single answer. -/
def Answer (t : Nat) (ev : Ev) : Prop :=
  isReply t ev = true ∧ (∀ u, u ≠ t → isReply u ev = false) ∧ (∀ u c, ev ≠ .started u c) ∧ ∀ u r, ev = .result u r → u = t

theorem Link.goFin {s : Sys} {t : Nat} {evs : List Ev} {ev : Ev} (h0 : s.pc t ≠ .idle) (h1 : s.pc t ≠ .done)
    (hp : ∀ ev ∈ evs, plain ev = true) (ha : Answer t ev)
    (ht : ev = .result t (-ETIMEDOUT) → ∀ c, Linked c (s.pc t) → untimed c = false) : Link s t (evs ++ [ev]) .done where
  notDone := h1
  notIdle := by simp
  kind := .inr ⟨h0, fun u c hm => by
    rcases List.mem_append.mp hm with hm | hm
    · simpa [plain] using hp _ hm
    · exact ha.2.2.1 u c (List.mem_singleton.mp hm).symm, fun c _ => by cases c <;> trivial⟩
  reply := by rw [List.filter_append, filter_plain hp, List.filter_cons_of_pos ha.1]; simp
  others := fun u hu => by rw [List.filter_append, filter_plain hp, List.filter_cons_of_neg (by rw [ha.2.1 u hu]; simp)]; rfl
  timeo := fun u r hm => by
    rcases List.mem_append.mp hm with hm | hm
    · simpa [plain] using hp _ hm
    · have he := (List.mem_singleton.mp hm).symm
      refine ⟨ha.2.2.2 u r he, fun hr c hc => ?_⟩
      have hu := ha.2.2.2 u r he
      subst hu; subst hr
      rcases hc with hc | hc
      · exact ht he c hc
      · rcases List.mem_append.mp hc with hc | hc
        · exact absurd (hp _ hc) (by simp [plain])
        · exact absurd (List.mem_singleton.mp hc).symm (ha.2.2.1 u c)

theorem Link.startFin {s : Sys} {t : Nat} {cmd : Cmd} {evs : List Ev} {ev : Ev} (h0 : s.pc t = .idle)
    (hp : ∀ ev ∈ evs, plain ev = true) (ha : Answer t ev) (ht : ev = .result t (-ETIMEDOUT) → untimed cmd = false) :
    Link s t (.started t cmd :: (evs ++ [ev])) .done where
  notDone := by rw [h0]; simp
  notIdle := by simp
  kind := .inl ⟨cmd, _, h0, rfl, fun u c hm => by
    rcases List.mem_append.mp hm with hm | hm
    · simpa [plain] using hp _ hm
    · exact ha.2.2.1 u c (List.mem_singleton.mp hm).symm, by cases cmd <;> trivial⟩
  reply := by
    rw [List.filter_cons_of_neg (by simp [isReply]), List.filter_append, filter_plain hp, List.filter_cons_of_pos ha.1]; simp
  others := fun u hu => by
    rw [List.filter_cons_of_neg (by simp [isReply]), List.filter_append, filter_plain hp, List.filter_cons_of_neg (by rw [ha.2.1 u hu]; simp)]; rfl
  timeo := fun u r hm => by
    rcases List.mem_cons.mp hm with hm | hm
    · cases hm
    · rcases List.mem_append.mp hm with hm | hm
      · simpa [plain] using hp _ hm
      · have he := (List.mem_singleton.mp hm).symm
        refine ⟨ha.2.2.2 u r he, fun hr c hc => ?_⟩
        have hu := ha.2.2.2 u r he
        subst hu; subst hr
        rcases hc with hc | hc
        · rw [h0] at hc
          cases c <;> cases hc
        · rcases List.mem_cons.mp hc with hc | hc
          · cases hc; exact ht he
          · rcases List.mem_append.mp hc with hc | hc
            · exact absurd (hp _ hc) (by simp [plain])
            · exact absurd (List.mem_singleton.mp hc).symm (ha.2.2.1 u c)

/-- The event of `finish`. -/
def finEv (t : Nat) (deflt : Bool) (r : Int) : Ev :=
  let r' := if deflt && r == -ETIMEDOUT then -EPERM else r
  if r' = -EPIPE || r' = -EIRMD then .closed t else .result t r'

theorem finish_eq (s : Sys) (t : Nat) (d : Bool) (r : Int) :
    finish s t d r = { reg := s.reg, pc := fun u => if u = t then .done else s.pc u, log := s.log ++ [finEv t d r] } := rfl

theorem finEv_cases (t : Nat) (d : Bool) (r : Int) :
    finEv t d r = .closed t ∨ ∃ r', finEv t d r = .result t r' ∧ (r' = -ETIMEDOUT → d = false ∧ r = -ETIMEDOUT) := by
  unfold finEv
  by_cases hc : (d && r == -ETIMEDOUT) = true
  · rw [if_pos hc]
    right
    exact ⟨-EPERM, if_neg (by decide), fun h => absurd h (by decide)⟩
  · rw [if_neg hc]
    dsimp only
    split
    · exact .inl rfl
    · refine .inr ⟨r, rfl, fun h => ?_⟩
      subst h
      cases d
      · exact ⟨rfl, rfl⟩
      · simp at hc

theorem finEv_answer (t : Nat) (d : Bool) (r : Int) : Answer t (finEv t d r) := by
  rcases finEv_cases t d r with h | ⟨r', h, _⟩ <;> rw [h] <;> refine ⟨by simp [isReply], fun u hu => by simpa [isReply] using fun hc => hu hc.symm, by simp, ?_⟩
  · intro u r h; cases h
  · intro u r h; cases h; rfl

theorem finEv_timeo {t : Nat} {d : Bool} {r : Int} (h : finEv t d r = .result t (-ETIMEDOUT)) : d = false ∧ r = -ETIMEDOUT := by
  rcases finEv_cases t d r with h1 | ⟨r', h1, h2⟩ <;> rw [h1] at h
  · cases h
  · injection h with _ h
    exact h2 h

theorem finEv_held (t : Nat) (d : Bool) (r : Int) : heldEv (finEv t d r) = none := by
  rcases finEv_cases t d r with h1 | ⟨r', h1, h2⟩ <;> rw [h1] <;> rfl

theorem finEv_neutral (id : Int) (t : Nat) (d : Bool) (r : Int) :
    handedPk id (finEv t d r) = none ∧ answeredPk id (finEv t d r) = none ∧ sentPk id (finEv t d r) = none := by
  rcases finEv_cases t d r with h1 | ⟨r', h1, h2⟩ <;> rw [h1] <;> exact ⟨rfl, rfl, rfl⟩

end Ouro.IrmdFlow
