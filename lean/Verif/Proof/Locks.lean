import Verif.Spec.Locks
import Verif.Proof.Tac

/-!
# Lemmas about the order of locks
-/

namespace Ouro.Locks

/-- The order in which locks are taken. -/
def rank : Lock → Nat
  | .ai => 0
  | .rib => 1
  | .tx => 2
  | .rw => 3
  | .frcti _ => 4
  | .mtx _ => 5
  | .aiMtx => 6
  | .rdrb => 6
  | .rxRing _ => 6
  | .txRing _ => 6
  | .fset => 6

theorem rank_le (l : Lock) : rank l ≤ 6 := by cases l <;> simp [rank]

/-- From the locks `h` to the locks `h'`, in order; with `s` only waiting when no lock is held. -/
inductive Valid (s : Bool) : List Lock → List Act → List Lock → Prop
  | nil (h) : Valid s h [] h
  | acq {h l m p h'} (hr : ∀ x ∈ h, rank x < rank l) (hv : Valid s (l :: h) p h') : Valid s h (.acq l m :: p) h'
  | rel {h l p h'} (hv : Valid s h p h') : Valid s (l :: h) (.rel l :: p) h'
  | wait {h c p h'} (hs : s = true → h = []) (hv : Valid s h p h') : Valid s h (.wait c :: p) h'

theorem Valid.append {s : Bool} {h p h' q h''} (h1 : Valid s h p h') (h2 : Valid s h' q h'') :
    Valid s h (p ++ q) h'' := by
  induction h1 with
  | nil => exact h2
  | acq hr _ ih => exact .acq hr (ih h2)
  | rel _ ih => exact .rel (ih h2)
  | wait hs _ ih => exact .wait hs (ih h2)

theorem Valid.acq_inv {s : Bool} {h l m p h'} (hv : Valid s h (.acq l m :: p) h') :
    (∀ x ∈ h, rank x < rank l) ∧ Valid s (l :: h) p h' := by
  cases hv with
  | acq hr hv => exact ⟨hr, hv⟩

theorem Valid.wait_inv {s : Bool} {h c p h'} (hv : Valid s h (.wait c :: p) h') :
    (s = true → h = []) ∧ Valid s h p h' := by
  cases hv with
  | wait hs hv => exact ⟨hs, hv⟩

/-- A piece of program that gives back all locks it takes, when all locks held before come before `r`. -/
def Blk (s : Bool) (r : Nat) (p : List Act) : Prop := ∀ h, (∀ x ∈ h, rank x < r) → Valid s h p h

theorem Blk.nil {s r} : Blk s r [] := fun h _ => .nil h

theorem Blk.append {s r p q} (h1 : Blk s r p) (h2 : Blk s r q) : Blk s r (p ++ q) :=
  fun h hr => (h1 h hr).append (h2 h hr)

theorem Blk.under {s r l m p} (h1 : r ≤ rank l) (h2 : Blk s (rank l + 1) p) : Blk s r (under l m p) := by
  intro h hr
  refine .acq (fun x hx => lt_of_lt_of_le (hr x hx) h1) ?_
  refine (h2 (l :: h) ?_).append (.rel (.nil h))
  intro x hx
  rcases List.mem_cons.1 hx with rfl | hx
  · exact Nat.lt_succ_self _
  · exact Nat.lt_succ_of_lt (lt_of_lt_of_le (hr x hx) h1)

theorem Blk.touch {s r l m} (h1 : r ≤ rank l) : Blk s r (touch l m) := Blk.under h1 .nil

theorem Blk.wait {s r c p} (h1 : s = true → r = 0) (h2 : Blk s r p) : Blk s r (.wait c :: p) := by
  intro h hr
  refine .wait (fun hs => ?_) (h2 h hr)
  cases h with
  | nil => rfl
  | cons x _ =>
    have := hr x (by simp)
    have := h1 hs
    omega

theorem Blk.flatMap {α : Type} {s r} {l : List α} {f : α → List Act} (h : ∀ x ∈ l, Blk s r (f x)) :
    Blk s r (l.flatMap f) := by
  induction l with
  | nil => exact .nil
  | cons a l ih =>
    rw [List.flatMap_cons]
    exact (h a (by simp)).append (ih (fun x hx => h x (by simp [hx])))

theorem Blk.mono {s r r' p} (h : Blk s r p) (hr : r' ≤ r) : Blk s r' p :=
  fun h' hx => h h' (fun x hx' => lt_of_lt_of_le (hx x hx') hr)

theorem Blk.ite {s r} {b : Bool} {p q} (h1 : b = true → Blk s r p) (h2 : b = false → Blk s r q) :
    Blk s r (if b = true then p else q) := by
  cases b with
  | true => exact h1 rfl
  | false => exact h2 rfl

/-! ## Functions -/

variable {f : Nat}

theorem blk_rdrbAlloc {s} : Blk s 6 rdrbAlloc := .touch (by decide)
theorem blk_rdrbRemove {s} : Blk s 6 rdrbRemove := .touch (by decide)
theorem blk_ringWrite {s} : Blk s 6 (ringWrite f) := .touch (by simp [rank])
theorem blk_rxTouch {s} : Blk s 6 (rxTouch f) := .touch (by simp [rank])
theorem blk_fsetTouch {s} : Blk s 6 fsetTouch := .touch (by decide)
theorem blk_rdrbAllocB {s r} (h : s = true → r = 0) (hr : r ≤ 6) : Blk s r rdrbAllocB :=
  .wait h (.touch hr)
theorem blk_ringWriteB {s r} (h : s = true → r = 0) (hr : r ≤ 6) : Blk s r (ringWriteB f) :=
  .wait h (.touch hr)
theorem blk_ringReadB {s r} (h : s = true → r = 0) (hr : r ≤ 6) : Blk s r (ringReadB f) :=
  .wait h (.touch hr)
theorem blk_ringFini {s r} (h : s = true → r = 0) (hr : r ≤ 6) : Blk s r (ringFini f) :=
  .wait h (.touch hr)

theorem blk_sendPkt (o : Sent) : Blk false 6 (sendPkt f o) := by
  cases o with
  | noMemory => exact blk_rdrbAllocB (by simp) (le_refl _)
  | failed =>
    exact (blk_rdrbAllocB (by simp) (le_refl _)).append ((blk_ringWriteB (by simp) (le_refl _)).append blk_rdrbRemove)
  | sent =>
    exact (blk_rdrbAllocB (by simp) (le_refl _)).append ((blk_ringWriteB (by simp) (le_refl _)).append blk_fsetTouch)

theorem blk_sendOpt {s} (o : Option Sent) (h : s = true → o = none) : Blk s 6 (sendOpt f o) := by
  cases o with
  | none => exact .nil
  | some o =>
    cases s with
    | true => exact absurd (h rfl) (by simp)
    | false => exact blk_sendPkt o

theorem blk_sendFrct {s} (o : Option Sent) (h : s = true → o = none) : Blk s 4 (sendFrct f o) :=
  (Blk.touch (by simp [rank])).append ((blk_sendOpt o h).mono (by decide))

theorem blk_isWindowOpen {s} (c : Option (Option Sent)) (h : s = true → ∀ o, c = some o → o = none) :
    Blk s 4 (isWindowOpen f c) := by
  cases c with
  | none => exact .touch (by simp [rank])
  | some o =>
    refine .under (by simp [rank]) (.under (by simp [rank]) (Blk.mono (blk_sendOpt o (fun hs => h hs o rfl)) ?_))
    simp [rank]

theorem blk_windowWait (rounds : List (Option Sent)) (fails : Bool) : Blk false 4 (windowWait f rounds fails) := by
  refine .append (.flatMap fun o _ => ?_) ?_
  · refine .append (.touch (by simp [rank])) (.append (.touch (by simp [rank])) (.wait (by simp) (.under (by simp [rank]) ?_)))
    exact (blk_sendOpt o (by simp)).mono (by simp [rank])
  · exact .ite (fun _ => .nil) (fun _ => .touch (by simp [rank]))

theorem blk_queuedPdu {s} : Blk s 4 (queuedPdu f) := .touch (by simp [rank])
theorem blk_pduReady {s} : Blk s 4 (pduReady f) := .touch (by simp [rank])
theorem blk_frctiDealloc (o : Option Sent) : Blk false 4 (frctiDealloc f o) :=
  (Blk.touch (by simp [rank])).append ((blk_sendOpt o (by simp)).mono (by decide))

theorem blk_entry {s} (e : Entry) (h : s = true → e.silent) : Blk s 4 (entry e) := by
  have rm : Blk s 4 rdrbRemove := blk_rdrbRemove.mono (by decide)
  have rw' : ∀ f, Blk s 4 (ringWrite f) := fun f => blk_ringWrite.mono (by decide)
  have rx : ∀ f, Blk s 4 (rxTouch f) := fun f => blk_rxTouch.mono (by decide)
  have fs : Blk s 4 fsetTouch := blk_fsetTouch.mono (by decide)
  have t : ∀ f m, Blk s 4 (touch (.frcti f) m) := fun f m => .touch (by simp [rank])
  cases e with
  | stale => exact rm
  | acked f => exact (t f _).append rm
  | expired f => exact (t f _).append ((rw' f).append ((rx f).append rm))
  | rtx f w =>
    cases s with
    | true => exact absurd (h rfl) (by simp [Entry.silent])
    | false =>
      have a : Blk false 4 rdrbAllocB := blk_rdrbAllocB (by simp) (by decide)
      have b : Blk false 4 (ringWriteB f) := blk_ringWriteB (by simp) (by decide)
      cases w with
      | true => exact (t f _).append ((t f _).append (a.append (rm.append (b.append fs))))
      | false => exact (t f _).append ((t f _).append (a.append (rm.append (b.append ((rw' f).append ((rx f).append rm))))))
  | staleAck => exact .nil
  | ack f o =>
    refine blk_sendFrct o (fun hs => ?_)
    have := h hs
    cases o with
    | none => rfl
    | some _ => exact absurd this (by simp [Entry.silent])

theorem blk_wheelMove {s} (es : List Entry) (h : s = true → ∀ e ∈ es, e.silent) : Blk s 3 (wheelMove es) :=
  .under (by simp [rank]) ((Blk.flatMap fun e he => blk_entry e (fun hs => h hs e he)).mono (by simp [rank]))

theorem blk_wheelRxm {s} : Blk s 3 (wheelRxm f) := (Blk.touch (by simp [rank])).append (.touch (by simp [rank]))
theorem blk_wheelAck {s} : Blk s 3 (wheelAck f) := (Blk.touch (by simp [rank])).append (.touch (by simp [rank]))

theorem blk_frctiSnd {s} (es : List Entry) (rtx : Bool) (h : s = true → ∀ e ∈ es, e.silent) :
    Blk s 3 (frctiSnd f es rtx) :=
  (blk_wheelMove es h).append ((Blk.touch (by simp [rank])).append (.ite (fun _ => blk_wheelRxm) (fun _ => .nil)))

theorem blk_frctiRcv {s} (r : Rcv) (h : s = true → r.silent) : Blk s 3 (frctiRcv f r) := by
  cases r with
  | rdv o =>
    cases s with
    | true => exact absurd (h rfl) (by simp [Rcv.silent])
    | false =>
      exact (Blk.touch (by simp [rank])).append
        (((blk_sendPkt o).mono (by decide)).append (blk_rdrbRemove.mono (by decide)))
  | drop fc o =>
    refine (Blk.under (by simp [rank]) (.ite (fun _ => .touch (by simp [rank])) (fun _ => .nil))).append
      ((blk_rdrbRemove.mono (by decide)).append ((blk_sendFrct o (fun hs => ?_)).mono (by decide)))
    have := h hs
    cases o with
    | none => rfl
    | some _ => exact absurd this (by simp [Rcv.silent])
  | keep fc rtx =>
    exact (Blk.under (by simp [rank]) (.ite (fun _ => .touch (by simp [rank])) (fun _ => .nil))).append
      (.ite (fun _ => blk_wheelAck) (fun _ => .nil))

theorem blk_flowTx {s} (frct : Option (List Entry × Bool)) (block written : Bool)
    (h : s = true → block = false ∧ ∀ es rtx, frct = some (es, rtx) → ∀ e ∈ es, e.silent) :
    Blk s 0 (flowTx f frct block written) := by
  refine (Blk.touch (by simp [rank])).append (.under (by simp [rank]) (.append ?_ (.append ?_ ?_)))
  · cases frct with
    | none => exact .nil
    | some x =>
      obtain ⟨es, rtx⟩ := x
      exact (blk_frctiSnd es rtx (fun hs => (h hs).2 es rtx rfl)).mono (by simp [rank])
  · refine .ite (fun hb => ?_) (fun _ => blk_ringWrite.mono (by simp [rank]))
    refine blk_ringWriteB (fun hs => ?_) (by simp [rank])
    have := (h hs).1
    rw [this] at hb
    exact absurd hb (by simp)
  · exact .ite (fun _ => blk_fsetTouch.mono (by simp [rank])) (fun _ => blk_rdrbRemove.mono (by simp [rank]))

theorem blk_flowRx {s} (block : Bool) (g : Option Bool) : Blk s 0 (flowRx f block g) := by
  have hr : Blk s 0 (if block = true then ringReadB f else rxTouch f) :=
    .ite (fun _ => blk_ringReadB (fun _ => rfl) (by decide)) (fun _ => blk_rxTouch.mono (by decide))
  cases g with
  | none => exact hr
  | some v =>
    exact hr.append ((Blk.touch (by simp [rank])).append (.ite (fun _ => .nil) (fun _ => blk_rdrbRemove.mono (by decide))))

theorem blk_queued {s} (frct : Bool) : Blk s 0 (under .ai .rd (if frct = true then queuedPdu f else [])) :=
  .under (by simp [rank]) (.ite (fun _ => blk_queuedPdu.mono (by simp [rank])) (fun _ => .nil))

theorem blk_readRound {s} (frct block : Bool) (r : Round) (h : s = true → ∀ x, r.rcv = some x → x.silent) :
    Blk s 0 (readRound f frct block r) := by
  refine (blk_queued frct).append ((blk_flowRx block _).append ?_)
  obtain ⟨g, rcv⟩ := r
  cases rcv with
  | none => exact .nil
  | some x => exact .under (by simp [rank]) ((blk_frctiRcv x (fun hs => h hs x rfl)).mono (by simp [rank]))

theorem blk_flowRead {s} (frct block : Bool) (rounds : List Round) (e : ReadEnd)
    (h : s = true → ∀ r ∈ rounds, ∀ x, r.rcv = some x → x.silent) : Blk s 0 (flowRead f frct block rounds e) := by
  refine (Blk.flatMap fun r hr => blk_readRound frct block r (fun hs => h hs r hr)).append ?_
  have rm : Blk s 0 rdrbRemove := blk_rdrbRemove.mono (by decide)
  have ai : ∀ m, Blk s 0 (touch .ai m) := fun m => .touch (by simp [rank])
  cases e with
  | empty => exact .nil
  | nothing => exact ai _
  | found => exact blk_queued frct
  | whole => exact (blk_queued frct).append (rm.append (ai _))
  | part => exact (blk_queued frct).append (ai _)
  | tooLong => exact (blk_queued frct).append rm

theorem blk_ribReg {s} : Blk s 1 ribReg := .touch (by simp [rank])

theorem blk_flowInit {s} (frct : Bool) : Blk s 0 (flowInit frct) :=
  .under (by simp [rank]) (.append (.ite (fun _ => (blk_ribReg.mono (by simp [rank])).append
    (blk_fsetTouch.mono (by simp [rank]))) (fun _ => .nil)) (.touch (by simp [rank])))

theorem blk_flowFini {s} (frct last : Bool) : Blk s 0 (flowFini f frct last) := by
  refine .under (by simp [rank]) (.append ?_ ?_)
  · refine .ite (fun _ => .append (.ite (fun _ => .touch (by simp [rank])) (fun _ => .nil)) (.append ?_ ?_)) (fun _ => .nil)
    · exact blk_fsetTouch.mono (by simp [rank])
    · exact blk_ribReg.mono (by simp [rank])
  · exact (Blk.touch (by simp [rank])).append ((blk_rxTouch.mono (by simp [rank])).append
      ((blk_ringWrite.mono (by simp [rank])).append (blk_fsetTouch.mono (by simp [rank]))))

theorem blk_filter {s} (e : Filter) (h : s = true → ∀ f v r, e = .pkt f v r → r.silent) : Blk s 0 (filter e) := by
  have hp : ∀ f, Blk s 0 (under .ai .rd (pduReady f)) :=
    fun f => .under (by simp [rank]) (blk_pduReady.mono (by simp [rank]))
  cases e with
  | gone => exact .touch (by simp [rank])
  | plain => exact .touch (by simp [rank])
  | ready f => exact hp f
  | none f => exact (hp f).append (blk_flowRx _ _)
  | pkt f v r =>
    cases v with
    | false => exact (hp f).append (blk_flowRx _ _)
    | true =>
      refine (hp f).append ((blk_flowRx _ _).append (.under (by simp [rank]) (.append ?_ ?_)))
      · exact (blk_frctiRcv r (fun hs => h hs f true r rfl)).mono (by simp [rank])
      · exact blk_pduReady.mono (by simp [rank])

theorem blk_keep {s} (e : Keep) : Blk s 0 (keep e) := by
  cases e with
  | nothing => exact .touch (by simp [rank])
  | down f =>
    exact .under (by simp [rank]) ((blk_rxTouch.mono (by simp [rank])).append (blk_fsetTouch.mono (by simp [rank])))
  | send f ok w =>
    have h1 : Blk s 0 (under .ai .rd (rxTouch f)) := .under (by simp [rank]) (blk_rxTouch.mono (by simp [rank]))
    cases ok with
    | false => exact h1.append (blk_rdrbAlloc.mono (by decide))
    | true =>
      refine h1.append ((blk_rdrbAlloc.mono (by decide)).append (.under (by simp [rank])
        ((blk_ringWrite.mono (by simp [rank])).append (.ite (fun _ => ?_) (fun _ => ?_)))))
      · exact blk_fsetTouch.mono (by simp [rank])
      · exact blk_rdrbRemove.mono (by simp [rank])

theorem blk_window {s} (w : Window) (h : s = true → w = .noFrct ∨ w = .test none ∨ w = .test (some none)) :
    Blk s 0 (window f w) := by
  cases w with
  | noFrct => exact .nil
  | test c =>
    refine (blk_isWindowOpen c (fun hs o ho => ?_)).mono (by decide)
    rcases h hs with h | h | h
    · exact absurd h (by simp)
    · simp only [Window.test.injEq] at h
      rw [h] at ho
      exact absurd ho (by simp)
    · simp only [Window.test.injEq] at h
      rw [h] at ho
      simpa using ho.symm
  | wait r b =>
    cases s with
    | true => rcases h rfl with h | h | h <;> exact absurd h (by simp)
    | false => exact (blk_windowWait r b).mono (by decide)

theorem blk_written {s r} (written : Bool) (hr : r ≤ 6) :
    Blk s r (if written = true then fsetTouch else rdrbRemove) :=
  .ite (fun _ => blk_fsetTouch.mono hr) (fun _ => blk_rdrbRemove.mono hr)

theorem blk_trace {s} (c : Call) (h0 : c.noStatistics) (h : s = true → c.quiet) : Blk s 0 (trace c) := by
  have ai : ∀ m, Blk s 0 (touch .ai m) := fun m => .touch (by simp [rank])
  cases c with
  | writeFails => exact ai _
  | writeWait f w => exact (ai _).append (blk_window w h)
  | write f w frct block written =>
    refine (ai _).append ((blk_window w (fun hs => (h hs).2.1)).append (.append ?_ ?_))
    · exact .ite (fun _ => blk_rdrbAllocB (fun _ => rfl) (by decide)) (fun _ => blk_rdrbAlloc.mono (by decide))
    · exact blk_flowTx frct block written (fun hs => ⟨(h hs).1, (h hs).2.2⟩)
  | read f frct block rounds e => exact blk_flowRead frct block rounds e h
  | ipcpWrite f frct written =>
    cases s with
    | true => exact absurd (h rfl) (by simp [Call.quiet])
    | false => exact (ai _).append (blk_flowTx frct true written (by simp))
  | np1Write f written => exact (ai _).append ((blk_ringWriteB (fun _ => rfl) (by decide)).append (blk_written _ (by decide)))
  | localWrite f written =>
    cases s with
    | true => exact absurd (h rfl) (by simp [Call.quiet])
    | false =>
      exact .under (by simp [rank]) ((blk_ringWriteB (by simp) (by simp [rank])).append (blk_written _ (by simp [rank])))
  | look f => exact .under (by simp [rank]) (blk_rxTouch.mono (by simp [rank]))
  | alloc frct => exact blk_flowInit frct
  | dealloc f frct last rounds =>
    cases s with
    | true => exact absurd (h rfl) (by simp [Call.quiet])
    | false =>
      refine (ai _).append ((Blk.flatMap fun r _ => ?_).append (.append ?_ (blk_flowFini frct last)))
      · refine (blk_flowRead frct true r.1 r.2.1 (by simp)).append (.under (by simp [rank]) ?_)
        exact .ite (fun _ => (blk_frctiDealloc _).mono (by simp [rank])) (fun _ => .nil)
      · exact .under (by simp [rank]) (blk_ringFini (by simp) (by simp [rank]))
  | ipcpDealloc f frct last => exact (ai _).append (blk_flowFini frct last)
  | ipcpFini f =>
    refine .append (.under (by simp [rank]) ?_) (.wait (fun _ => rfl) (blk_rxTouch.mono (by decide)))
    exact (blk_rxTouch.mono (by simp [rank])).append ((blk_ringWrite.mono (by simp [rank])).append
      (blk_fsetTouch.mono (by simp [rank])))
  | fcntl f flags =>
    refine .under (by simp [rank]) ?_
    cases flags with
    | none =>
      exact (blk_rxTouch.mono (by simp [rank])).append ((blk_fsetTouch.mono (by simp [rank])).append
        (blk_ringWrite.mono (by simp [rank])))
    | some m => exact .touch (by simp [rank])
  | fsetMake => exact (blk_fsetTouch.mono (by decide)).append (ai _)
  | fsetUse f =>
    exact .under (by simp [rank]) ((blk_fsetTouch.mono (by simp [rank])).append ((blk_rxTouch.mono (by simp [rank])).append
      (blk_fsetTouch.mono (by simp [rank]))))
  | event waits es =>
    refine .append (.ite (fun _ => .wait (fun _ => rfl) (blk_fsetTouch.mono (by decide))) (fun _ => .nil))
      (.append (.flatMap fun e he => blk_filter e (fun hs f v r hr => ?_)) (ai _))
    subst hr
    exact h hs f v r he
  | tick es => exact .under (by simp [rank]) ((blk_wheelMove es h).mono (by simp [rank]))
  | keepalive es => exact .append (.flatMap fun e _ => blk_keep e) (ai _)
  | ribList => exact .touch (by simp [rank])
  | ribRead f => exact absurd h0 (by simp [Call.noStatistics])

/-! ## Threads -/

/-- Every thread takes its locks in order. -/
def Inv (b : Bool) (s : State) : Prop := ∀ i, Valid b ((s.thr i).held.map Prod.fst) (s.thr i).prog []

theorem inv_start {b : Bool} {cs : Nat → List Call} (h : ∀ i, ∀ c ∈ cs i, c.noStatistics ∧ (b = true → c.quiet)) :
    Inv b (start cs) := by
  intro i
  exact (Blk.flatMap fun c hc => blk_trace c (h i c hc).1 (h i c hc).2) [] (by simp)

theorem inv_next {b : Bool} {s t : State} (hi : Inv b s) (h : Next s t) : Inv b t := by
  cases h with
  | env av => exact hi
  | @step i t h =>
    intro j
    by_cases hj : j = i
    · subst hj
      have hv := hi j
      cases h with
      | @acq l m p hp hf =>
        rw [hp] at hv
        simp only [Function.update_self, List.map_cons]
        exact hv.acq_inv.2
      | @rel l p hp =>
        rw [hp] at hv
        simp only [Function.update_self]
        generalize (s.thr j).held = hd at *
        cases hd with
        | nil => cases hv
        | cons x hd =>
          obtain ⟨l', m'⟩ := x
          simp only [List.map_cons] at hv
          cases hv with
          | rel hv =>
            rw [List.eraseP_cons_of_pos (by simp)]
            exact hv
      | @wait c p hp ha =>
        rw [hp] at hv
        simp only [Function.update_self]
        exact hv.wait_inv.2
    · have hv := hi j
      cases h <;> (simp only [Function.update_of_ne hj]; exact hv)

theorem inv_reach {b : Bool} {s t : State} (hi : Inv b s) (h : Reach s t) : Inv b t := by
  induction h with
  | refl => exact hi
  | tail _ h ih => exact inv_next ih h

theorem not_free {s : State} {l : Lock} {m : Mode} (h : ¬ free s l m) :
    ∃ j m', (l, m') ∈ (s.thr j).held ∧ Conflict m m' := by
  cases m with
  | rd =>
    simp only [free, not_forall, not_not] at h
    obtain ⟨j, hj⟩ := h
    exact ⟨j, .wr, hj, Or.inr rfl⟩
  | wr =>
    simp only [free, not_forall, not_not] at h
    obtain ⟨j, m', hj⟩ := h
    exact ⟨j, m', hj, Or.inl rfl⟩

/-- A thread in order either goes on, waits outside, or wants a lock after all that it holds. -/
theorem next_of {b : Bool} {s : State} (hi : Inv b s) {i : Nat} (hu : Unfinished s i) :
    CanStep s i ∨ Waiting s i ∨ ∃ l m p j m', (s.thr i).prog = .acq l m :: p ∧
      (∀ x ∈ (s.thr i).held, rank x.1 < rank l) ∧ (l, m') ∈ (s.thr j).held ∧ Conflict m m' := by
  have hv := hi i
  cases hp : (s.thr i).prog with
  | nil => exact absurd hp hu
  | cons a p =>
    cases a with
    | rel l => exact Or.inl ⟨_, .rel hp⟩
    | wait c =>
      by_cases ha : s.avail c
      · exact Or.inl ⟨_, .wait hp ha⟩
      · exact Or.inr (Or.inl ⟨c, p, hp, ha⟩)
    | acq l m =>
      by_cases hf : free s l m
      · exact Or.inl ⟨_, .acq hp hf⟩
      · obtain ⟨j, m', hj, hc⟩ := not_free hf
        refine Or.inr (Or.inr ⟨l, m, p, j, m', rfl, ?_, hj, hc⟩)
        rw [hp] at hv
        exact fun x hx => hv.acq_inv.1 x.1 (List.mem_map_of_mem hx)

theorem unfinished_of_held {b : Bool} {s : State} (hi : Inv b s) {j : Nat} {x : Lock × Mode}
    (h : x ∈ (s.thr j).held) : Unfinished s j := by
  intro hp
  have hv := hi j
  rw [hp] at hv
  generalize (s.thr j).held = hd at *
  cases hd with
  | nil => simp at h
  | cons y hd => cases hv

theorem alive_of {b : Bool} {s : State} (hi : Inv b s) :
    ∀ k i, Unfinished s i → (∀ l m p, (s.thr i).prog = .acq l m :: p → 7 ≤ rank l + k) → Alive s i := by
  intro k
  induction k with
  | zero =>
    intro i hu hk
    rcases next_of hi hu with h | h | ⟨l, m, p, j, m', hp, _⟩
    · exact ⟨i, .refl, Or.inl h⟩
    · exact ⟨i, .refl, Or.inr h⟩
    · have := hk l m p hp
      have := rank_le l
      omega
  | succ k ih =>
    intro i hu hk
    rcases next_of hi hu with h | h | ⟨l, m, p, j, m', hp, _, hj, hc⟩
    · exact ⟨i, .refl, Or.inl h⟩
    · exact ⟨i, .refl, Or.inr h⟩
    · obtain ⟨j', hj', he⟩ := ih j (unfinished_of_held hi hj) (fun l' m'' p' hp' => by
        have hv := hi j
        rw [hp'] at hv
        have := hv.acq_inv.1 l (List.mem_map_of_mem hj)
        have := hk l m p hp
        omega)
      exact ⟨j', .head ⟨l, m, p, m', hp, hj, hc⟩ hj', he⟩

theorem alive {b : Bool} {s : State} (hi : Inv b s) {i : Nat} (hu : Unfinished s i) : Alive s i :=
  alive_of hi 7 i hu (fun _ _ _ _ => Nat.le_add_left _ _)

theorem held_of_waiting {s : State} (hi : Inv true s) {i : Nat} (h : Waiting s i) : (s.thr i).held = [] := by
  obtain ⟨c, p, hp, _⟩ := h
  have hv := hi i
  rw [hp] at hv
  exact List.map_eq_nil_iff.1 (hv.wait_inv.1 rfl)

theorem last_held {s : State} {i j : Nat} (h : Relation.ReflTransGen (WaitsFor s) i j) :
    j = i ∨ (s.thr j).held ≠ [] := by
  cases h.cases_tail with
  | inl h => exact Or.inl h
  | inr h =>
    obtain ⟨_, _, l, m, p, m', _, hj, _⟩ := h
    exact Or.inr (List.ne_nil_of_mem hj)

/-! ## Threads that stay where they are -/

theorem step_other {s t : State} {i j : Nat} (h : Step s i t) (hj : j ≠ i) : t.thr j = s.thr j := by
  cases h <;> exact Function.update_of_ne hj _ _

/-- A thread that wants a lock that another holds makes no step. -/
theorem no_step_acq {s : State} {i j : Nat} {l : Lock} {m m' : Mode} {p : List Act}
    (hp : (s.thr i).prog = .acq l m :: p) (hj : (l, m') ∈ (s.thr j).held) (hc : Conflict m m') {t : State} :
    ¬ Step s i t := by
  intro h
  cases h with
  | @acq l' m'' p' hp' hf =>
    rw [hp] at hp'
    simp only [List.cons.injEq, Act.acq.injEq] at hp'
    obtain ⟨⟨rfl, rfl⟩, _⟩ := hp'
    cases m with
    | wr => exact hf j m' hj
    | rd =>
      have : m' = .wr := by
        rcases hc with h | h
        · exact absurd h (by simp)
        · exact h
      subst this
      exact hf j hj
  | rel hp' => rw [hp] at hp'; exact absurd hp' (by simp)
  | wait hp' _ => rw [hp] at hp'; exact absurd hp' (by simp)

theorem no_step_wait {s : State} {i : Nat} {c : Cond} {p : List Act} (hp : (s.thr i).prog = .wait c :: p)
    (hc : ¬ s.avail c) {t : State} : ¬ Step s i t := by
  intro h
  cases h with
  | acq hp' _ => rw [hp] at hp'; exact absurd hp' (by simp)
  | rel hp' => rw [hp] at hp'; exact absurd hp' (by simp)
  | wait hp' ha =>
    rw [hp] at hp'
    simp only [List.cons.injEq, Act.wait.injEq] at hp'
    rw [← hp'.1] at ha
    exact hc ha

/-- Two threads that want what the other has. -/
theorem stuck_pair {s : State} {i j : Nat} {l l' : Lock} {m m' n n' : Mode} {p q : List Act}
    (hi : (s.thr i).prog = .acq l m :: p) (hj : (s.thr j).prog = .acq l' n :: q)
    (hi' : (l', n') ∈ (s.thr i).held) (hj' : (l, m') ∈ (s.thr j).held) (hc : Conflict m m') (hc' : Conflict n n')
    {t : State} (h : Reach s t) : t.thr i = s.thr i ∧ t.thr j = s.thr j := by
  induction h with
  | refl => exact ⟨rfl, rfl⟩
  | @tail t u _ h ih =>
    cases h with
    | env av => exact ih
    | @step k u h =>
      have h1 : k ≠ i := by
        rintro rfl
        exact no_step_acq (by rw [ih.1]; exact hi) (by rw [ih.2]; exact hj') hc h
      have h2 : k ≠ j := by
        rintro rfl
        exact no_step_acq (by rw [ih.2]; exact hj) (by rw [ih.1]; exact hi') hc' h
      rw [step_other h (Ne.symm h1), step_other h (Ne.symm h2)]
      exact ih

/-- A thread that wants a lock that a waiting thread holds. -/
theorem stuck_behind {s : State} {i j : Nat} {l : Lock} {m m' : Mode} {c : Cond} {p q : List Act}
    (hi : (s.thr i).prog = .wait c :: p) (hj : (s.thr j).prog = .acq l m :: q) (hi' : (l, m') ∈ (s.thr i).held)
    (hc : Conflict m m') (ha : ¬ s.avail c) {t : State} (h : ReachWithout c s t) :
    (t.thr i = s.thr i ∧ t.thr j = s.thr j) ∧ ¬ t.avail c := by
  induction h with
  | refl => exact ⟨⟨rfl, rfl⟩, ha⟩
  | @tail t u _ h ih =>
    obtain ⟨⟨ih1, ih2⟩, iha⟩ := ih
    refine ⟨?_, h.2⟩
    cases h.1 with
    | env av => exact ⟨ih1, ih2⟩
    | @step k u h =>
      have h1 : k ≠ i := by
        rintro rfl
        exact no_step_wait (by rw [ih1]; exact hi) iha h
      have h2 : k ≠ j := by
        rintro rfl
        exact no_step_acq (by rw [ih2]; exact hj) (by rw [ih1]; exact hi') hc h
      rw [step_other h (Ne.symm h1), step_other h (Ne.symm h2)]
      exact ⟨ih1, ih2⟩

/-! ## One thread runs alone -/

/-- The state in which thread `i` still has `p` to do and holds `h`. -/
def put (s : State) (i : Nat) (p : List Act) (h : List (Lock × Mode)) : State :=
  { s with thr := Function.update s.thr i ⟨p, h⟩ }

theorem put_acq {s : State} {i : Nat} {l : Lock} {m : Mode} {p : List Act} {h : List (Lock × Mode)}
    (ho : ∀ j, j ≠ i → (s.thr j).held = []) (hl : ∀ m', (l, m') ∉ h) :
    Reach (put s i (.acq l m :: p) h) (put s i p ((l, m) :: h)) := by
  have hf : ∀ j m', (l, m') ∉ ((put s i (.acq l m :: p) h).thr j).held := by
    intro j m'
    by_cases hj : j = i
    · subst hj
      simpa [put] using hl m'
    · simp [put, Function.update_of_ne hj, ho j hj]
  have hst : Step (put s i (.acq l m :: p) h) i _ :=
    .acq (l := l) (m := m) (p := p) (by simp [put]) (by
      cases m with
      | rd => exact fun j => hf j _
      | wr => exact hf)
  have := Next.step hst
  simp only [put, Function.update_self, Function.update_idem] at this
  exact .single this

theorem put_rel {s : State} {i : Nat} {l : Lock} {m : Mode} {p : List Act} {h : List (Lock × Mode)} :
    Reach (put s i (.rel l :: p) ((l, m) :: h)) (put s i p h) := by
  have hst : Step (put s i (.rel l :: p) ((l, m) :: h)) i _ := .rel (l := l) (p := p) (by simp [put])
  have := Next.step hst
  simp only [put, Function.update_self, Function.update_idem] at this
  rw [List.eraseP_cons_of_pos (by simp)] at this
  exact .single this

theorem put_wait {s : State} {i : Nat} {c : Cond} {p : List Act} {h : List (Lock × Mode)} (ha : s.avail c) :
    Reach (put s i (.wait c :: p) h) (put s i p h) := by
  have hst : Step (put s i (.wait c :: p) h) i _ := .wait (c := c) (p := p) (by simp [put]) ha
  have := Next.step hst
  simp only [put, Function.update_self, Function.update_idem] at this
  exact .single this

theorem put_touch {s : State} {i : Nat} {l : Lock} {m : Mode} {p : List Act} {h : List (Lock × Mode)}
    (ho : ∀ j, j ≠ i → (s.thr j).held = []) (hl : ∀ m', (l, m') ∉ h) :
    Reach (put s i (touch l m ++ p) h) (put s i p h) :=
  (put_acq (p := .rel l :: p) ho hl).trans put_rel

theorem put_start (cs : Nat → List Call) (i : Nat) {x : Call} {xs : List Call} (h : cs i = x :: xs) :
    start cs = put (start cs) i (trace x ++ xs.flatMap trace) [] := by
  unfold put
  have : (⟨trace x ++ xs.flatMap trace, []⟩ : Thread) = (start cs).thr i := by
    simp [start, thread, h]
  rw [this, Function.update_eq_self]

theorem from_start {cs : Nat → List Call} {x : Call} {xs : List Call} {p : List Act} {t : State} (h : cs 0 = x :: xs)
    (e : trace x ++ xs.flatMap trace = p) (hr : Reach (put (start cs) 0 p []) t) : Reach (start cs) t := by
  have := put_start cs 0 h
  rw [e] at this
  exact Eq.subst (motive := fun s => Reach s t) this.symm hr

theorem start_held (cs : Nat → List Call) (j : Nat) : ((start cs).thr j).held = [] := rfl

/-- A call that begins with an exclusive use. -/
theorem exclusive_first {x : Call} (h : x.exclusive) : ∃ p, trace x = .acq .ai .wr :: p := by
  cases x <;> first | exact h.elim | exact ⟨_, rfl⟩

/-- A thread that waits with the flows locked stalls all that begin with an exclusive use. -/
theorem stalls_of {cs : Nat → List Call} {c : Cond} {p : List Act} {h : List (Lock × Mode)}
    (hr : Reach (start cs) (put (start cs) 0 (.wait c :: p) h)) (hh : (Lock.ai, Mode.rd) ∈ h) : Stalls cs c := by
  refine ⟨{ put (start cs) 0 (.wait c :: p) h with avail := fun d => d ≠ c },
    hr.trans (.single (.env _)), ⟨p, by simp [put]⟩, by simp, ?_⟩
  intro j x xs hj hx he t ht
  obtain ⟨q, hq⟩ := exclusive_first he
  have hthr : (({ put (start cs) 0 (.wait c :: p) h with avail := fun d => d ≠ c } : State).thr j) = thread (cs j) := by
    simp [put, Function.update_of_ne hj, start]
  have := stuck_behind (i := 0) (j := j) (l := .ai) (m := .wr) (m' := .rd) (c := c) (p := p)
    (q := q ++ xs.flatMap trace) (s := { put (start cs) 0 (.wait c :: p) h with avail := fun d => d ≠ c })
    (by simp [put]) (by rw [hthr]; simp [thread, hx, hq]) (by simpa [put] using hh) (Or.inl rfl) (by simp) ht
  rw [this.1.2, hthr]

end Ouro.Locks
