import Verif.Spec.Unicast
import Verif.Proof.Tac

/-!
# Invariants of the unicast layer
-/

namespace Ouro.Unicast

open Ouro.Fa (Flow flowInit flowFini maxFlows)

@[simp] theorem upd_self {α : Type} (t : Nat → α) (i : Nat) (x : α) : upd t i x i = x := by simp [upd]

theorem upd_ne {α : Type} (t : Nat → α) {i j : Nat} (x : α) (h : j ≠ i) : upd t i x j = t j := by simp [upd, h]

/-- Flow `i` of member `n` has endpoint id `e`. -/
def Has (s : State) (i n : Nat) (e : BitVec 64) : Prop := s.eidOf i = some e ∧ s.home i = n ∧ i < s.next

/-- Packets of flow `i` to address `a` and endpoint `e` go to a peer, or nowhere. -/
def Points (L : Layer) (s : State) (i : Nat) (a e : BitVec 64) : Prop :=
  e = -1 ∨ ∃ j n, Peer s i j ∧ Has s j n e ∧ L.addr n = a

/-- A packet to address `a` and endpoint `e` is what its sender meant. -/
def Good (L : Layer) (s : State) (a e : BitVec 64) : Body → Prop
  | .data i b => Points L s i a e ∧ (i, b) ∈ s.written
  | .req i sAddr sEid => ∃ n, Has s i n sEid ∧ L.addr n = sAddr ∧ s.far i = a ∧ s.asker i = true
  | .reply rEid sEid => ∃ i j n m, (i, j) ∈ s.pairs ∧ Has s i n rEid ∧ L.addr n = a ∧ Has s j m sEid ∧ j ∈ s.accepted
  | .update rEid => rEid ≠ 0

/-- An entry of a flow table. -/
def FlowOk (L : Layer) (s : State) (n : Nat) (d : Option Nat) (f : Flow) : Prop :=
  (f.ctx = true → ∃ i, d = some i ∧ Has s i n f.sEid ∧ f.rAddr = s.far i ∧ Points L s i f.rAddr f.rEid ∧
    (s.asker i = false → f.rEid ≠ -1)) ∧
  (f.ctx = false → f = ⟨0, 0, 0, false⟩ ∨ f = flowFini)

structure NodeOk (L : Layer) (s : State) (n : Nat) (x : Node) : Prop where
  np : ∀ fd i, x.np1 fd = some i → i < s.next ∧ s.home i = n
  flows : ∀ fd, FlowOk L s n (x.np1 fd) (x.flows fd)
  alloc : ∀ fd i e a, x.allocating fd = some (i, e, a) →
    x.np1 fd = some i ∧ Has s i n e ∧ s.far i = a ∧ s.asker i = true ∧ (x.flows fd).ctx = false
  worker : ∀ fd j e a, x.worker = some (fd, j, e, a) →
    x.np1 fd = some j ∧ s.eidOf j = none ∧ s.asker j = false ∧ s.far j = a ∧ (x.flows fd).ctx = false ∧ 64 ≤ fd ∧ fd < 4096 ∧
      ∃ i m, (i, j) ∈ s.pairs ∧ Has s i m e ∧ L.addr m = a
  aid : ∀ fd, x.allocId = some fd → ∃ j, x.np1 fd = some j ∧ s.asker j = false ∧ x.sched fd = false
  sched : ∀ fd, x.sched fd = true → (x.flows fd).ctx = true
  closing : ∀ fd, x.closing fd = true → (x.flows fd).ctx = false ∧ x.allocating fd = none ∧
    (∀ j e a, x.worker ≠ some (fd, j, e, a)) ∧ x.allocId ≠ some fd ∧ x.np1 fd ≠ none

/-- The history is consistent. -/
structure Ghost (L : Layer) (s : State) : Prop where
  uniq : ∀ i j e, s.home i = s.home j → s.eidOf i = some e → s.eidOf j = some e → i = j
  shape : ∀ i e, s.eidOf i = some e → 64 ≤ e.toNat ∧ e ≠ -1
  old : ∀ i e, s.eidOf i = some e → i < s.next
  pairs : ∀ i j, (i, j) ∈ s.pairs → i < s.next ∧ j < s.next ∧ s.asker i = true ∧ s.asker j = false ∧
    s.far i = L.addr (s.home j) ∧ s.far j = L.addr (s.home i)

structure Inv (L : Layer) (s : State) : Prop where
  ghost : Ghost L s
  nodes : ∀ n, NodeOk L s n (s.node n)
  transit : ∀ n p, (n, p) ∈ s.transit → Good L s p.dst p.eid p.body
  cmds : ∀ n b, (n, b) ∈ s.cmds → ∃ e, Good L s (L.addr n) e b
  reading : ∀ n fd i b, (n, fd, i, b) ∈ s.reading → (s.node n).np1 fd = some i ∧ (s.node n).sched fd = true ∧ (i, b) ∈ s.written
  writing : ∀ n fd i b, (n, fd, i, b) ∈ s.writing → (i, b) ∈ s.written ∧
    ∃ j, Peer s i j ∧ ((s.node n).np1 fd = some j ∨ (s.node n).np1 fd = none)
  updating : ∀ n fd, (n, fd) ∈ s.updating → ((s.node n).flows fd).rEid ≠ 0
  ring : ∀ i b, b ∈ s.ring i → (i, b) ∈ s.written
  delivered : ∀ j i b, (j, i, b) ∈ s.delivered → Peer s i j ∧ (i, b) ∈ s.written
  told : ∀ i, i ∈ s.told → ∃ j, (i, j) ∈ s.pairs ∧ j ∈ s.accepted
  crashed : s.crashed = false

/-- Flows and packets are at members. -/
structure Mem (L : Layer) (s : State) : Prop where
  home : ∀ i, i < s.next → s.home i < L.size
  transit : ∀ n p, (n, p) ∈ s.transit → n < L.size
  cmds : ∀ n b, (n, b) ∈ s.cmds → n < L.size

/-- The history grows. -/
structure Ext (s t : State) : Prop where
  pairs : ∀ p, p ∈ s.pairs → p ∈ t.pairs
  written : ∀ p, p ∈ s.written → p ∈ t.written
  accepted : ∀ p, p ∈ s.accepted → p ∈ t.accepted
  eid : ∀ i e, s.eidOf i = some e → t.eidOf i = some e
  home : ∀ i, i < s.next → t.home i = s.home i
  far : ∀ i, i < s.next → t.far i = s.far i
  asker : ∀ i, i < s.next → t.asker i = s.asker i
  next : s.next ≤ t.next

theorem Peer.mono {s t : State} (h : Ext s t) {i j : Nat} (p : Peer s i j) : Peer t i j :=
  p.imp (h.pairs _) (h.pairs _)

theorem Has.mono {s t : State} (h : Ext s t) {i n : Nat} {e : BitVec 64} (p : Has s i n e) : Has t i n e :=
  ⟨h.eid _ _ p.1, (h.home _ p.2.2).trans p.2.1, lt_of_lt_of_le p.2.2 h.next⟩

theorem Points.mono {L : Layer} {s t : State} (h : Ext s t) {i : Nat} {a e : BitVec 64} (p : Points L s i a e) : Points L t i a e := by
  rcases p with p | ⟨j, n, p1, p2, p3⟩
  · exact Or.inl p
  · exact Or.inr ⟨j, n, p1.mono h, p2.mono h, p3⟩

theorem Good.mono {L : Layer} {s t : State} (h : Ext s t) {a e : BitVec 64} {b : Body} (p : Good L s a e b) : Good L t a e b := by
  cases b with
  | data i b => exact ⟨p.1.mono h, h.written _ p.2⟩
  | req i sa se =>
    obtain ⟨n, h1, h2, h3, h4⟩ := p
    exact ⟨n, h1.mono h, h2, by rw [h.far _ h1.2.2, h3], by rw [h.asker _ h1.2.2, h4]⟩
  | reply re se =>
    obtain ⟨i, j, n, m, h1, h2, h3, h4, h5⟩ := p
    exact ⟨i, j, n, m, h.pairs _ h1, h2.mono h, h3, h4.mono h, h.accepted _ h5⟩
  | update re => exact p

theorem FlowOk.mono {L : Layer} {s t : State} (h : Ext s t) {n : Nat} {d : Option Nat} {f : Flow} (p : FlowOk L s n d f) :
    FlowOk L t n d f := by
  refine ⟨fun hc => ?_, p.2⟩
  obtain ⟨i, h1, h2, h3, h4, h5⟩ := p.1 hc
  exact ⟨i, h1, h2.mono h, by rw [h.far _ h2.2.2, h3], h4.mono h, by rw [h.asker _ h2.2.2]; exact h5⟩

theorem NodeOk.mono {L : Layer} {s t : State} (h : Ext s t) {n : Nat} {x : Node}
    (he : ∀ j, j < s.next → s.home j = n → s.eidOf j = none → (∀ fd e a, x.worker ≠ some (fd, j, e, a)) ∨ t.eidOf j = none)
    (p : NodeOk L s n x) : NodeOk L t n x where
  np := fun fd i hi => by
    obtain ⟨h1, h2⟩ := p.np fd i hi
    exact ⟨lt_of_lt_of_le h1 h.next, (h.home _ h1).trans h2⟩
  flows := fun fd => (p.flows fd).mono h
  alloc := fun fd i e a hh => by
    obtain ⟨h1, h2, h3, h4, h5⟩ := p.alloc fd i e a hh
    exact ⟨h1, h2.mono h, by rw [h.far _ h2.2.2, h3], by rw [h.asker _ h2.2.2, h4], h5⟩
  worker := fun fd j e a hh => by
    obtain ⟨h1, h2, h3, h4, h5, h6, h7, i, m, h8, h9, h10⟩ := p.worker fd j e a hh
    have hj := p.np _ _ h1
    refine ⟨h1, ?_, by rw [h.asker _ hj.1, h3], by rw [h.far _ hj.1, h4], h5, h6, h7, i, m, h.pairs _ h8, h9.mono h, h10⟩
    rcases he j hj.1 hj.2 h2 with h' | h'
    · exact absurd hh (h' fd e a)
    · exact h'
  aid := fun fd hh => by
    obtain ⟨j, h1, h2, h3⟩ := p.aid fd hh
    exact ⟨j, h1, by rw [h.asker _ (p.np _ _ h1).1, h2], h3⟩
  sched := p.sched
  closing := p.closing

theorem Ext.refl (s : State) : Ext s s :=
  ⟨fun _ h => h, fun _ h => h, fun _ h => h, fun _ _ h => h, fun _ _ => rfl, fun _ _ => rfl, fun _ _ => rfl, le_rfl⟩

/-! ### Endpoint ids -/

theorem genEid_toNat (L : Layer) {fd : Nat} (h : fd < 4096) (r : BitVec 32) :
    (genEid L fd (some r)).toNat = r.toNat * 2 ^ 32 + fd := by
  have hr := r.isLt
  simp only [genEid, BitVec.toNat_add, BitVec.toNat_shiftLeft, BitVec.toNat_setWidth, BitVec.toNat_ofNat, Nat.shiftLeft_eq]
  omega

theorem genEid_shape (L : Layer) {fd : Nat} (h1 : 64 ≤ fd) (h2 : fd < 4096) {rnd : Option (BitVec 32)} (hr : rnd ≠ none) :
    64 ≤ (genEid L fd rnd).toNat ∧ genEid L fd rnd ≠ -1 := by
  cases rnd with
  | none => exact absurd rfl hr
  | some r =>
    have h := genEid_toNat L h2 r
    have hlt := r.isLt
    refine ⟨by omega, fun e => ?_⟩
    rw [e] at h
    have : (-1 : BitVec 64).toNat = 2 ^ 64 - 1 := by decide
    omega

theorem eidToFd_some {x : Node} {e : BitVec 64} {fd : Nat} (h : eidToFd x e = some fd) : (x.flows fd).sEid = e ∧ e ≠ -1 := by
  simp only [eidToFd] at h
  split at h
  · cases h
  · rename_i hn
    split at h
    · rename_i he
      simp only [Option.some.injEq] at h
      rw [h] at he
      refine ⟨he, fun h1 => hn (Or.inl ?_)⟩
      rw [h1]; decide
    · cases h

theorem Points.peer {L : Layer} (hL : L.Ok) {s : State} (hm : Mem L s) (hg : Ghost L s) {i j n : Nat} {e : BitVec 64} (h : Points L s i (L.addr n) e)
    (hj : Has s j n e) : Peer s i j := by
  rcases h with h | ⟨k, m, h1, h2, h3⟩
  · exact absurd h (hg.shape _ _ hj.1).2
  · have hm := hL.inj _ _ (h2.2.1 ▸ hm.home _ h2.2.2) (hj.2.1 ▸ hm.home _ hj.2.2) h3
    have : k = j := hg.uniq k j e (by rw [h2.2.1, hj.2.1, hm]) h2.1 hj.1
    exact this ▸ h1

/-- A live endpoint id finds its flow. -/
theorem NodeOk.found {L : Layer} {s : State} {n : Nat} {x : Node} (h : NodeOk L s n x) {e : BitVec 64} {fd : Nat}
    (he : e ≠ 0) (hf : eidToFd x e = some fd) : (x.flows fd).ctx = true ∧ ∃ i, x.np1 fd = some i ∧ Has s i n e ∧
      (x.flows fd).rAddr = s.far i := by
  obtain ⟨h1, h2⟩ := eidToFd_some hf
  have hc : (x.flows fd).ctx = true := by
    by_contra hc
    rcases (h.flows fd).2 (by simpa using hc) with h3 | h3 <;> rw [h3] at h1
    · exact he h1.symm
    · exact h2 h1.symm
  obtain ⟨i, h3, h4, h5, -⟩ := (h.flows fd).1 hc
  exact ⟨hc, i, h3, h1 ▸ h4, h5⟩

theorem dtWrite_some {L : Layer} {n : Nat} {hop : Option Nat} {dst eid : BitVec 64} {b : Body} {p : Nat × Pkt}
    (h : dtWrite L n hop dst eid b = some p) : dst ≠ 0 ∧ p.2.dst = dst ∧ p.2.eid = eid ∧ p.2.body = b := by
  cases hop with
  | none => cases h
  | some m =>
    simp only [dtWrite] at h
    split at h
    · cases h
    · rename_i hn
      cases h
      exact ⟨fun e => hn (Or.inr e), rfl, rfl, rfl⟩

theorem mem_post {l : List (Nat × Pkt)} {o : Option (Nat × Pkt)} {p : Nat × Pkt} (h : p ∈ post l o) : p ∈ l ∨ o = some p := by
  cases o with
  | none => exact Or.inl h
  | some q =>
    simp only [post, List.mem_append, List.mem_singleton] at h
    exact h.imp id (fun e => by rw [e])

/-! ### Steps -/

theorem inv_init (L : Layer) : Inv L init where
  ghost := ⟨fun _ _ _ _ h => (by cases h), fun _ _ h => (by cases h), fun _ _ h => (by cases h), fun _ _ h => (by cases h)⟩
  nodes := fun n => {
    np := fun _ _ h => by cases h
    flows := fun _ => ⟨fun h => (Bool.noConfusion h), fun _ => Or.inl rfl⟩
    alloc := fun _ _ _ _ h => by cases h
    worker := fun _ _ _ _ h => by cases h
    aid := fun _ h => by cases h
    sched := fun _ h => (Bool.noConfusion h)
    closing := fun _ h => (Bool.noConfusion h) }
  transit := fun _ _ h => by cases h
  cmds := fun _ _ h => by cases h
  reading := fun _ _ _ _ h => by cases h
  writing := fun _ _ _ _ h => by cases h
  updating := fun _ _ h => by cases h
  ring := fun _ _ h => by cases h
  delivered := fun _ _ _ h => by cases h
  told := fun _ h => by cases h
  crashed := rfl

/-- A step that changes one member, and the history. -/
theorem Inv.change {L : Layer} {s t : State} (h : Inv L s) (n : Nat) (x : Node) (hx : Ext s t) (hn : t.node = upd s.node n x)
    (hg : Ghost L t) (ok : NodeOk L t n x)
    (he : ∀ m, m ≠ n → ∀ j, s.home j = m → j < s.next → s.eidOf j = none → t.eidOf j = none)
    (ht : ∀ m p, (m, p) ∈ t.transit → (m, p) ∈ s.transit ∨ Good L t p.dst p.eid p.body)
    (hc : ∀ c, c ∈ t.cmds → c ∈ s.cmds)
    (hr : t.reading = s.reading) (hr' : ∀ fd i b, (n, fd, i, b) ∈ s.reading → x.np1 fd = some i ∧ x.sched fd = true)
    (hw : t.writing = s.writing)
    (hw' : ∀ fd i b j, (n, fd, i, b) ∈ s.writing → ((s.node n).np1 fd = some j ∨ (s.node n).np1 fd = none) →
      (x.np1 fd = some j ∨ x.np1 fd = none))
    (hu : t.updating = s.updating) (hu' : ∀ fd, ((s.node n).flows fd).rEid ≠ 0 → (x.flows fd).rEid ≠ 0)
    (hb : t.ring = s.ring) (hd : t.delivered = s.delivered) (hcr : t.crashed = s.crashed)
    (hto : ∀ i, i ∈ t.told → i ∈ s.told ∨ ∃ j, (i, j) ∈ t.pairs ∧ j ∈ t.accepted) : Inv L t where
  ghost := hg
  nodes := fun m => by
    by_cases hm : m = n
    · subst hm; rw [hn, upd_self]; exact ok
    · rw [hn, upd_ne _ _ hm]
      exact (h.nodes m).mono hx (fun j hj hh hj' => Or.inr (he m hm j hh hj hj'))
  transit := fun m p hp => by
    rcases ht m p hp with h' | h'
    · exact (h.transit m p h').mono hx
    · exact h'
  cmds := fun m b hb => by
    obtain ⟨e, he⟩ := h.cmds m b (hc _ hb)
    exact ⟨e, he.mono hx⟩
  reading := fun m fd i b hh => by
    rw [hr] at hh
    obtain ⟨h1, h2, h3⟩ := h.reading m fd i b hh
    by_cases hm : m = n
    · subst hm; rw [hn, upd_self]; exact ⟨(hr' _ _ _ hh).1, (hr' _ _ _ hh).2, hx.written _ h3⟩
    · rw [hn, upd_ne _ _ hm]; exact ⟨h1, h2, hx.written _ h3⟩
  writing := fun m fd i b hh => by
    rw [hw] at hh
    obtain ⟨h1, j, h2, h3⟩ := h.writing m fd i b hh
    refine ⟨hx.written _ h1, j, h2.mono hx, ?_⟩
    by_cases hm : m = n
    · subst hm; rw [hn, upd_self]; exact hw' _ _ _ _ hh h3
    · rw [hn, upd_ne _ _ hm]; exact h3
  updating := fun m fd hh => by
    rw [hu] at hh
    have h1 := h.updating m fd hh
    by_cases hm : m = n
    · subst hm; rw [hn, upd_self]; exact hu' _ h1
    · rw [hn, upd_ne _ _ hm]; exact h1
  ring := fun i b hh => by rw [hb] at hh; exact hx.written _ (h.ring i b hh)
  delivered := fun j i b hh => by
    rw [hd] at hh
    obtain ⟨h1, h2⟩ := h.delivered j i b hh
    exact ⟨h1.mono hx, hx.written _ h2⟩
  told := fun i hi => by
    rcases hto i hi with h' | h'
    · obtain ⟨j, h1, h2⟩ := h.told i h'
      exact ⟨j, hx.pairs _ h1, hx.accepted _ h2⟩
    · exact h'
  crashed := hcr.trans h.crashed

theorem fdOk_iff {x : Node} {fd : Nat} (h : fdOk x fd = true) : 64 ≤ fd ∧ fd < 4096 ∧ x.np1 fd = none := by
  simp only [fdOk, maxFlows, Bool.and_eq_true, decide_eq_true_eq, Option.isNone_iff_eq_none, and_assoc] at h
  exact ⟨h.1, of_decide_eq_true h.2.1, h.2.2⟩

/-- A free descriptor is in nobody's hands. -/
theorem NodeOk.free {L : Layer} {s : State} {n : Nat} {x : Node} (h : NodeOk L s n x) {fd : Nat} (hf : x.np1 fd = none) :
    (x.flows fd).ctx = false ∧ x.allocating fd = none ∧ (∀ j e a, x.worker ≠ some (fd, j, e, a)) ∧ x.allocId ≠ some fd ∧
      x.sched fd = false ∧ x.closing fd = false := by
  have hc : (x.flows fd).ctx = false := by
    by_contra hc
    obtain ⟨i, h1, -⟩ := (h.flows fd).1 (by simpa using hc)
    rw [hf] at h1; cases h1
  refine ⟨hc, ?_, ?_, ?_, ?_, ?_⟩
  · cases ha : x.allocating fd with
    | none => rfl
    | some v =>
      obtain ⟨i, e, a⟩ := v
      have := (h.alloc fd i e a ha).1
      rw [hf] at this; cases this
  · intro j e a hw
    have := (h.worker fd j e a hw).1
    rw [hf] at this; cases this
  · intro hw
    obtain ⟨j, h1, -⟩ := h.aid fd hw
    rw [hf] at h1; cases h1
  · by_contra hs
    have := h.sched fd (by simpa using hs)
    rw [hc] at this; cases this
  · by_contra hs
    exact (h.closing fd (by simpa using hs)).2.2.2.2 hf

/-- A new flow gets a free descriptor. -/
theorem NodeOk.assign {L : Layer} {s t : State} {n : Nat} {x : Node} (h : NodeOk L s n x) (hx : Ext s t)
    (he : ∀ j, j < s.next → s.eidOf j = none → t.eidOf j = none) {fd : Nat} (hf : x.np1 fd = none) {i : Nat} (hi : i < t.next)
    (hh : t.home i = n) : NodeOk L t n { x with np1 := upd x.np1 fd (some i) } := by
  have h' := h.mono hx (fun j hj _ hj' => Or.inr (he j hj hj'))
  obtain ⟨f1, f2, f3, f4, f5, f6⟩ := h'.free hf
  refine { np := ?_, flows := ?_, alloc := ?_, worker := ?_, aid := ?_, sched := h'.sched, closing := ?_ }
  · intro d j hj
    by_cases hd : d = fd
    · subst hd; simp only [upd_self, Option.some.injEq] at hj; subst hj; exact ⟨hi, hh⟩
    · simp only [upd_ne _ _ hd] at hj; exact h'.np d j hj
  · intro d
    by_cases hd : d = fd
    · subst hd
      exact ⟨fun hc => (by rw [f1] at hc; cases hc), fun _ => (h'.flows d).2 f1⟩
    · simp only [upd_ne _ _ hd]; exact h'.flows d
  · intro d j e a hj
    by_cases hd : d = fd
    · subst hd; exact absurd hj (by simp [f2])
    · simp only [upd_ne _ _ hd]; exact h'.alloc d j e a hj
  · intro d j e a hj
    by_cases hd : d = fd
    · subst hd; exact absurd hj (f3 j e a)
    · simp only [upd_ne _ _ hd]; exact h'.worker d j e a hj
  · intro d hj
    by_cases hd : d = fd
    · subst hd; exact absurd hj f4
    · simp only [upd_ne _ _ hd]; exact h'.aid d hj
  · intro d hj
    have hd : d ≠ fd := fun e => by subst e; rw [f6] at hj; cases hj
    obtain ⟨c1, c2, c3, c4, c5⟩ := h'.closing d hj
    exact ⟨c1, c2, c3, c4, by simpa only [upd_ne _ _ hd] using c5⟩

theorem inv_alloc {L : Layer} {s t : State} {n fd : Nat} {rnd : Option (BitVec 32)} {dst : BitVec 64} {hop : Option Nat}
    (h : Inv L s) (hp : Proper L s (.alloc n fd rnd dst hop)) (hs : stepAlloc L s n fd rnd dst hop = some t) : Inv L t := by
  obtain ⟨hr, hfr, hnw, -, -⟩ := hp
  simp only [stepAlloc] at hs
  split at hs
  swap
  · cases hs
  rename_i hfd
  obtain ⟨d1, d2, d3⟩ := fdOk_iff hfd
  have hnx : s.eidOf s.next = none := by
    by_contra hc
    obtain ⟨e, he⟩ := Option.ne_none_iff_exists'.1 hc
    exact absurd (h.ghost.old _ _ he) (lt_irrefl _)
  split at hs <;> rename_i hw
  · have hx : Ext s t := by
      cases hs
      exact ⟨fun _ h => h, fun _ h => h, fun _ h => h, fun _ _ h => h, fun i hi => upd_ne _ _ hi.ne, fun i hi => upd_ne _ _ hi.ne,
        fun i hi => upd_ne _ _ hi.ne, Nat.le_succ _⟩
    cases hs
    refine h.change n _ hx rfl ?_ ((h.nodes n).assign hx (fun j _ hj => hj) d3 (Nat.lt_succ_self _) (upd_self _ _ _))
      (fun _ _ _ _ _ h => h) (fun _ _ h => Or.inl h) (fun _ h => h) rfl ?_ rfl ?_ rfl (fun _ h => h) rfl rfl rfl (fun _ h => Or.inl h)
    · refine ⟨fun i j e hh hi hj => ?_, h.ghost.shape, fun i e hi => Nat.lt_succ_of_lt (h.ghost.old i e hi), fun i j hij => ?_⟩
      · have h1 := h.ghost.old _ _ hi
        have h2 := h.ghost.old _ _ hj
        have e1 := hx.home i h1
        have e2 := hx.home j h2
        exact h.ghost.uniq i j e (e1.symm.trans (hh.trans e2)) hi hj
      · obtain ⟨p1, p2, p3, p4, p5, p6⟩ := h.ghost.pairs i j hij
        refine ⟨Nat.lt_succ_of_lt p1, Nat.lt_succ_of_lt p2, (hx.asker i p1).trans p3, (hx.asker j p2).trans p4, ?_, ?_⟩
        · rw [hx.far i p1, hx.home j p2]; exact p5
        · rw [hx.far j p2, hx.home i p1]; exact p6
    · intro d i b hh
      obtain ⟨h1, h2, -⟩ := h.reading _ _ _ _ hh
      have hd : d ≠ fd := fun e => by rw [e, d3] at h1; cases h1
      exact ⟨by simpa only [upd_ne _ _ hd] using h1, h2⟩
    · intro d i b j hh hj
      have hd : d ≠ fd := fun e => hnw i b (e ▸ hh)
      simpa only [upd_ne _ _ hd] using hj
  · rename_i p
    obtain ⟨w0, w1, w2, w3⟩ := dtWrite_some hw
    have hsh := genEid_shape L d1 d2 hr
    have hx : Ext s t := by
      cases hs
      exact ⟨fun _ h => h, fun _ h => h, fun _ h => h, fun i e hi => by
          have := h.ghost.old _ _ hi
          exact (upd_ne _ _ this.ne).trans hi, fun i hi => upd_ne _ _ hi.ne, fun i hi => upd_ne _ _ hi.ne,
        fun i hi => upd_ne _ _ hi.ne, Nat.le_succ _⟩
    have hhas : Has t s.next n (genEid L fd rnd) := by
      cases hs
      exact ⟨upd_self _ _ _, upd_self _ _ _, Nat.lt_succ_self _⟩
    cases hs
    have ha := (h.nodes n).assign hx (fun j hj hj' => (upd_ne _ _ hj.ne).trans hj') d3 (Nat.lt_succ_self _) (upd_self _ _ _)
    obtain ⟨f1, f2, f3, f4, f5, f6⟩ := (h.nodes n).free d3
    refine h.change n _ hx rfl ?_ ?_ (fun _ _ j _ hj hj' => (upd_ne _ _ hj.ne).trans hj') ?_ (fun _ h => h) rfl ?_ rfl ?_ rfl (fun _ h => h) rfl rfl rfl
      (fun _ h => Or.inl h)
    · have hold : ∀ i e, upd s.eidOf s.next (some (genEid L fd rnd)) i = some e → i = s.next ∧ e = genEid L fd rnd ∨
          i ≠ s.next ∧ s.eidOf i = some e := by
        intro i e hi
        by_cases hc : i = s.next
        · subst hc
          simp only [upd_self, Option.some.injEq] at hi
          exact Or.inl ⟨rfl, hi.symm⟩
        · rw [upd_ne _ _ hc] at hi; exact Or.inr ⟨hc, hi⟩
      refine ⟨fun i j e hh hi hj => ?_, fun i e hi => ?_, fun i e hi => ?_, fun i j hij => ?_⟩
      · rcases hold i e hi with ⟨a1, a2⟩ | ⟨a1, a2⟩ <;> rcases hold j e hj with ⟨b1, b2⟩ | ⟨b1, b2⟩
        · rw [a1, b1]
        · have e2 := hx.home j (h.ghost.old _ _ b2)
          subst a1
          have : s.home j = n := e2.symm.trans (hh.symm.trans (upd_self _ _ _))
          exact absurd (a2 ▸ b2) (hfr j this)
        · have e2 := hx.home i (h.ghost.old _ _ a2)
          subst b1
          have : s.home i = n := e2.symm.trans (hh.trans (upd_self _ _ _))
          exact absurd (b2 ▸ a2) (hfr i this)
        · exact h.ghost.uniq i j e ((hx.home i (h.ghost.old _ _ a2)).symm.trans (hh.trans (hx.home j (h.ghost.old _ _ b2)))) a2 b2
      · rcases hold i e hi with ⟨a1, a2⟩ | ⟨a1, a2⟩
        · rw [a2]; exact hsh
        · exact h.ghost.shape i e a2
      · rcases hold i e hi with ⟨a1, a2⟩ | ⟨a1, a2⟩
        · rw [a1]; exact Nat.lt_succ_self _
        · exact Nat.lt_succ_of_lt (h.ghost.old i e a2)
      · obtain ⟨p1, p2, p3, p4, p5, p6⟩ := h.ghost.pairs i j hij
        refine ⟨Nat.lt_succ_of_lt p1, Nat.lt_succ_of_lt p2, (hx.asker i p1).trans p3, (hx.asker j p2).trans p4, ?_, ?_⟩
        · rw [hx.far i p1, hx.home j p2]; exact p5
        · rw [hx.far j p2, hx.home i p1]; exact p6
    · refine { np := ha.np, flows := ha.flows, alloc := ?_, worker := ha.worker, aid := ha.aid, sched := ha.sched, closing := ?_ }
      · intro d i e a hd
        by_cases hc : d = fd
        · subst hc
          simp only [upd_self, Option.some.injEq, Prod.mk.injEq] at hd
          obtain ⟨rfl, rfl, rfl⟩ := hd
          exact ⟨upd_self _ _ _, hhas, upd_self _ _ _, upd_self _ _ _, f1⟩
        · simp only [upd_ne _ _ hc] at hd; exact ha.alloc d i e a hd
      · intro d hd
        have hc : d ≠ fd := fun e => by subst e; rw [f6] at hd; cases hd
        obtain ⟨c1, c2, c3, c4, c5⟩ := ha.closing d hd
        exact ⟨c1, by simpa only [upd_ne _ _ hc] using c2, c3, c4, c5⟩
    · intro m q hq
      rcases List.mem_append.1 hq with h' | h'
      · exact Or.inl h'
      · right
        have hq' : (m, q) = p := by simpa using h'
        rw [← hq'] at w1 w2 w3
        rw [w1, w2, w3]
        exact ⟨n, hhas, rfl, upd_self _ _ _, upd_self _ _ _⟩
    · intro d i b hh
      obtain ⟨h1, h2, -⟩ := h.reading _ _ _ _ hh
      have hd : d ≠ fd := fun e => by rw [e, d3] at h1; cases h1
      exact ⟨by simpa only [upd_ne _ _ hd] using h1, h2⟩
    · intro d i b j hh hj
      have hd : d ≠ fd := fun e => hnw i b (e ▸ hh)
      simpa only [upd_ne _ _ hd] using hj

theorem inv_register {L : Layer} {s t : State} {n fd : Nat} (h : Inv L s) (hs : stepRegister s n fd = some t) : Inv L t := by
  simp only [stepRegister] at hs
  split at hs
  · cases hs
  rename_i v i eid dst ha
  have ho := h.nodes n
  obtain ⟨a1, a2, a3, a4, a5⟩ := ho.alloc fd i eid dst ha
  cases hs
  have hx := Ext.refl s
  refine h.change n _ ⟨fun _ h => h, fun _ h => h, fun _ h => h, fun _ _ h => h, fun _ _ => rfl, fun _ _ => rfl, fun _ _ => rfl, le_rfl⟩ rfl
    ⟨h.ghost.uniq, h.ghost.shape, h.ghost.old, h.ghost.pairs⟩ ?_ (fun _ _ _ _ _ h => h) (fun _ _ h => Or.inl h) (fun _ h => h) rfl ?_ rfl (fun _ _ _ _ _ h => h) rfl ?_ rfl rfl rfl
    (fun _ h => Or.inl h)
  · refine { np := ho.np, flows := ?_, alloc := ?_, worker := ?_, aid := ho.aid, sched := ?_, closing := ?_ }
    · intro d
      by_cases hd : d = fd
      · subst hd
        simp only [upd_self]
        refine ⟨fun _ => ⟨i, a1, a2, a3.symm, Or.inl rfl, fun hc => ?_⟩, fun hc => (Bool.noConfusion hc)⟩
        have hc' : s.asker i = false := hc
        rw [a4] at hc'; cases hc'
      · simp only [upd_ne _ _ hd]; exact ho.flows d
    · intro d j e a hd
      by_cases hc : d = fd
      · subst hc; simp only [upd_self] at hd; cases hd
      · simp only [upd_ne _ _ hc] at hd ⊢; exact ho.alloc d j e a hd
    · intro d j e a hd
      obtain ⟨w1, w2, w3, w4⟩ := ho.worker d j e a hd
      have hc : d ≠ fd := fun hc => by
        subst hc
        rw [a1] at w1; cases w1
        rw [a4] at w3; cases w3
      simp only [upd_ne _ _ hc]
      exact ⟨w1, w2, w3, w4⟩
    · intro d hd
      by_cases hc : d = fd
      · subst hc; simp only [upd_self]; rfl
      · simp only [upd_ne _ _ hc]; exact ho.sched d hd
    · intro d hd
      obtain ⟨c1, c2, c3⟩ := ho.closing d hd
      have hc : d ≠ fd := fun hc => by subst hc; rw [ha] at c2; cases c2
      simp only [upd_ne _ _ hc]
      exact ⟨c1, c2, c3⟩
  · intro d j b hh
    obtain ⟨r1, r2, -⟩ := h.reading _ _ _ _ hh
    exact ⟨r1, r2⟩
  · intro d hd
    by_cases hc : d = fd
    · subst hc; simp only [upd_self]; decide
    · simp only [upd_ne _ _ hc]; exact hd

theorem mem_of_getElem? {α : Type} {l : List α} {k : Nat} {x : α} (h : l[k]? = some x) : x ∈ l := List.mem_of_getElem? h

theorem inv_request {L : Layer} {s t : State} {n k : Nat} {fd : Option Nat} (h : Inv L s)
    (hp : Proper L s (.request n k fd)) (hs : stepRequest s n k fd = some t) : Inv L t := by
  simp only [stepRequest] at hs
  split at hs
  swap
  · cases hs
  rename_i hidle
  split at hs
  swap
  · cases hs
  rename_i m src sAddr sEid hk
  split at hs
  swap
  · cases hs
  rename_i hm
  subst hm
  have hmem := List.mem_of_getElem? hk
  obtain ⟨e, nn, g1, g2, g3, g4⟩ := h.cmds _ _ hmem
  split at hs
  · cases hs
    exact ⟨⟨h.ghost.uniq, h.ghost.shape, h.ghost.old, h.ghost.pairs⟩,
      (fun n => let o := h.nodes n; ⟨o.np, o.flows, o.alloc, o.worker, o.aid, o.sched, o.closing⟩), h.transit, fun n b hb => h.cmds n b (List.mem_of_mem_eraseIdx hb), h.reading, h.writing, h.updating, h.ring,
      h.delivered, h.told, h.crashed⟩
  · rename_i fd
    split at hs
    swap
    · cases hs
    rename_i hfd
    obtain ⟨d1, d2, d3⟩ := fdOk_iff hfd
    have hnw := hp fd rfl
    have ho := h.nodes m
    have hx : Ext s t := by
      cases hs
      exact ⟨fun _ h => List.mem_append_left _ h, fun _ h => h, fun _ h => h, fun _ _ h => h, fun i hi => upd_ne _ _ hi.ne,
        fun i hi => upd_ne _ _ hi.ne, fun i hi => upd_ne _ _ hi.ne, Nat.le_succ _⟩
    have hnx : s.eidOf s.next = none := by
      by_contra hc
      obtain ⟨e, he⟩ := Option.ne_none_iff_exists'.1 hc
      exact absurd (h.ghost.old _ _ he) (lt_irrefl _)
    have he : ∀ j, s.eidOf j = none → t.eidOf j = none := by
      cases hs; exact fun _ h => h
    have ha : NodeOk L t m { s.node m with np1 := upd (s.node m).np1 fd (some s.next) } :=
      ho.assign hx (fun j _ hj => he j hj) d3 (by cases hs; exact Nat.lt_succ_self _) (by cases hs; exact upd_self _ _ _)
    obtain ⟨f1, f2, f3, f4, f5, f6⟩ := ho.free d3
    have hsrc := g1.2.2
    have g1' := g1.mono hx
    cases hs
    refine h.change m _ hx rfl ?_ ?_ (fun _ _ _ _ _ h => h) (fun _ _ h => Or.inl h) (fun _ h => List.mem_of_mem_eraseIdx h) rfl ?_ rfl ?_ rfl
      (fun _ h => h) rfl rfl rfl (fun _ h => Or.inl h)
    · refine ⟨fun i j e hh hi hj => ?_, h.ghost.shape, fun i e hi => Nat.lt_succ_of_lt (h.ghost.old i e hi), fun i j hij => ?_⟩
      · exact h.ghost.uniq i j e ((hx.home i (h.ghost.old _ _ hi)).symm.trans (hh.trans (hx.home j (h.ghost.old _ _ hj)))) hi hj
      · rcases List.mem_append.1 hij with hij | hij
        · obtain ⟨p1, p2, p3, p4, p5, p6⟩ := h.ghost.pairs i j hij
          refine ⟨Nat.lt_succ_of_lt p1, Nat.lt_succ_of_lt p2, (hx.asker i p1).trans p3, (hx.asker j p2).trans p4, ?_, ?_⟩
          · rw [hx.far i p1, hx.home j p2]; exact p5
          · rw [hx.far j p2, hx.home i p1]; exact p6
        · have hij' : i = src ∧ j = s.next := by simpa using hij
          obtain ⟨rfl, rfl⟩ := hij'
          refine ⟨Nat.lt_succ_of_lt hsrc, Nat.lt_succ_self _, (hx.asker i hsrc).trans g4, upd_self _ _ _, ?_, ?_⟩
          · rw [hx.far i hsrc, g3]
            exact congrArg L.addr (upd_self s.home s.next m).symm
          · rw [hx.home i hsrc, g1.2.1, g2]; exact upd_self _ _ _
    · refine { np := ha.np, flows := ha.flows, alloc := ha.alloc, worker := ?_, aid := ?_, sched := ha.sched, closing := ?_ }
      · intro d j e a hd
        simp only [Option.some.injEq, Prod.mk.injEq] at hd
        obtain ⟨rfl, rfl, rfl, rfl⟩ := hd
        exact ⟨upd_self _ _ _, hnx, upd_self _ _ _, upd_self _ _ _, f1, d1, d2, src, nn, by simp [State.setNode], g1', g2⟩
      · intro d hd
        simp only [Option.some.injEq] at hd
        subst hd
        exact ⟨s.next, upd_self _ _ _, upd_self _ _ _, f5⟩
      · intro d hd
        have hc : d ≠ fd := fun e => by subst e; rw [f6] at hd; cases hd
        obtain ⟨c1, c2, c3, c4, c5⟩ := ha.closing d hd
        refine ⟨c1, c2, ?_, ?_, c5⟩
        · intro j e a hw
          simp only [Option.some.injEq, Prod.mk.injEq] at hw
          exact hc hw.1.symm
        · intro hw
          simp only [Option.some.injEq] at hw
          exact hc hw.symm
    · intro d i b hh
      obtain ⟨h1, h2, -⟩ := h.reading _ _ _ _ hh
      have hd : d ≠ fd := fun e => by rw [e, d3] at h1; cases h1
      exact ⟨by simpa only [upd_ne _ _ hd] using h1, h2⟩
    · intro d i b j hh hj
      have hd : d ≠ fd := fun e => hnw i b (e ▸ hh)
      simpa only [upd_ne _ _ hd] using hj

theorem inv_setup {L : Layer} {s t : State} {n : Nat} {rnd : Option (BitVec 32)} (h : Inv L s)
    (hp : Proper L s (.setup n rnd)) (hs : stepSetup L s n rnd = some t) : Inv L t := by
  obtain ⟨hr, hfr⟩ := hp
  simp only [stepSetup] at hs
  split at hs
  · cases hs
  rename_i v fd j sEid sAddr hw
  have ho := h.nodes n
  obtain ⟨w1, w2, w3, w4, w5, w6, w7, i, m, w8, w9, w10⟩ := ho.worker _ _ _ _ hw
  have hfr := hfr _ _ _ _ hw
  have hsh := genEid_shape L w6 w7 hr
  have hj := ho.np _ _ w1
  have hx : Ext s t := by
    cases hs
    exact ⟨fun _ h => h, fun _ h => h, fun _ h => h, fun i e hi => (upd_ne _ _ (fun e => by rw [e, w2] at hi; cases hi)).trans hi,
      fun _ _ => rfl, fun _ _ => rfl, fun _ _ => rfl, le_rfl⟩
  have hhas : Has t j n (genEid L fd rnd) := by
    cases hs
    exact ⟨upd_self _ _ _, hj.2, hj.1⟩
  have w9' := w9.mono hx
  cases hs
  have hold : ∀ i e, upd s.eidOf j (some (genEid L fd rnd)) i = some e → i = j ∧ e = genEid L fd rnd ∨
      i ≠ j ∧ s.eidOf i = some e := by
    intro i e hi
    by_cases hc : i = j
    · subst hc
      simp only [upd_self, Option.some.injEq] at hi
      exact Or.inl ⟨rfl, hi.symm⟩
    · rw [upd_ne _ _ hc] at hi; exact Or.inr ⟨hc, hi⟩
  refine h.change n _ hx rfl ?_ ?_ ?_ (fun _ _ h => Or.inl h) (fun _ h => h) rfl ?_ rfl (fun _ _ _ _ _ h => h) rfl ?_ rfl rfl rfl
    (fun _ h => Or.inl h)
  · refine ⟨fun a b e hh ha hb => ?_, fun i e hi => ?_, fun i e hi => ?_, h.ghost.pairs⟩
    · rcases hold a e ha with ⟨a1, a2⟩ | ⟨a1, a2⟩ <;> rcases hold b e hb with ⟨b1, b2⟩ | ⟨b1, b2⟩
      · rw [a1, b1]
      · subst a1
        have : s.home b = n := Eq.trans (Eq.symm hh) hj.2
        exact absurd (a2 ▸ b2) (hfr b this)
      · subst b1
        have : s.home a = n := Eq.trans hh hj.2
        exact absurd (b2 ▸ a2) (hfr a this)
      · exact h.ghost.uniq a b e hh a2 b2
    · rcases hold i e hi with ⟨a1, a2⟩ | ⟨a1, a2⟩
      · rw [a2]; exact hsh
      · exact h.ghost.shape i e a2
    · rcases hold i e hi with ⟨a1, a2⟩ | ⟨a1, a2⟩
      · rw [a1]; exact hj.1
      · exact h.ghost.old i e a2
  · refine { np := ho.np, flows := ?_, alloc := ?_, worker := fun _ _ _ _ h => (by cases h), aid := ho.aid, sched := ?_, closing := ?_ }
    · intro d
      by_cases hd : d = fd
      · subst hd
        simp only [upd_self]
        refine ⟨fun _ => ⟨j, w1, hhas, w4.symm, Or.inr ⟨i, m, Or.inr w8, w9', w10⟩, fun _ => (h.ghost.shape _ _ w9.1).2⟩,
          fun hc => (Bool.noConfusion hc)⟩
      · simp only [upd_ne _ _ hd]; exact (ho.flows d).mono hx
    · intro d a e b hd
      obtain ⟨a1, a2, a3, a4, a5⟩ := ho.alloc d a e b hd
      have hc : d ≠ fd := fun hc => by
        subst hc
        rw [a1] at w1; cases w1
        rw [a4] at w3; cases w3
      simp only [upd_ne _ _ hc]
      exact ⟨a1, a2.mono hx, a3, a4, a5⟩
    · intro d hd
      by_cases hc : d = fd
      · subst hc; simp only [upd_self]; rfl
      · simp only [upd_ne _ _ hc]; exact ho.sched d hd
    · intro d hd
      obtain ⟨c1, c2, c3, c4, c5⟩ := ho.closing d hd
      have hc : d ≠ fd := fun hc => by subst hc; exact c3 _ _ _ hw
      simp only [upd_ne _ _ hc]
      exact ⟨c1, c2, fun _ _ _ h => (by cases h), c4, c5⟩
  · intro m' hm k hk _ hk'
    refine (upd_ne _ _ (fun e => ?_)).trans hk'
    subst e
    exact hm (hk.symm.trans hj.2)
  · intro d k b hh
    obtain ⟨r1, r2, -⟩ := h.reading _ _ _ _ hh
    exact ⟨r1, r2⟩
  · intro d hd
    by_cases hc : d = fd
    · subst hc; simp only [upd_self]
      intro h0
      have := (h.ghost.shape _ _ w9.1).1
      rw [h0] at this
      exact absurd this (by decide)
    · simp only [upd_ne _ _ hc]; exact hd

theorem inv_respond {L : Layer} {s t : State} {n fd : Nat} {hop : Option Nat} (h : Inv L s)
    (hs : stepRespond L s n fd hop = some t) : Inv L t := by
  simp only [stepRespond] at hs
  split at hs
  swap
  · cases hs
  rename_i hid
  have ho := h.nodes n
  obtain ⟨j, b1, b2, b3⟩ := ho.aid _ hid
  split at hs <;> rename_i hw
  · cases hs
    refine h.change n _ ⟨fun _ h => h, fun _ h => h, fun _ h => h, fun _ _ h => h, fun _ _ => rfl, fun _ _ => rfl, fun _ _ => rfl, le_rfl⟩ rfl
      ⟨h.ghost.uniq, h.ghost.shape, h.ghost.old, h.ghost.pairs⟩ ?_ (fun _ _ _ _ _ h => h) (fun _ _ h => Or.inl h) (fun _ h => h) rfl ?_ rfl (fun _ _ _ _ _ h => h) rfl ?_ rfl rfl rfl
      (fun _ h => Or.inl h)
    · refine { np := ho.np, flows := ?_, alloc := ?_, worker := ?_, aid := fun _ h => (by cases h), sched := ?_, closing := ?_ }
      · intro d
        by_cases hd : d = fd
        · subst hd
          simp only [upd_self]
          exact ⟨fun hc => (Bool.noConfusion hc), fun _ => Or.inr rfl⟩
        · simp only [upd_ne _ _ hd]; exact ho.flows d
      · intro d i e a hd
        obtain ⟨a1, a2, a3, a4, a5⟩ := ho.alloc d i e a hd
        refine ⟨a1, a2, a3, a4, ?_⟩
        by_cases hc : d = fd
        · subst hc; simp only [upd_self]; rfl
        · simp only [upd_ne _ _ hc]; exact a5
      · intro d i e a hd
        obtain ⟨a1, a2, a3, a4, a5, a6⟩ := ho.worker d i e a hd
        refine ⟨a1, a2, a3, a4, ?_, a6⟩
        by_cases hc : d = fd
        · subst hc; simp only [upd_self]; rfl
        · simp only [upd_ne _ _ hc]; exact a5
      · intro d hd
        have hc : d ≠ fd := fun hc => by subst hc; rw [b3] at hd; cases hd
        simp only [upd_ne _ _ hc]; exact ho.sched d hd
      · intro d hd
        obtain ⟨c1, c2, c3, c4, c5⟩ := ho.closing d hd
        have hc : d ≠ fd := fun hc => by subst hc; exact c4 hid
        simp only [upd_ne _ _ hc]
        exact ⟨c1, c2, c3, fun h => (by cases h), c5⟩
    · intro d i b hh
      obtain ⟨r1, r2, -⟩ := h.reading _ _ _ _ hh
      exact ⟨r1, r2⟩
    · intro d hd
      by_cases hc : d = fd
      · subst hc; simp only [upd_self]; decide
      · simp only [upd_ne _ _ hc]; exact hd
  · rename_i p
    obtain ⟨q0, q1, q2, q3⟩ := dtWrite_some hw
    have hctx : ((s.node n).flows fd).ctx = true := by
      by_contra hc
      rcases (ho.flows fd).2 (by simpa using hc) with h3 | h3 <;> rw [h3] at q0
      · exact q0 rfl
      · exact q0 rfl
    obtain ⟨j', k1, k2, k3, k4, k5⟩ := (ho.flows fd).1 hctx
    have hjj : j' = j := by rw [b1] at k1; exact (Option.some.inj k1).symm
    subst hjj
    have hx : Ext s t := by
      cases hs
      exact ⟨fun _ h => h, fun _ h => h, fun _ h => List.mem_append_left _ h, fun _ _ h => h, fun _ _ => rfl, fun _ _ => rfl, fun _ _ => rfl, le_rfl⟩
    have hacc : j' ∈ t.accepted := by
      cases hs; simp [State.setNode, b1]
    have k2' := k2.mono hx
    rcases k4 with k4 | ⟨i, m, k6, k7, k8⟩
    · exact absurd k4 (k5 b2)
    have hij : (i, j') ∈ s.pairs := by
      rcases k6 with k6 | k6
      · have := (h.ghost.pairs _ _ k6).2.2.1
        rw [b2] at this; cases this
      · exact k6
    have k7' := k7.mono hx
    cases hs
    refine h.change n _ hx rfl
      ⟨h.ghost.uniq, h.ghost.shape, h.ghost.old, h.ghost.pairs⟩ ?_ (fun _ _ _ _ _ h => h) ?_ (fun _ h => h) rfl ?_ rfl (fun _ _ _ _ _ h => h) rfl (fun _ h => h) rfl rfl rfl
      (fun _ h => Or.inl h)
    · have ho' := ho.mono hx (fun _ _ _ h => Or.inr h)
      refine { np := ho'.np, flows := ho'.flows, alloc := ho'.alloc, worker := ho'.worker, aid := fun _ h => (by cases h), sched := ?_, closing := ?_ }
      · intro d hd
        by_cases hc : d = fd
        · subst hc; exact hctx
        · simp only [upd_ne _ _ hc] at hd; exact ho.sched d hd
      · intro d hd
        obtain ⟨c1, c2, c3, c4, c5⟩ := ho.closing d hd
        exact ⟨c1, c2, c3, fun h => (by cases h), c5⟩
    · intro m' q hq
      rcases List.mem_append.1 hq with h' | h'
      · exact Or.inl h'
      · right
        have hq' : (m', q) = p := by simpa using h'
        rw [← hq'] at q1 q2 q3
        rw [q1, q2, q3]
        exact ⟨i, j', m, n, hij, k7', k8, k2', hacc⟩
    · intro d i b hh
      obtain ⟨r1, r2, -⟩ := h.reading _ _ _ _ hh
      refine ⟨r1, ?_⟩
      by_cases hc : d = fd
      · subst hc; simp only [upd_self]
      · simp only [upd_ne _ _ hc]; exact r2

theorem inv_reply {L : Layer} (hL : L.Ok) {s t : State} {n k : Nat} (hM : Mem L s) (h : Inv L s) (hs : stepReply s n k = some t) : Inv L t := by
  simp only [stepReply] at hs
  split at hs
  swap
  · cases hs
  split at hs
  swap
  · cases hs
  rename_i m rEid sEid hk
  split at hs
  swap
  · cases hs
  rename_i hm
  subst hm
  have hmem := List.mem_of_getElem? hk
  obtain ⟨e, i, j, n1, n2, g1, g2, g3, g4, g5⟩ := h.cmds _ _ hmem
  split at hs <;> rename_i hf
  · cases hs
    exact ⟨⟨h.ghost.uniq, h.ghost.shape, h.ghost.old, h.ghost.pairs⟩,
      (fun n => let o := h.nodes n; ⟨o.np, o.flows, o.alloc, o.worker, o.aid, o.sched, o.closing⟩), h.transit, fun n b hb => h.cmds n b (List.mem_of_mem_eraseIdx hb), h.reading, h.writing, h.updating, h.ring,
      h.delivered, h.told, h.crashed⟩
  · rename_i fd
    have hn1 := hL.inj _ _ (g2.2.1 ▸ hM.home _ g2.2.2) (hM.cmds _ _ hmem) g3
    subst hn1
    have ho := h.nodes n1
    have hsh := h.ghost.shape _ _ g2.1
    obtain ⟨hctx, i', f1, f2, f3⟩ := ho.found (fun e => by rw [e] at hsh; exact absurd hsh.1 (by decide)) hf
    have hii : i' = i := h.ghost.uniq _ _ _ (f2.2.1.trans g2.2.1.symm) f2.1 g2.1
    subst hii
    obtain ⟨p1, p2, p3, p4, p5, p6⟩ := h.ghost.pairs _ _ g1
    have hse := (h.ghost.shape _ _ g4.1)
    cases hs
    refine h.change n1 _ ⟨fun _ h => h, fun _ h => h, fun _ h => h, fun _ _ h => h, fun _ _ => rfl, fun _ _ => rfl, fun _ _ => rfl, le_rfl⟩ rfl
      ⟨h.ghost.uniq, h.ghost.shape, h.ghost.old, h.ghost.pairs⟩ ?_ (fun _ _ _ _ _ h => h) (fun _ _ h => Or.inl h) (fun _ h => List.mem_of_mem_eraseIdx h) rfl ?_ rfl (fun _ _ _ _ _ h => h) rfl ?_ rfl rfl rfl
      ?_
    · refine { np := ho.np, flows := ?_, alloc := ?_, worker := ?_, aid := ?_, sched := ?_, closing := ?_ }
      · intro d
        by_cases hd : d = fd
        · subst hd
          simp only [upd_self]
          obtain ⟨i2, o1, o2, o3, o4, o5⟩ := (ho.flows d).1 hctx
          have : i2 = i' := by rw [f1] at o1; exact (Option.some.inj o1).symm
          subst this
          refine ⟨fun _ => ⟨i2, o1, o2, o3, Or.inr ⟨j, n2, Or.inl g1, g4, ?_⟩, fun _ => hse.2⟩, fun hc => ?_⟩
          · rw [o3, p5, g4.2.1]
          · rw [hctx] at hc; cases hc
        · simp only [upd_ne _ _ hd]; exact ho.flows d
      · intro d a e b hd
        obtain ⟨a1, a2, a3, a4, a5⟩ := ho.alloc d a e b hd
        have hc : d ≠ fd := fun hc => by subst hc; rw [hctx] at a5; cases a5
        simp only [upd_ne _ _ hc]
        exact ⟨a1, a2, a3, a4, a5⟩
      · intro d a e b hd
        obtain ⟨a1, a2, a3, a4, a5, a6⟩ := ho.worker d a e b hd
        have hc : d ≠ fd := fun hc => by subst hc; rw [hctx] at a5; cases a5
        simp only [upd_ne _ _ hc]
        exact ⟨a1, a2, a3, a4, a5, a6⟩
      · intro d hd
        obtain ⟨a, a1, a2, a3⟩ := ho.aid d hd
        have hc : d ≠ fd := fun hc => by
          subst hc
          rw [f1] at a1; cases a1
          rw [p3] at a2; cases a2
        simp only [upd_ne _ _ hc]
        exact ⟨a, a1, a2, a3⟩
      · intro d hd
        by_cases hc : d = fd
        · subst hc; simp only [upd_self]; exact hctx
        · simp only [upd_ne _ _ hc] at hd ⊢; exact ho.sched d hd
      · intro d hd
        obtain ⟨c1, c2, c3⟩ := ho.closing d hd
        have hc : d ≠ fd := fun hc => by subst hc; rw [hctx] at c1; cases c1
        simp only [upd_ne _ _ hc]
        exact ⟨c1, c2, c3⟩
    · intro d a b hh
      obtain ⟨r1, r2, -⟩ := h.reading _ _ _ _ hh
      refine ⟨r1, ?_⟩
      by_cases hc : d = fd
      · subst hc; simp only [upd_self]
      · simp only [upd_ne _ _ hc]; exact r2
    · intro d hd
      by_cases hc : d = fd
      · subst hc; simp only [upd_self]
        intro h0
        rw [h0] at hse
        exact absurd hse.1 (by decide)
      · simp only [upd_ne _ _ hc]; exact hd
    · intro a ha
      rcases List.mem_append.1 ha with h' | h'
      · exact Or.inl h'
      · rw [f1] at h'
        have : a = i' := by simpa using h'
        subst this
        exact Or.inr ⟨j, g1, g5⟩

theorem inv_update {L : Layer} {s t : State} {n k : Nat} (h : Inv L s) (hs : stepUpdate s n k = some t) : Inv L t := by
  simp only [stepUpdate] at hs
  split at hs
  swap
  · cases hs
  split at hs
  swap
  · cases hs
  rename_i m rEid hk
  split at hs
  swap
  · cases hs
  rename_i hm
  subst hm
  obtain ⟨e, g1⟩ := h.cmds _ _ (List.mem_of_getElem? hk)
  split at hs <;> rename_i hf <;> cases hs
  · exact ⟨⟨h.ghost.uniq, h.ghost.shape, h.ghost.old, h.ghost.pairs⟩,
      (fun n => let o := h.nodes n; ⟨o.np, o.flows, o.alloc, o.worker, o.aid, o.sched, o.closing⟩), h.transit, fun n b hb => h.cmds n b (List.mem_of_mem_eraseIdx hb), h.reading, h.writing, h.updating, h.ring,
      h.delivered, h.told, h.crashed⟩
  · obtain ⟨hctx, -⟩ := (h.nodes m).found g1 hf
    exact ⟨⟨h.ghost.uniq, h.ghost.shape, h.ghost.old, h.ghost.pairs⟩,
      (fun n => let o := h.nodes n; ⟨o.np, o.flows, o.alloc, o.worker, o.aid, o.sched, o.closing⟩), h.transit, fun n b hb => h.cmds n b (List.mem_of_mem_eraseIdx hb), h.reading, h.writing, h.updating, h.ring,
      h.delivered, h.told, by simp [h.crashed, hctx]⟩

theorem inv_write {L : Layer} {s t : State} {i : Nat} {b : List Byte} (h : Inv L s) (hs : stepWrite s i b = some t) : Inv L t := by
  simp only [stepWrite] at hs
  split at hs
  swap
  · cases hs
  cases hs
  have hx : Ext s { s with ring := upd s.ring i (s.ring i ++ [b]), written := s.written ++ [(i, b)] } :=
    ⟨fun _ h => h, fun _ h => List.mem_append_left _ h, fun _ h => h, fun _ _ h => h, fun _ _ => rfl, fun _ _ => rfl, fun _ _ => rfl, le_rfl⟩
  refine ⟨⟨h.ghost.uniq, h.ghost.shape, h.ghost.old, h.ghost.pairs⟩, fun n => (h.nodes n).mono hx (fun _ _ _ h => Or.inr h),
    fun n p hp => (h.transit n p hp).mono hx, fun n c hc => ?_, fun n fd j c hc => ?_, fun n fd j c hc => ?_, h.updating, fun j c hc => ?_,
    fun a j c hc => ?_, h.told, h.crashed⟩
  · obtain ⟨e, he⟩ := h.cmds n c hc
    exact ⟨e, he.mono hx⟩
  · obtain ⟨h1, h2, h3⟩ := h.reading _ _ _ _ hc
    exact ⟨h1, h2, hx.written _ h3⟩
  · obtain ⟨h1, h2⟩ := h.writing _ _ _ _ hc
    exact ⟨hx.written _ h1, h2⟩
  · by_cases hj : j = i
    · subst hj
      simp only [upd_self] at hc
      rcases List.mem_append.1 hc with hc | hc
      · exact hx.written _ (h.ring _ _ hc)
      · have : c = b := by simpa using hc
        subst this
        exact List.mem_append_right _ (List.mem_singleton.2 rfl)
    · simp only [upd_ne _ _ hj] at hc
      exact hx.written _ (h.ring _ _ hc)
  · obtain ⟨h1, h2⟩ := h.delivered _ _ _ hc
    exact ⟨h1, hx.written _ h2⟩

theorem inv_read {L : Layer} {s t : State} {n fd : Nat} (h : Inv L s) (hs : stepRead s n fd = some t) : Inv L t := by
  simp only [stepRead] at hs
  split at hs
  swap
  · cases hs
  rename_i hsch
  split at hs
  · cases hs
  rename_i i hnp
  split at hs
  · cases hs
  rename_i b bs hb
  cases hs
  have hin : ∀ j c, c ∈ upd s.ring i bs j → c ∈ s.ring j := by
    intro j c hc
    by_cases hj : j = i
    · subst hj; simp only [upd_self] at hc; rw [hb]; exact List.mem_cons_of_mem _ hc
    · rwa [upd_ne _ _ hj] at hc
  refine ⟨⟨h.ghost.uniq, h.ghost.shape, h.ghost.old, h.ghost.pairs⟩,
      (fun n => let o := h.nodes n; ⟨o.np, o.flows, o.alloc, o.worker, o.aid, o.sched, o.closing⟩), h.transit, h.cmds, fun m d j c hc => ?_, h.writing, h.updating, fun j c hc => h.ring j c (hin j c hc), h.delivered,
    h.told, h.crashed⟩
  rcases List.mem_append.1 hc with hc | hc
  · exact h.reading _ _ _ _ hc
  · have : m = n ∧ d = fd ∧ j = i ∧ c = b := by simpa using hc
    obtain ⟨rfl, rfl, rfl, rfl⟩ := this
    exact ⟨hnp, hsch, h.ring _ _ (by rw [hb]; exact List.mem_cons_self)⟩

theorem inv_send {L : Layer} {s t : State} {k : Nat} {hop : Option Nat} (h : Inv L s) (hs : stepSend L s k hop = some t) : Inv L t := by
  simp only [stepSend] at hs
  split at hs
  · cases hs
  rename_i n fd i b hk
  cases hs
  obtain ⟨r1, r2, r3⟩ := h.reading _ _ _ _ (List.mem_of_getElem? hk)
  have hctx := (h.nodes n).sched _ r2
  obtain ⟨i', f1, f2, f3, f4, f5⟩ := ((h.nodes n).flows fd).1 hctx
  have hii : i' = i := by rw [r1] at f1; exact (Option.some.inj f1).symm
  subst hii
  refine ⟨⟨h.ghost.uniq, h.ghost.shape, h.ghost.old, h.ghost.pairs⟩,
      (fun n => let o := h.nodes n; ⟨o.np, o.flows, o.alloc, o.worker, o.aid, o.sched, o.closing⟩), fun m p hp => ?_, h.cmds, fun m d j c hc => h.reading _ _ _ _ (List.mem_of_mem_eraseIdx hc), h.writing, h.updating,
    h.ring, h.delivered, h.told, by simp [h.crashed, hctx]⟩
  rcases mem_post hp with hp | hp
  · exact h.transit m p hp
  · obtain ⟨w0, w1, w2, w3⟩ := dtWrite_some hp
    simp only at w1 w2 w3
    rw [w1, w2, w3]
    exact ⟨f4, r3⟩

theorem inv_hop {L : Layer} {s t : State} {k : Nat} {next : Option Nat} (h : Inv L s) (hs : stepHop L s k next = some t) : Inv L t := by
  have hmk : ∀ l : List (Nat × Pkt), (∀ m p, (m, p) ∈ l → Good L s p.dst p.eid p.body) → Inv L { s with transit := l } := fun l hl =>
    ⟨⟨h.ghost.uniq, h.ghost.shape, h.ghost.old, h.ghost.pairs⟩,
      (fun n => let o := h.nodes n; ⟨o.np, o.flows, o.alloc, o.worker, o.aid, o.sched, o.closing⟩), hl, h.cmds, h.reading, h.writing, h.updating, h.ring, h.delivered, h.told, h.crashed⟩
  have her : ∀ m p, (m, p) ∈ s.transit.eraseIdx k → Good L s p.dst p.eid p.body := fun m p hp =>
    h.transit m p (List.mem_of_mem_eraseIdx hp)
  simp only [stepHop] at hs
  split at hs
  · cases hs
  rename_i n p hk
  split at hs
  · cases hs
  split at hs
  · cases hs; exact hmk _ her
  split at hs
  · cases hs; exact hmk _ her
  · cases hs
    refine hmk _ (fun m q hq => ?_)
    rcases List.mem_append.1 hq with hq | hq
    · exact her m q hq
    · have := List.mem_singleton.1 hq
      cases this
      exact h.transit n p (List.mem_of_getElem? hk)

theorem inv_arrive {L : Layer} (hL : L.Ok) {s t : State} {k : Nat} {report : Bool} (hM : Mem L s) (h : Inv L s) (hs : stepArrive L s k report = some t) :
    Inv L t := by
  have her : ∀ m p, (m, p) ∈ s.transit.eraseIdx k → Good L s p.dst p.eid p.body := fun m p hp =>
    h.transit m p (List.mem_of_mem_eraseIdx hp)
  have hdrop : Inv L { s with transit := s.transit.eraseIdx k } :=
    ⟨⟨h.ghost.uniq, h.ghost.shape, h.ghost.old, h.ghost.pairs⟩,
      (fun n => let o := h.nodes n; ⟨o.np, o.flows, o.alloc, o.worker, o.aid, o.sched, o.closing⟩), her, h.cmds, h.reading, h.writing, h.updating, h.ring, h.delivered, h.told, h.crashed⟩
  simp only [stepArrive] at hs
  split at hs
  · cases hs
  rename_i n p hk
  split at hs
  · cases hs
  rename_i hdst
  have hdst : p.dst = L.addr n := by simpa using hdst
  have hgood := h.transit n p (List.mem_of_getElem? hk)
  split at hs
  · rename_i he
    split at hs
    · rename_i i b hb
      rw [hb, hdst] at hgood
      split at hs <;> rename_i hf
      · cases hs; exact hdrop
      · rename_i fd
        obtain ⟨hctx, j, f1, f2, f3⟩ := (h.nodes n).found (fun e => by rw [e] at he; exact absurd he (by decide)) hf
        have hpeer := hgood.1.peer hL hM h.ghost f2
        cases hs
        refine ⟨⟨h.ghost.uniq, h.ghost.shape, h.ghost.old, h.ghost.pairs⟩,
      (fun n => let o := h.nodes n; ⟨o.np, o.flows, o.alloc, o.worker, o.aid, o.sched, o.closing⟩), her, h.cmds, h.reading, fun m d a c hc => ?_, fun m d hc => ?_, h.ring, h.delivered, h.told,
          by simp [h.crashed, hctx]⟩
        · rcases List.mem_append.1 hc with hc | hc
          · exact h.writing _ _ _ _ hc
          · have : m = n ∧ d = fd ∧ a = i ∧ c = b := by simpa using hc
            obtain ⟨rfl, rfl, rfl, rfl⟩ := this
            exact ⟨hgood.2, j, hpeer, Or.inl f1⟩
        · rcases List.mem_append.1 hc with hc | hc
          · exact h.updating _ _ hc
          · cases report with
            | false => simp at hc
            | true =>
              have : m = n ∧ d = fd := by simpa using hc
              obtain ⟨rfl, rfl⟩ := this
              obtain ⟨i2, o1, o2, o3, o4, o5⟩ := ((h.nodes m).flows d).1 hctx
              intro h0
              rcases o4 with o4 | ⟨a, q, -, o6, -⟩
              · have h0' : ((s.node m).flows d).rEid = 0 := h0
                rw [o4] at h0'; exact absurd h0' (by decide)
              · have := (h.ghost.shape _ _ o6.1).1
                have h0' : ((s.node m).flows d).rEid = 0 := h0
                rw [h0'] at this
                exact absurd this (by decide)
    · cases hs; exact hdrop
  · split at hs
    · cases hs
      refine ⟨⟨h.ghost.uniq, h.ghost.shape, h.ghost.old, h.ghost.pairs⟩,
      (fun n => let o := h.nodes n; ⟨o.np, o.flows, o.alloc, o.worker, o.aid, o.sched, o.closing⟩), her, fun m c hc => ?_, h.reading, h.writing, h.updating, h.ring, h.delivered, h.told, h.crashed⟩
      rcases List.mem_append.1 hc with hc | hc
      · exact h.cmds m c hc
      · have : m = n ∧ c = p.body := by simpa using hc
        obtain ⟨rfl, rfl⟩ := this
        exact ⟨p.eid, hdst ▸ hgood⟩
    · cases hs; exact hdrop

theorem inv_deliver {L : Layer} {s t : State} {k : Nat} (h : Inv L s) (hs : stepDeliver s k = some t) : Inv L t := by
  simp only [stepDeliver] at hs
  split at hs
  · cases hs
  rename_i n fd i b hk
  obtain ⟨w1, j, w2, w3⟩ := h.writing _ _ _ _ (List.mem_of_getElem? hk)
  have her : ∀ m d a c, (m, d, a, c) ∈ s.writing.eraseIdx k → (m, d, a, c) ∈ s.writing := fun _ _ _ _ h => List.mem_of_mem_eraseIdx h
  have hdrop : Inv L { s with writing := s.writing.eraseIdx k } :=
    ⟨⟨h.ghost.uniq, h.ghost.shape, h.ghost.old, h.ghost.pairs⟩,
      (fun n => let o := h.nodes n; ⟨o.np, o.flows, o.alloc, o.worker, o.aid, o.sched, o.closing⟩), h.transit, h.cmds, h.reading, fun _ _ _ _ hc => h.writing _ _ _ _ (her _ _ _ _ hc), h.updating, h.ring, h.delivered, h.told,
      h.crashed⟩
  split at hs <;> rename_i hnp
  · cases hs; exact hdrop
  · rename_i j'
    have hjj : j' = j := by
      rcases w3 with w3 | w3 <;> rw [hnp] at w3
      · exact Option.some.inj w3
      · cases w3
    subst hjj
    split at hs <;> cases hs
    · exact hdrop
    · refine ⟨⟨h.ghost.uniq, h.ghost.shape, h.ghost.old, h.ghost.pairs⟩,
      (fun n => let o := h.nodes n; ⟨o.np, o.flows, o.alloc, o.worker, o.aid, o.sched, o.closing⟩), h.transit, h.cmds, h.reading, fun _ _ _ _ hc => h.writing _ _ _ _ (her _ _ _ _ hc), h.updating, h.ring,
        fun a c d hc => ?_, h.told, h.crashed⟩
      rcases List.mem_append.1 hc with hc | hc
      · exact h.delivered _ _ _ hc
      · have : a = j' ∧ c = i ∧ d = b := by simpa using hc
        obtain ⟨rfl, rfl, rfl⟩ := this
        exact ⟨w2, w1⟩

theorem inv_notify {L : Layer} {s t : State} {k : Nat} {hop : Option Nat} (h : Inv L s) (hs : stepNotify L s k hop = some t) : Inv L t := by
  simp only [stepNotify] at hs
  split at hs
  · cases hs
  rename_i n fd hk
  cases hs
  have hu := h.updating _ _ (List.mem_of_getElem? hk)
  refine ⟨⟨h.ghost.uniq, h.ghost.shape, h.ghost.old, h.ghost.pairs⟩,
      (fun n => let o := h.nodes n; ⟨o.np, o.flows, o.alloc, o.worker, o.aid, o.sched, o.closing⟩), fun m p hp => ?_, h.cmds, h.reading, h.writing, fun m d hc => h.updating _ _ (List.mem_of_mem_eraseIdx hc),
    h.ring, h.delivered, h.told, h.crashed⟩
  rcases mem_post hp with hp | hp
  · exact h.transit m p hp
  · obtain ⟨w0, w1, w2, w3⟩ := dtWrite_some hp
    simp only at w1 w2 w3
    rw [w3]
    exact hu

theorem inv_clear {L : Layer} {s t : State} {n fd : Nat} (h : Inv L s) (hp : Proper L s (.clear n fd)) (hs : stepClear s n fd = some t) :
    Inv L t := by
  obtain ⟨q1, q2, q3, q4⟩ := hp
  simp only [stepClear] at hs
  split at hs
  · cases hs
  rename_i i hnp
  split at hs
  swap
  · cases hs
  cases hs
  have ho := h.nodes n
  refine h.change n _ ⟨fun _ h => h, fun _ h => h, fun _ h => h, fun _ _ h => h, fun _ _ => rfl, fun _ _ => rfl, fun _ _ => rfl, le_rfl⟩ rfl
    ⟨h.ghost.uniq, h.ghost.shape, h.ghost.old, h.ghost.pairs⟩ ?_ (fun _ _ _ _ _ h => h) (fun _ _ h => Or.inl h) (fun _ h => h) rfl ?_ rfl (fun _ _ _ _ _ h => h) rfl ?_ rfl rfl rfl
    (fun _ h => Or.inl h)
  · refine { np := ho.np, flows := ?_, alloc := ?_, worker := ?_, aid := ?_, sched := ?_, closing := ?_ }
    · intro d
      by_cases hd : d = fd
      · subst hd
        simp only [upd_self]
        exact ⟨fun hc => (Bool.noConfusion hc), fun _ => Or.inr rfl⟩
      · simp only [upd_ne _ _ hd]; exact ho.flows d
    · intro d a e b hd
      have hc : d ≠ fd := fun hc => by subst hc; rw [q1] at hd; cases hd
      simp only [upd_ne _ _ hc]; exact ho.alloc d a e b hd
    · intro d a e b hd
      have hc : d ≠ fd := fun hc => by subst hc; exact q2 _ _ _ hd
      simp only [upd_ne _ _ hc]; exact ho.worker d a e b hd
    · intro d hd
      have hc : d ≠ fd := fun hc => by subst hc; exact q3 hd
      simp only [upd_ne _ _ hc]; exact ho.aid d hd
    · intro d hd
      have hc : d ≠ fd := fun hc => by subst hc; simp only [upd_self] at hd; cases hd
      simp only [upd_ne _ _ hc] at hd ⊢; exact ho.sched d hd
    · intro d hd
      by_cases hc : d = fd
      · subst hc
        simp only [upd_self]
        exact ⟨rfl, q1, q2, q3, by rw [hnp]; exact fun h => (by cases h)⟩
      · simp only [upd_ne _ _ hc] at hd ⊢; exact ho.closing d hd
  · intro d a b hh
    obtain ⟨r1, r2, -⟩ := h.reading _ _ _ _ hh
    have hc : d ≠ fd := fun hc => by subst hc; exact q4 _ _ hh
    simp only [upd_ne _ _ hc]
    exact ⟨r1, r2⟩
  · intro d hd
    by_cases hc : d = fd
    · subst hc; simp only [upd_self]; decide
    · simp only [upd_ne _ _ hc]; exact hd

theorem inv_release {L : Layer} {s t : State} {n fd : Nat} (h : Inv L s) (hs : stepRelease s n fd = some t) : Inv L t := by
  simp only [stepRelease] at hs
  split at hs
  swap
  · cases hs
  rename_i hcl
  cases hs
  have ho := h.nodes n
  obtain ⟨z1, z2, z3, z4, z5⟩ := ho.closing _ hcl
  refine h.change n _ ⟨fun _ h => h, fun _ h => h, fun _ h => h, fun _ _ h => h, fun _ _ => rfl, fun _ _ => rfl, fun _ _ => rfl, le_rfl⟩ rfl
    ⟨h.ghost.uniq, h.ghost.shape, h.ghost.old, h.ghost.pairs⟩ ?_ (fun _ _ _ _ _ h => h) (fun _ _ h => Or.inl h) (fun _ h => h) rfl ?_ rfl ?_ rfl (fun _ h => h) rfl rfl rfl
    (fun _ h => Or.inl h)
  · refine { np := ?_, flows := ?_, alloc := ?_, worker := ?_, aid := ?_, sched := ho.sched, closing := ?_ }
    · intro d i hd
      by_cases hc : d = fd
      · subst hc; simp only [upd_self] at hd; cases hd
      · simp only [upd_ne _ _ hc] at hd; exact ho.np d i hd
    · intro d
      by_cases hd : d = fd
      · subst hd
        exact ⟨fun hc => (by rw [z1] at hc; cases hc), fun _ => (ho.flows d).2 z1⟩
      · simp only [upd_ne _ _ hd]; exact ho.flows d
    · intro d a e b hd
      have hc : d ≠ fd := fun hc => by subst hc; rw [z2] at hd; cases hd
      simp only [upd_ne _ _ hc]; exact ho.alloc d a e b hd
    · intro d a e b hd
      have hc : d ≠ fd := fun hc => by subst hc; exact z3 _ _ _ hd
      simp only [upd_ne _ _ hc]; exact ho.worker d a e b hd
    · intro d hd
      have hc : d ≠ fd := fun hc => by subst hc; exact z4 hd
      simp only [upd_ne _ _ hc]; exact ho.aid d hd
    · intro d hd
      have hc : d ≠ fd := fun hc => by subst hc; simp only [upd_self] at hd; cases hd
      simp only [upd_ne _ _ hc] at hd ⊢; exact ho.closing d hd
  · intro d a b hh
    obtain ⟨r1, r2, -⟩ := h.reading _ _ _ _ hh
    have hc : d ≠ fd := fun hc => by
      subst hc
      have := ho.sched _ r2
      rw [z1] at this; cases this
    simp only [upd_ne _ _ hc]
    exact ⟨r1, r2⟩
  · intro d i b j hh hj
    by_cases hc : d = fd
    · subst hc; exact Or.inr (upd_self _ _ _)
    · simpa only [upd_ne _ _ hc] using hj

theorem inv_step {L : Layer} (hL : L.Ok) {s t : State} {op : Op} (hM : Mem L s) (h : Inv L s) (hp : Proper L s op) (hs : step L s op = some t) : Inv L t := by
  have htr : ∀ l : List (Nat × Pkt), (∀ q, q ∈ l → q ∈ s.transit) → Inv L { s with transit := l } := fun l hl =>
    ⟨⟨h.ghost.uniq, h.ghost.shape, h.ghost.old, h.ghost.pairs⟩,
      (fun n => let o := h.nodes n; ⟨o.np, o.flows, o.alloc, o.worker, o.aid, o.sched, o.closing⟩), fun m p hp => h.transit m p (hl _ hp), h.cmds, h.reading, h.writing, h.updating, h.ring, h.delivered, h.told, h.crashed⟩
  cases op with
  | alloc => exact inv_alloc h hp hs
  | register => exact inv_register h hs
  | request => exact inv_request h hp hs
  | setup => exact inv_setup h hp hs
  | respond => exact inv_respond h hs
  | reply => exact inv_reply hL hM h hs
  | update => exact inv_update h hs
  | write => exact inv_write h hs
  | read => exact inv_read h hs
  | send => exact inv_send h hs
  | hop => exact inv_hop h hs
  | arrive => exact inv_arrive hL hM h hs
  | lose k =>
    simp only [step] at hs
    split at hs
    · cases hs; exact htr _ (fun _ h => List.mem_of_mem_eraseIdx h)
    · cases hs
  | dup k =>
    simp only [step, Option.map_eq_some_iff] at hs
    obtain ⟨p, hp, rfl⟩ := hs
    refine htr _ (fun q hq => ?_)
    rcases List.mem_append.1 hq with hq | hq
    · exact hq
    · rw [List.mem_singleton.1 hq]; exact List.mem_of_getElem? hp
  | deliver => exact inv_deliver h hs
  | notify => exact inv_notify h hs
  | close n fd =>
    simp only [step, stepClose] at hs
    split at hs
    · cases hs
    · cases hs
      exact ⟨⟨h.ghost.uniq, h.ghost.shape, h.ghost.old, h.ghost.pairs⟩,
      (fun n => let o := h.nodes n; ⟨o.np, o.flows, o.alloc, o.worker, o.aid, o.sched, o.closing⟩), h.transit, h.cmds, h.reading, h.writing, h.updating, h.ring, h.delivered, h.told, h.crashed⟩
  | clear => exact inv_clear h hp hs
  | release => exact inv_release h hs

theorem dtWrite_hop {L : Layer} {n : Nat} {hop : Option Nat} {dst eid : BitVec 64} {b : Body} {m : Nat} {p : Pkt}
    (hh : Member L hop) (h : dtWrite L n hop dst eid b = some (m, p)) : m < L.size := by
  cases hop with
  | none => cases h
  | some k =>
    simp only [dtWrite] at h
    split at h
    · cases h
    · cases h; exact hh _ rfl

theorem post_lt {L : Layer} {l : List (Nat × Pkt)} (hl : ∀ n p, (n, p) ∈ l → n < L.size) {n : Nat} {hop : Option Nat} {dst eid : BitVec 64} {b : Body}
    (hh : Member L hop) : ∀ m p, (m, p) ∈ post l (dtWrite L n hop dst eid b) → m < L.size := by
  intro m p hp
  cases hw : dtWrite L n hop dst eid b with
  | none => rw [hw] at hp; exact hl m p hp
  | some q =>
    rw [hw] at hp
    rcases List.mem_append.1 hp with hp | hp
    · exact hl m p hp
    · rw [← List.mem_singleton.1 hp] at hw
      exact dtWrite_hop hh hw

theorem Mem.erase {L : Layer} {s : State} (h : Mem L s) (k : Nat) : ∀ n p, (n, p) ∈ s.transit.eraseIdx k → n < L.size :=
  fun n p hp => h.transit n p (List.mem_of_mem_eraseIdx hp)

theorem Mem.eraseC {L : Layer} {s : State} (h : Mem L s) (k : Nat) : ∀ n p, (n, p) ∈ s.cmds.eraseIdx k → n < L.size :=
  fun n p hp => h.cmds n p (List.mem_of_mem_eraseIdx hp)

theorem Mem.newHome {L : Layer} {s : State} (h : Mem L s) {n : Nat} (hn : n < L.size) :
    ∀ i, i < s.next + 1 → upd s.home s.next n i < L.size := by
  intro i hi
  by_cases e : i = s.next
  · rw [e, upd_self]; exact hn
  · rw [upd_ne _ _ e]; exact h.home i (by omega)

theorem snoc_lt {L : Layer} {α : Type} {l : List (Nat × α)} (hl : ∀ n p, (n, p) ∈ l → n < L.size) {m : Nat} {q : α} (hm : m < L.size) :
    ∀ n p, (n, p) ∈ l ++ [(m, q)] → n < L.size := by
  intro n p hp
  rcases List.mem_append.1 hp with hp | hp
  · exact hl n p hp
  · cases List.mem_singleton.1 hp; exact hm

theorem mem_step {L : Layer} {s t : State} {op : Op} (h : Mem L s) (hp : Proper L s op) (hs : step L s op = some t) : Mem L t := by
  cases op with
  | alloc n fd rnd dst hop =>
    obtain ⟨-, -, -, h4, h5⟩ := hp
    simp only [step, stepAlloc] at hs
    split at hs
    swap
    · cases hs
    split at hs <;> rename_i hw <;> cases hs
    · exact ⟨h.newHome h4, h.transit, h.cmds⟩
    · rename_i p
      exact ⟨h.newHome h4, snoc_lt h.transit (dtWrite_hop h5 hw), h.cmds⟩
  | register n fd =>
    simp only [step, stepRegister] at hs
    split at hs <;> cases hs
    exact ⟨h.home, h.transit, h.cmds⟩
  | request n k fd =>
    simp only [step, stepRequest] at hs
    split at hs
    swap
    · cases hs
    split at hs
    swap
    · cases hs
    rename_i m src sAddr sEid hk
    split at hs
    swap
    · cases hs
    rename_i hm
    split at hs
    · cases hs
      exact ⟨h.home, h.transit, h.eraseC k⟩
    · split at hs
      swap
      · cases hs
      cases hs
      exact ⟨h.newHome (hm ▸ h.cmds _ _ (List.mem_of_getElem? hk)), h.transit, h.eraseC k⟩
  | setup n rnd =>
    simp only [step, stepSetup] at hs
    split at hs <;> cases hs
    exact ⟨h.home, h.transit, h.cmds⟩
  | respond n fd hop =>
    simp only [step, stepRespond] at hs
    split at hs
    swap
    · cases hs
    split at hs <;> rename_i hw <;> cases hs
    · exact ⟨h.home, h.transit, h.cmds⟩
    · exact ⟨h.home, snoc_lt h.transit (dtWrite_hop hp hw), h.cmds⟩
  | reply n k =>
    simp only [step, stepReply] at hs
    split at hs
    swap
    · cases hs
    split at hs
    swap
    · cases hs
    split at hs
    swap
    · cases hs
    split at hs <;> cases hs <;> exact ⟨h.home, h.transit, h.eraseC k⟩
  | update n k =>
    simp only [step, stepUpdate] at hs
    split at hs
    swap
    · cases hs
    split at hs
    swap
    · cases hs
    split at hs
    swap
    · cases hs
    split at hs <;> cases hs <;> exact ⟨h.home, h.transit, h.eraseC k⟩
  | write i b =>
    simp only [step, stepWrite] at hs
    split at hs <;> cases hs
    exact ⟨h.home, h.transit, h.cmds⟩
  | read n fd =>
    simp only [step, stepRead] at hs
    split at hs
    swap
    · cases hs
    split at hs
    · cases hs
    split at hs <;> cases hs
    exact ⟨h.home, h.transit, h.cmds⟩
  | send k hop =>
    simp only [step, stepSend] at hs
    split at hs <;> cases hs
    exact ⟨h.home, post_lt h.transit hp, h.cmds⟩
  | hop k next =>
    simp only [step, stepHop] at hs
    split at hs
    · cases hs
    split at hs
    · cases hs
    split at hs
    · cases hs
      exact ⟨h.home, h.erase k, h.cmds⟩
    split at hs <;> cases hs
    · exact ⟨h.home, h.erase k, h.cmds⟩
    · exact ⟨h.home, snoc_lt (h.erase k) (hp _ rfl), h.cmds⟩
  | arrive k report =>
    simp only [step, stepArrive] at hs
    split at hs
    · cases hs
    rename_i n p hk
    split at hs
    · cases hs
    split at hs
    · split at hs
      · split at hs <;> cases hs <;> exact ⟨h.home, h.erase k, h.cmds⟩
      · cases hs
        exact ⟨h.home, h.erase k, h.cmds⟩
    · split at hs <;> cases hs
      · exact ⟨h.home, h.erase k, snoc_lt h.cmds (h.transit _ _ (List.mem_of_getElem? hk))⟩
      · exact ⟨h.home, h.erase k, h.cmds⟩
  | lose k =>
    simp only [step] at hs
    split at hs <;> cases hs
    exact ⟨h.home, h.erase k, h.cmds⟩
  | dup k =>
    simp only [step, Option.map_eq_some_iff] at hs
    obtain ⟨⟨n, p⟩, hk, rfl⟩ := hs
    exact ⟨h.home, snoc_lt h.transit (h.transit _ _ (List.mem_of_getElem? hk)), h.cmds⟩
  | deliver k =>
    simp only [step, stepDeliver] at hs
    split at hs
    · cases hs
    split at hs
    · cases hs; exact ⟨h.home, h.transit, h.cmds⟩
    split at hs <;> cases hs <;> exact ⟨h.home, h.transit, h.cmds⟩
  | notify k hop =>
    simp only [step, stepNotify] at hs
    split at hs <;> cases hs
    exact ⟨h.home, post_lt h.transit hp, h.cmds⟩
  | close n fd =>
    simp only [step, stepClose] at hs
    split at hs <;> cases hs
    exact ⟨h.home, h.transit, h.cmds⟩
  | clear n fd =>
    simp only [step, stepClear] at hs
    split at hs
    · cases hs
    split at hs <;> cases hs
    exact ⟨h.home, h.transit, h.cmds⟩
  | release n fd =>
    simp only [step, stepRelease] at hs
    split at hs <;> cases hs
    exact ⟨h.home, h.transit, h.cmds⟩

theorem mem_reach {L : Layer} {s : State} (h : Reach L s) : Mem L s := by
  induction h with
  | init => exact ⟨fun _ h => (by cases h), fun _ _ h => (by cases h), fun _ _ h => (by cases h)⟩
  | step _ hp hs ih => exact mem_step ih hp hs

theorem inv_reach {L : Layer} (hL : L.Ok) {s : State} (h : Reach L s) : Inv L s := by
  induction h with
  | init => exact inv_init L
  | step hr hp hs ih => exact inv_step hL (mem_reach hr) ih hp hs

/-! ### One flow for one request -/

/-- A request of flow `i`. -/
def isReq (i : Nat) : Body → Bool
  | .req j _ _ => j == i
  | _ => false

/-- The requests of flow `i` on their way, and the flows set up for it. -/
def load (s : State) (i : Nat) : Nat :=
  s.transit.countP (fun q => isReq i q.2.body) + s.cmds.countP (fun q => isReq i q.2) + s.pairs.countP (fun q => q.1 == i)

structure Once (s : State) : Prop where
  le : ∀ i, load s i ≤ 1
  new : ∀ i, s.next ≤ i → load s i = 0
  snd : ∀ i j k, (i, k) ∈ s.pairs → (j, k) ∈ s.pairs → i = j
  lt : ∀ i j, (i, j) ∈ s.pairs → j < s.next

theorem countP_eraseIdx {α : Type} {p : α → Bool} {x : α} :
    ∀ {l : List α} {k : Nat}, l[k]? = some x → (l.eraseIdx k).countP p + (if p x then 1 else 0) = l.countP p
  | [], k, h => by simp at h
  | a :: l, 0, h => by
    simp only [List.getElem?_cons_zero, Option.some.injEq] at h
    subst h
    simp [List.countP_cons]
  | a :: l, k + 1, h => by
    simp only [List.getElem?_cons_succ] at h
    have := countP_eraseIdx (p := p) h
    simp only [List.eraseIdx_cons_succ, List.countP_cons]
    omega

theorem Once.of_le {s t : State} (h : Once s) (hn : s.next ≤ t.next) (hp : t.pairs = s.pairs) (hl : ∀ i, load t i ≤ load s i) : Once t where
  le := fun i => (hl i).trans (h.le i)
  new := fun i hi => Nat.le_zero.1 ((hl i).trans (h.new i (hn.trans hi)).le)
  snd := by rw [hp]; exact h.snd
  lt := fun i j hij => lt_of_lt_of_le (h.lt i j (hp ▸ hij)) hn

theorem erase_le {α : Type} (p : α → Bool) (l : List α) (k : Nat) : (l.eraseIdx k).countP p ≤ l.countP p :=
  (List.eraseIdx_sublist l k).countP_le

theorem countP_post {l : List (Nat × Pkt)} {L : Layer} {n : Nat} {hop : Option Nat} {dst eid : BitVec 64} {b : Body} {i : Nat} (h : isReq i b = false) :
    (post l (dtWrite L n hop dst eid b)).countP (fun q => isReq i q.2.body) = l.countP (fun q => isReq i q.2.body) := by
  cases hw : dtWrite L n hop dst eid b with
  | none => rfl
  | some p =>
    obtain ⟨-, -, -, h3⟩ := dtWrite_some hw
    simp [post, List.countP_append, h3, h]

theorem once_step {L : Layer} {s t : State} {op : Op} (h : Once s) (hd : ∀ k, op ≠ .dup k) (hs : step L s op = some t) : Once t := by
  cases op with
  | alloc n fd rnd dst hop =>
    simp only [step, stepAlloc] at hs
    split at hs
    swap
    · cases hs
    split at hs <;> rename_i hw
    · cases hs
      exact h.of_le (Nat.le_succ _) rfl (fun _ => le_rfl)
    · rename_i p
      obtain ⟨-, -, -, h3⟩ := dtWrite_some hw
      cases hs
      have hl : ∀ i, load (State.setNode { s with next := s.next + 1, home := upd s.home s.next n, far := upd s.far s.next dst, asker := upd s.asker s.next true, transit := s.transit ++ [p], eidOf := upd s.eidOf s.next (some (genEid L fd rnd)) } n
          { s.node n with np1 := upd (s.node n).np1 fd (some s.next), allocating := upd (s.node n).allocating fd (some (s.next, genEid L fd rnd, dst)) }) i
          = load s i + (if s.next = i then 1 else 0) := by
        intro i
        simp only [load, State.setNode, List.countP_append, List.countP_cons, List.countP_nil, h3, isReq, beq_iff_eq]
        omega
      refine ⟨fun i => ?_, fun i hi => ?_, h.snd, fun i j hij => Nat.lt_succ_of_lt (h.lt i j hij)⟩
      · rw [hl]
        by_cases hi : s.next = i
        · have := h.new i hi.le; simp only [hi, if_true]; omega
        · simp only [hi, if_false]; exact h.le i
      · rw [hl]
        have hi' : s.next + 1 ≤ i := hi
        have := h.new i (by omega)
        rw [if_neg (by omega)]
        omega
  | register n fd =>
    simp only [step, stepRegister] at hs
    split at hs <;> cases hs
    exact h.of_le le_rfl rfl (fun _ => le_rfl)
  | request n k fd =>
    simp only [step, stepRequest] at hs
    split at hs
    swap
    · cases hs
    split at hs
    swap
    · cases hs
    rename_i m src sAddr sEid hk
    split at hs
    swap
    · cases hs
    split at hs
    · cases hs
      refine h.of_le le_rfl rfl (fun i => ?_)
      have := erase_le (fun q : Nat × Body => isReq i q.2) s.cmds k
      simp only [load]; omega
    · rename_i fd
      split at hs
      swap
      · cases hs
      cases hs
      have hl : ∀ i, load (State.setNode { s with cmds := s.cmds.eraseIdx k, next := s.next + 1, home := upd s.home s.next n, far := upd s.far s.next sAddr, asker := upd s.asker s.next false, pairs := s.pairs ++ [(src, s.next)] } n
          { s.node n with np1 := upd (s.node n).np1 fd (some s.next), worker := some (fd, s.next, sEid, sAddr), allocId := some fd }) i = load s i := by
        intro i
        have := countP_eraseIdx (p := fun q : Nat × Body => isReq i q.2) hk
        simp only [load, State.setNode, List.countP_append, List.countP_cons, List.countP_nil, beq_iff_eq, isReq] at this ⊢
        omega
      refine ⟨fun i => ?_, fun i hi => ?_, fun i j c hi hj => ?_, fun i j hij => ?_⟩
      · rw [hl]; exact h.le i
      · rw [hl]
        have hi' : s.next + 1 ≤ i := hi
        exact h.new i (by omega)
      · rcases List.mem_append.1 hi with hi | hi <;> rcases List.mem_append.1 hj with hj | hj
        · exact h.snd i j c hi hj
        · have hj' : j = src ∧ c = s.next := by simpa using hj
          have := h.lt _ _ hi
          omega
        · have hi' : i = src ∧ c = s.next := by simpa using hi
          have := h.lt _ _ hj
          omega
        · have hj' : j = src ∧ c = s.next := by simpa using hj
          have hi' : i = src ∧ c = s.next := by simpa using hi
          rw [hi'.1, hj'.1]
      · rcases List.mem_append.1 hij with hij | hij
        · exact Nat.lt_succ_of_lt (h.lt i j hij)
        · have hj' : i = src ∧ j = s.next := by simpa using hij
          rw [hj'.2]; exact Nat.lt_succ_self _
  | setup n rnd =>
    simp only [step, stepSetup] at hs
    split at hs <;> cases hs
    exact h.of_le le_rfl rfl (fun _ => le_rfl)
  | respond n fd hop =>
    simp only [step, stepRespond] at hs
    split at hs
    swap
    · cases hs
    split at hs <;> rename_i hw <;> cases hs
    · exact h.of_le le_rfl rfl (fun _ => le_rfl)
    · obtain ⟨-, -, -, h3⟩ := dtWrite_some hw
      refine h.of_le le_rfl rfl (fun i => ?_)
      simp [load, State.setNode, List.countP_append, h3, isReq]
  | reply n k =>
    simp only [step, stepReply] at hs
    split at hs
    swap
    · cases hs
    split at hs
    swap
    · cases hs
    split at hs
    swap
    · cases hs
    split at hs <;> cases hs <;> refine h.of_le le_rfl rfl (fun i => ?_)
    all_goals
      have := erase_le (fun q : Nat × Body => isReq i q.2) s.cmds k
      simp only [load, State.setNode]; omega
  | update n k =>
    simp only [step, stepUpdate] at hs
    split at hs
    swap
    · cases hs
    split at hs
    swap
    · cases hs
    split at hs
    swap
    · cases hs
    split at hs <;> cases hs <;> refine h.of_le le_rfl rfl (fun i => ?_)
    all_goals
      have := erase_le (fun q : Nat × Body => isReq i q.2) s.cmds k
      simp only [load]; omega
  | write i b =>
    simp only [step, stepWrite] at hs
    split at hs <;> cases hs
    exact h.of_le le_rfl rfl (fun _ => le_rfl)
  | read n fd =>
    simp only [step, stepRead] at hs
    split at hs
    swap
    · cases hs
    split at hs
    · cases hs
    split at hs <;> cases hs
    exact h.of_le le_rfl rfl (fun _ => le_rfl)
  | send k hop =>
    simp only [step, stepSend] at hs
    split at hs
    · cases hs
    cases hs
    refine h.of_le le_rfl rfl (fun i => ?_)
    simp only [load]
    rw [countP_post rfl]
  | hop k next =>
    simp only [step, stepHop] at hs
    split at hs
    · cases hs
    rename_i n p hk
    split at hs
    · cases hs
    split at hs
    · cases hs
      refine h.of_le le_rfl rfl (fun i => ?_)
      have := erase_le (fun q : Nat × Pkt => isReq i q.2.body) s.transit k
      simp only [load]; omega
    split at hs <;> cases hs <;> refine h.of_le le_rfl rfl (fun i => ?_)
    · have := erase_le (fun q : Nat × Pkt => isReq i q.2.body) s.transit k
      simp only [load]; omega
    · have := countP_eraseIdx (p := fun q : Nat × Pkt => isReq i q.2.body) hk
      simp only [load, List.countP_append, List.countP_cons, List.countP_nil] at this ⊢
      omega
  | arrive k report =>
    simp only [step, stepArrive] at hs
    split at hs
    · cases hs
    rename_i n p hk
    split at hs
    · cases hs
    have her := fun i => erase_le (fun q : Nat × Pkt => isReq i q.2.body) s.transit k
    split at hs
    · split at hs
      · split at hs <;> cases hs <;> refine h.of_le le_rfl rfl (fun i => ?_)
        all_goals
          have := her i
          simp only [load]; omega
      · cases hs
        refine h.of_le le_rfl rfl (fun i => ?_)
        have := her i
        simp only [load]; omega
    · split at hs <;> cases hs <;> refine h.of_le le_rfl rfl (fun i => ?_)
      · have := countP_eraseIdx (p := fun q : Nat × Pkt => isReq i q.2.body) hk
        simp only [load, List.countP_append, List.countP_cons, List.countP_nil] at this ⊢
        omega
      · have := her i
        simp only [load]; omega
  | lose k =>
    simp only [step] at hs
    split at hs <;> cases hs
    refine h.of_le le_rfl rfl (fun i => ?_)
    have := erase_le (fun q : Nat × Pkt => isReq i q.2.body) s.transit k
    simp only [load]; omega
  | dup k => exact absurd rfl (hd k)
  | deliver k =>
    simp only [step, stepDeliver] at hs
    split at hs
    · cases hs
    split at hs
    · cases hs; exact h.of_le le_rfl rfl (fun _ => le_rfl)
    split at hs <;> cases hs <;> exact h.of_le le_rfl rfl (fun _ => le_rfl)
  | notify k hop =>
    simp only [step, stepNotify] at hs
    split at hs
    · cases hs
    cases hs
    refine h.of_le le_rfl rfl (fun i => ?_)
    simp only [load]
    rw [countP_post rfl]
  | close n fd =>
    simp only [step, stepClose] at hs
    split at hs <;> cases hs
    exact h.of_le le_rfl rfl (fun _ => le_rfl)
  | clear n fd =>
    simp only [step, stepClear] at hs
    split at hs
    · cases hs
    split at hs <;> cases hs
    exact h.of_le le_rfl rfl (fun _ => le_rfl)
  | release n fd =>
    simp only [step, stepRelease] at hs
    split at hs <;> cases hs
    exact h.of_le le_rfl rfl (fun _ => le_rfl)

theorem ReachOnce.reach {L : Layer} {s : State} (h : ReachOnce L s) : Reach L s := by
  induction h with
  | init => exact .init
  | step _ hp _ hs ih => exact .step ih hp hs

theorem once_reach {L : Layer} {s : State} (h : ReachOnce L s) : Once s := by
  induction h with
  | init => exact ⟨fun _ => Nat.zero_le _, fun _ _ => rfl, fun _ _ _ h => (by cases h), fun _ _ h => (by cases h)⟩
  | step _ _ hd hs ih => exact once_step ih hd hs

theorem Once.fst {s : State} (h : Once s) {i j k : Nat} (hj : (i, j) ∈ s.pairs) (hk : (i, k) ∈ s.pairs) : j = k := by
  by_contra hne
  have h1 := h.le i
  have h2 : 2 ≤ s.pairs.countP (fun q => q.1 == i) := by
    rw [List.countP_eq_length_filter]
    have a1 : (i, j) ∈ s.pairs.filter (fun q => q.1 == i) := List.mem_filter.2 ⟨hj, by simp⟩
    have a2 : (i, k) ∈ s.pairs.filter (fun q => q.1 == i) := List.mem_filter.2 ⟨hk, by simp⟩
    match hl : s.pairs.filter (fun q => q.1 == i) with
    | [] => rw [hl] at a1; cases a1
    | [x] =>
      rw [hl, List.mem_singleton] at a1 a2
      have := a1.trans a2.symm
      exact absurd (Prod.mk.inj this).2 hne
    | x :: y :: l => rw [hl]; simp
  simp only [load] at h1
  omega

/-! ### Awaited responses -/

theorem setNode_allocId {s : State} {n m : Nat} {x : Node} (h : x.allocId = (s.node n).allocId) :
    ((s.setNode n x).node m).allocId = (s.node m).allocId := by
  simp only [State.setNode]
  by_cases e : m = n
  · rw [e, upd_self, h]
  · rw [upd_ne _ _ e]

theorem awaited_step {L : Layer} {s t : State} {op : Op} {n fd : Nat} (ha : (s.node n).allocId = some fd)
    (hr : ∀ hop, op ≠ .respond n fd hop) (hs : step L s op = some t) : (t.node n).allocId = some fd := by
  rw [← ha]
  cases op with
  | request m k d =>
    simp only [step, stepRequest] at hs
    split at hs
    swap
    · cases hs
    rename_i hc
    split at hs
    swap
    · cases hs
    split at hs
    swap
    · cases hs
    split at hs
    · cases hs; rfl
    · split at hs <;> cases hs
      by_cases e : n = m
      · rw [e] at ha; rw [ha] at hc; simp at hc
      · simp only [State.setNode, upd_ne _ _ e]
  | respond m d hop =>
    simp only [step, stepRespond] at hs
    split at hs
    swap
    · cases hs
    rename_i hc
    have hne : n ≠ m := fun e => by
      rw [e, hc] at ha
      cases ha
      exact hr hop (by rw [e])
    split at hs <;> cases hs <;> simp only [State.setNode, upd_ne _ _ hne]
  | _ =>
    simp only [step, stepAlloc, stepRegister, stepSetup, stepReply, stepUpdate, stepWrite, stepRead, stepSend, stepHop, stepArrive, stepDeliver,
      stepNotify, stepClose, stepClear, stepRelease, Option.map_eq_some_iff] at hs
    repeat' (split at hs)
    all_goals first
      | (cases hs; done)
      | (cases hs; first | rfl | exact setNode_allocId rfl)
      | (obtain ⟨_, _, rfl⟩ := hs; rfl)

/-! ### Runs -/

/-- `Member`, as a test. -/
def memberB (L : Layer) (hop : Option Nat) : Bool := hop.all (fun m => decide (m < L.size))

theorem member_of {L : Layer} {hop : Option Nat} (h : memberB L hop = true) : Member L hop := by
  intro m hm
  rw [hm] at h
  simpa [memberB] using h

/-- `Proper`, as a test. -/
def properB (L : Layer) (s : State) : Op → Bool
  | .alloc n fd rnd _ hop => decide (n < L.size) && memberB L hop && rnd.isSome && (List.range s.next).all (fun i => s.home i != n || s.eidOf i != some (genEid L fd rnd)) &&
      s.writing.all (fun w => w.1 != n || w.2.1 != fd)
  | .request n _ fd => s.writing.all (fun w => w.1 != n || some w.2.1 != fd)
  | .setup n rnd => rnd.isSome && match (s.node n).worker with
      | none => true
      | some (fd, _) => (List.range s.next).all (fun i => s.home i != n || s.eidOf i != some (genEid L fd rnd))
  | .clear n fd => ((s.node n).allocating fd).isNone && (match (s.node n).worker with | none => true | some (d, _) => d != fd) &&
      (s.node n).allocId != some fd && s.reading.all (fun w => w.1 != n || w.2.1 != fd)
  | .respond _ _ hop => memberB L hop
  | .send _ hop => memberB L hop
  | .hop _ next => memberB L next
  | .notify _ hop => memberB L hop
  | _ => true

theorem fresh_of {L : Layer} {s : State} (h : Inv L s) {n : Nat} {e : BitVec 64}
    (hb : (List.range s.next).all (fun i => s.home i != n || s.eidOf i != some e) = true) : Fresh s n e := by
  intro i hi he
  have hlt := h.ghost.old i e he
  have := List.all_eq_true.1 hb i (List.mem_range.2 hlt)
  simp [hi, he] at this

theorem proper_of {L : Layer} {s : State} (h : Inv L s) {op : Op} (hb : properB L s op = true) : Proper L s op := by
  cases op with
  | alloc n fd rnd dst hop =>
    simp only [properB, Bool.and_eq_true] at hb
    obtain ⟨⟨⟨⟨h4, h5⟩, h1⟩, h2⟩, h3⟩ := hb
    refine ⟨fun e => (by rw [e] at h1; cases h1), fresh_of h h2, fun i b hm => ?_, of_decide_eq_true h4, member_of h5⟩
    have := List.all_eq_true.1 h3 _ hm
    simp at this
  | request n k fd =>
    intro d hd i b hm
    have := List.all_eq_true.1 hb _ hm
    simp [hd] at this
  | setup n rnd =>
    simp only [properB, Bool.and_eq_true] at hb
    refine ⟨fun e => (by rw [e] at hb; cases hb.1), fun fd j e a hw => ?_⟩
    rw [hw] at hb
    exact fresh_of h hb.2
  | clear n fd =>
    simp only [properB, Bool.and_eq_true] at hb
    obtain ⟨⟨⟨h1, h2⟩, h3⟩, h4⟩ := hb
    refine ⟨by simpa using h1, fun j e a hw => ?_, by simpa using h3, fun i b hm => ?_⟩
    · rw [hw] at h2; simp at h2
    · have := List.all_eq_true.1 h4 _ hm
      simp at this
  | respond n fd hop => exact member_of hb
  | send k hop => exact member_of hb
  | hop k next => exact member_of hb
  | notify k hop => exact member_of hb
  | _ => trivial

/-- Not a duplication. -/
def notDup : Op → Bool
  | .dup _ => false
  | _ => true

/-- A history of proper steps. -/
def runP (L : Layer) (s : State) : List Op → Option State
  | [] => some s
  | op :: ops => if properB L s op then (step L s op).bind fun s => runP L s ops else none

theorem once_runP {L : Layer} (hL : L.Ok) {s : State} (h : ReachOnce L s) : ∀ {ops : List Op} {t : State}, ops.all notDup = true →
    runP L s ops = some t → ReachOnce L t
  | [], t, _, ht => by cases ht; exact h
  | op :: ops, t, hd, ht => by
    rw [List.all_cons, Bool.and_eq_true] at hd
    simp only [runP] at ht
    split at ht
    · rename_i hc
      cases hst : step L s op with
      | none => rw [hst] at ht; cases ht
      | some u =>
        rw [hst] at ht
        refine once_runP hL (.step h (proper_of (inv_reach hL h.reach) hc) (fun k e => ?_) hst) hd.2 ht
        subst e; exact Bool.noConfusion hd.1
    · cases ht

theorem reach_runP {L : Layer} (hL : L.Ok) {s : State} (h : Reach L s) : ∀ {ops : List Op} {t : State}, runP L s ops = some t → Reach L t
  | [], t, ht => by cases ht; exact h
  | op :: ops, t, ht => by
    simp only [runP] at ht
    split at ht
    · rename_i hc
      cases hst : step L s op with
      | none => rw [hst] at ht; cases ht
      | some u =>
        rw [hst] at ht
        exact reach_runP hL (.step h (proper_of (inv_reach hL h) hc) hst) ht
    · cases ht

/-- What a history ends in satisfies a test. -/
theorem some_of_all {s : Option State} {p : State → Bool} (h : (s.map p) = some true) : ∃ t, s = some t ∧ p t = true := by
  cases s with
  | none => cases h
  | some t => exact ⟨t, rfl, by simpa using h⟩

/-- A layer of three members. -/
def demo : Layer := ⟨3, fun n => BitVec.ofNat 64 (n + 1), 2, 60⟩

theorem demo_ok : demo.Ok := ⟨fun n m hn hm h => by
  have hn' : n < 3 := hn
  have hm' : m < 3 := hm
  have := congrArg BitVec.toNat h
  simp only [demo, BitVec.toNat_ofNat] at this
  omega, by decide⟩

/-- A flow between members 0 and 2; its first packet is routed by member 1. -/
def opened : List Op :=
  [.alloc 0 64 (some 5) 3 (some 1), .hop 0 (some 2), .arrive 0 false, .request 2 0 (some 64), .setup 2 (some 7), .register 0 64,
    .respond 2 64 (some 0), .arrive 0 false, .reply 0 0]

end Ouro.Unicast
