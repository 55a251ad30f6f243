import Verif.Spec.FrctHistory
import Verif.Props.Seqno
import Verif.Proof.Tac

namespace Ouro.Frct

open Ouro Ouro.Seqno Spec.FrctHistory

/-! ## Sequence number arithmetic -/

theorem add_toNat (c : W) (n : Nat) : (c + BitVec.ofNat 32 n).toNat = (c.toNat + n) % 2 ^ 32 := by
  simp [BitVec.toNat_add]

theorem w_eq {x y : W} (h : x.toNat = y.toNat) : x = y := BitVec.eq_of_toNat_eq h

theorem add_inj (c : W) (i j : Nat) : c + BitVec.ofNat 32 i = c + BitVec.ofNat 32 j ↔ i % 2 ^ 32 = j % 2 ^ 32 := by
  constructor
  · intro h
    have := congrArg BitVec.toNat h
    rw [add_toNat, add_toNat] at this
    have := c.isLt
    omega
  · intro h
    apply w_eq
    rw [add_toNat, add_toNat]
    omega

theorem add_succ (c : W) (n : Nat) : c + BitVec.ofNat 32 n + 1#32 = c + BitVec.ofNat 32 (n + 1) := by
  apply w_eq
  rw [add_toNat, BitVec.toNat_add, add_toNat]
  simp only [BitVec.toNat_ofNat]
  omega

theorem add_256 (c : W) (n : Nat) : c + BitVec.ofNat 32 n + 256#32 = c + BitVec.ofNat 32 (n + 256) := by
  apply w_eq
  rw [add_toNat, BitVec.toNat_add, add_toNat]
  simp only [BitVec.toNat_ofNat]
  omega

theorem sub_add_cancel' (r : W) (n : Nat) : r - BitVec.ofNat 32 n + BitVec.ofNat 32 n = r := BitVec.sub_add_cancel _ _

theorem before_add (c : W) (i j : Nat) (h1 : i < j + 2 ^ 31) (h2 : j ≤ i + 2 ^ 31) :
    before (c + BitVec.ofNat 32 i) (c + BitVec.ofNat 32 j) = true ↔ i < j := by
  rw [before_iff]
  unfold dist
  rw [add_toNat, add_toNat]
  have := c.isLt
  omega

theorem after_add (c : W) (i j : Nat) (h1 : j < i + 2 ^ 31) (h2 : i ≤ j + 2 ^ 31) :
    after (c + BitVec.ofNat 32 i) (c + BitVec.ofNat 32 j) = true ↔ j < i := by
  rw [C10_after]
  exact before_add c j i h1 h2

theorem pos_lt (s : W) : pos s < 256 := by
  unfold pos
  rw [BitVec.toNat_and]
  exact Nat.lt_of_le_of_lt Nat.and_le_right (by decide)

theorem pos_add (c : W) (n : Nat) : pos (c + BitVec.ofNat 32 n) = (c.toNat + n) % 256 := by
  unfold pos
  rw [BitVec.toNat_and, add_toNat]
  have : (255#32).toNat = 2 ^ 8 - 1 := rfl
  rw [this, Nat.and_two_pow_sub_one_eq_mod]
  omega

theorem pos_inj (c : W) (i j D : Nat) (hi : D ≤ i) (hi' : i < D + 256) (hj : D ≤ j) (hj' : j < D + 256)
    (h : pos (c + BitVec.ofNat 32 i) = pos (c + BitVec.ofNat 32 j)) : i = j := by
  rw [pos_add, pos_add] at h
  omega

/-! ## Pairs indexed by `Bool` -/

@[simp] theorem upd_same {α : Type} (f : Bool → α) (d : Bool) (x : α) : upd f d x d = x := by simp [upd]
@[simp] theorem upd_not {α : Type} (f : Bool → α) (d : Bool) (x : α) : upd f d x (!d) = f (!d) := by cases d <;> simp [upd]
@[simp] theorem upd_not' {α : Type} (f : Bool → α) (d : Bool) (x : α) : upd f (!d) x d = f d := by cases d <;> simp [upd]

/-! ## The invariant of one direction -/

/-- When packet `g` was first sent. -/
def τ (D : Dir) (g : Nat) : Int := D.t0.getD g 0

/-- A packet with data, on the wire or waiting to be sent again. -/
structure DataOk (D : Dir) (dead : Prop) (p : Pkt) (t : Tag) : Prop where
  lt : t.idx < D.sent.length
  pl : D.sent[t.idx]? = some p.payload
  run : (t.run = D.run ∧ D.start ≤ t.idx ∧ p.seqno = D.base + BitVec.ofNat 32 t.idx ∧ (p.drf = true → t.idx ≤ D.got.length)) ∨
    (t.run < D.run ∧ t.idx < D.start ∧ dead)

/-- The invariant of the packets from the application behind `S` to the application behind `R`. -/
structure View (mpl a r : Nat) (now : Int) (S R : Ep) (nd nb : List Sent) (rx : List Entry) (D : Dir) (dn : Bool) : Prop where
  frtxS : S.snd.frtx = true
  frtxR : R.rcv.frtx = true
  hr : S.r = r * BILLION
  hsi : S.snd.inact = 3 * mpl + a + r + 1
  hri : R.rcv.inact = 2 * mpl + a + r + 1
  lenT : D.t0.length = D.sent.length
  mono : ∀ i j, i ≤ j → j < D.sent.length → τ D i ≤ τ D j
  tnow : ∀ g, g < D.sent.length → τ D g ≤ now
  act : ∀ g, g < D.sent.length → τ D g ≤ S.snd.act
  run0 : D.run = 0 → D.sent.length = 0
  idle0 : D.run = 0 → ∀ t, now ≤ t → inactive S.snd t = true
  ld : D.acked ≤ D.got.length
  dg : D.got.length ≤ D.sent.length
  flight : D.sent.length < D.acked + 2 ^ 31
  st : D.start ≤ D.acked
  lweS : S.snd.lwe = D.base + BitVec.ofNat 32 D.acked
  seqS : S.snd.seqno = D.base + BitVec.ofNat 32 D.sent.length
  got : D.got = D.sent.take D.got.length
  rr : D.rrun ≤ D.run
  lag : D.rrun ≠ D.run → D.got.length = D.start ∧ ∀ i, R.rq i = none
  cur1 : D.rrun = D.run → R.rcv.lwe = D.base + BitVec.ofNat 32 D.got.length
  cur2 : D.rrun = D.run → 0 < D.run → R.rcv.rwe = D.base + BitVec.ofNat 32 (D.got.length + 256)
  rq : ∀ i b, R.rq i = some b → ∃ g, D.got.length ≤ g ∧ g < D.got.length + 256 ∧ g < D.sent.length ∧
    i = pos (D.base + BitVec.ofNat 32 g) ∧ D.sent[g]? = some b ∧ τ D g ≤ R.rcv.act
  seen : ∀ g, g < D.got.length → τ D g ≤ R.rcv.act
  actR : R.rcv.act ≤ now
  data : ∀ q ∈ nd, q.pkt.data = true →
    DataOk D (q.at_ + mpl * BILLION < now) q.pkt q.tag ∧ q.at_ ≤ τ D q.tag.idx + r * BILLION
  nodrf : ∀ q ∈ nd, q.pkt.drf = true → q.pkt.data = true
  acks : ∀ q ∈ nb, q.pkt.ack = true → q.tag.rRun ≤ D.rrun ∧
    (q.tag.rRun = D.run → q.pkt.ackno = D.base + BitVec.ofNat 32 q.tag.rIdx ∧ q.tag.rIdx ≤ D.got.length)
  rxm : ∀ x ∈ rx, DataOk D (τ D x.tag.idx + r * BILLION < now) x.rxm.pkt x.tag ∧ x.rxm.pkt.data = true ∧
    x.rxm.t0 = τ D x.tag.idx ∧ x.rxm.seqno = x.rxm.pkt.seqno
  keep : ∀ g, D.got.length ≤ g → g < D.sent.length → g ∈ D.lost ∨ dn = true ∨ ∃ x ∈ rx, x.tag.idx = g

theorem DataOk.mono {D : Dir} {p q : Prop} {k : Pkt} {t : Tag} (h : DataOk D p k t) (hpq : p → q) : DataOk D q k t :=
  ⟨h.lt, h.pl, h.run.imp id fun ⟨a, b, c⟩ => ⟨a, b, hpq c⟩⟩

/-- Nothing of this direction changes, except that packets without data may be sent, acknowledgements may be sent by the receiver, and
    time passes. -/
theorem View.frame {mpl a r : Nat} {now now' : Int} {S S' R R' : Ep} {nd nd' nb nb' : List Sent} {rx : List Entry} {D : Dir} {dn : Bool}
    (h : View mpl a r now S R nd nb rx D dn) (hn : now ≤ now')
    (s1 : S'.snd.frtx = S.snd.frtx) (s2 : S'.r = S.r) (s3 : S'.snd.inact = S.snd.inact) (s4 : S'.snd.act = S.snd.act)
    (s5 : S'.snd.lwe = S.snd.lwe) (s6 : S'.snd.seqno = S.snd.seqno)
    (r1 : R'.rcv.frtx = R.rcv.frtx) (r2 : R'.rcv.inact = R.rcv.inact) (r3 : R'.rcv.act = R.rcv.act) (r4 : R'.rcv.lwe = R.rcv.lwe)
    (r5 : R'.rcv.rwe = R.rcv.rwe) (r6 : R'.rq = R.rq)
    (hd : ∀ q ∈ nd', q ∈ nd ∨ (q.pkt.data = false ∧ q.pkt.drf = false))
    (hb : ∀ q ∈ nb', q ∈ nb ∨ (q.pkt.ack = true → q.tag.rRun = D.rrun ∧ q.tag.rIdx = D.got.length ∧ q.pkt.ackno = R.rcv.lwe)) :
    View mpl a r now' S' R' nd' nb' rx D dn where
  frtxS := by rw [s1]; exact h.frtxS
  frtxR := by rw [r1]; exact h.frtxR
  hr := by rw [s2]; exact h.hr
  hsi := by rw [s3]; exact h.hsi
  hri := by rw [r2]; exact h.hri
  lenT := h.lenT
  mono := h.mono
  tnow g hg := le_trans (h.tnow g hg) hn
  act := by rw [s4]; exact h.act
  run0 := h.run0
  idle0 h0 t ht := by
    have := h.idle0 h0 t (le_trans hn ht)
    unfold inactive at this ⊢
    rw [s3, s4]; exact this
  ld := h.ld
  dg := h.dg
  flight := h.flight
  st := h.st
  lweS := by rw [s5]; exact h.lweS
  seqS := by rw [s6]; exact h.seqS
  got := h.got
  rr := h.rr
  lag := by rw [r6]; exact h.lag
  cur1 := by rw [r4]; exact h.cur1
  cur2 := by rw [r5]; exact h.cur2
  rq := by rw [r6, r3]; exact h.rq
  seen := by rw [r3]; exact h.seen
  actR := by rw [r3]; exact le_trans h.actR hn
  data q hq hdq := by
    rcases hd q hq with h1 | h1
    · have := h.data q h1 hdq
      exact ⟨this.1.mono fun hh => lt_of_lt_of_le hh hn, this.2⟩
    · rw [h1.1] at hdq; cases hdq
  nodrf q hq hdq := by
    rcases hd q hq with h1 | h1
    · exact h.nodrf q h1 hdq
    · rw [h1.2] at hdq; cases hdq
  acks q hq ha := by
    rcases hb q hq with h1 | h1
    · exact h.acks q h1 ha
    · obtain ⟨e1, e2, e3⟩ := h1 ha
      refine ⟨le_of_eq e1, fun hh => ⟨?_, le_of_eq e2⟩⟩
      rw [e3, e2]
      exact h.cur1 (by rw [← e1, hh])
  rxm x hx := by
    have := h.rxm x hx
    exact ⟨this.1.mono fun hh => lt_of_lt_of_le hh hn, this.2⟩
  keep := h.keep

/-! ## Time -/

theorem B_pos : (0 : Int) < BILLION := by decide

/-- What the inactivity test says about the times themselves. -/
theorem inactive_gap {c : Cr} {now : Int} (h : inactive c now = true) : c.act + c.inact * BILLION < now := by
  unfold inactive tsec at h
  have h := of_decide_eq_true h
  simp only [BILLION] at h ⊢
  omega

/-! ## Writing -/

theorem τ_append (D : Dir) (now : Int) (h : D.t0.length = D.sent.length) (g : Nat) (hg : g < D.sent.length) :
    (D.t0 ++ [now]).getD g 0 = τ D g := by
  unfold τ
  rw [List.getD_eq_getElem?_getD, List.getD_eq_getElem?_getD, List.getElem?_append_left (by omega)]

theorem τ_last (D : Dir) (now : Int) (h : D.t0.length = D.sent.length) : (D.t0 ++ [now]).getD D.sent.length 0 = now := by
  rw [List.getD_eq_getElem?_getD, List.getElem?_append_right (by omega)]
  simp [h]

theorem newRun_inv {e e' : Ep} {now : Int} {rnd : W} (h : newRun e now rnd = .ok e') :
    (inactive e.snd now = true ∧ e.snd.seqno = e.snd.lwe ∧
      e' = { e with snd := { e.snd with seqno := rnd, lwe := rnd, rwe := rnd + START_WINDOW } }) ∨
    (inactive e.snd now = false ∧ e' = e) := by
  unfold newRun at h
  cases hi : inactive e.snd now
  · rw [hi] at h
    right
    simp only [Bool.false_eq_true, if_false] at h
    exact ⟨rfl, (Outcome.ok.inj h).symm⟩
  · rw [hi] at h
    left
    simp only [if_true] at h
    split at h
    · rename_i hq
      exact ⟨rfl, hq, (Outcome.ok.inj h).symm⟩
    · cases h

theorem snd_inv {e e' : Ep} {b : List Byte} {now : Int} {rnd : W} {p : Pkt} (h : snd e b now rnd = .ok (e', p)) :
    ∃ e1, newRun e now rnd = .ok e1 ∧ e' = sndEp e1 now ∧ p = sndPkt e1 (e.snd.seqno == e.snd.lwe) b now := by
  unfold snd at h
  dsimp only at h
  cases hn : newRun e now rnd with
  | ub => rw [hn] at h; simp only [Outcome.bind_ub] at h; cases h
  | ok e1 =>
    rw [hn] at h
    simp only [Outcome.bind_ok, Outcome.pure_eq] at h
    have := Outcome.ok.inj h
    exact ⟨e1, rfl, (congrArg Prod.fst this).symm, (congrArg Prod.snd this).symm⟩

theorem View.write {mpl a r : Nat} {now now' : Int} {S R : Ep} {nd nb : List Sent} {rx : List Entry} {D : Dir} {dn : Bool}
    (h : View mpl a r now S R nd nb rx D dn) (hn : now ≤ now') {b : List Byte} {rnd : W} {S' : Ep} {p : Pkt}
    (hs : Frct.snd S b now' rnd = .ok (S', p)) (hcap : D.sent.length + 1 < D.acked + 2 ^ 31) (armed out : Bool) (t : Tag)
    (ht1 : t.run = (dirWrite D (inactive S.snd now') b now' rnd armed).run) (ht2 : t.idx = D.sent.length) :
    View mpl a r now' S' R
      (if out then nd ++ [⟨p, now', t⟩] else nd) nb
      (if S'.snd.frtx && armed then
        rx ++ [⟨⟨p.seqno, now', p⟩, t⟩] else rx)
      (dirWrite D (inactive S.snd now') b now' rnd armed) dn := by
  obtain ⟨S1, hrun, rfl, rfl⟩ := snd_inv hs
  have hlen : (D.sent ++ [b]).length = D.sent.length + 1 := by simp
  have hτ : ∀ g, g < D.sent.length → τ (dirWrite D (inactive S.snd now') b now' rnd armed) g = τ D g := fun g hg =>
    τ_append D now' h.lenT g hg
  have hτl : τ (dirWrite D (inactive S.snd now') b now' rnd armed) D.sent.length = now' := τ_last D now' h.lenT
  have hget : ∀ g, g < D.sent.length → (D.sent ++ [b])[g]? = D.sent[g]? := fun g hg => List.getElem?_append_left hg
  have hgetl : (D.sent ++ [b])[D.sent.length]? = some b := by simp
  have hdrf : (S.snd.seqno == S.snd.lwe) = true → D.sent.length = D.acked := by
    intro hh
    have := eq_of_beq hh
    rw [h.seqS, h.lweS, add_inj] at this
    have := h.flight; have := h.ld; have := h.dg
    omega
  have hS1f : S1.snd.frtx = true := by
    rcases newRun_inv hrun with ⟨_, _, e⟩ | ⟨_, e⟩ <;> rw [e] <;> exact h.frtxS
  have hS1seq : S1.snd.seqno = (dirWrite D (inactive S.snd now') b now' rnd armed).base + BitVec.ofNat 32 D.sent.length := by
    rcases newRun_inv hrun with ⟨hi, _, e⟩ | ⟨hi, e⟩ <;> rw [e, hi]
    · simp only [dirWrite, if_true, sub_add_cancel']
    · simp [dirWrite, h.seqS]
  have hS1lwe : S1.snd.lwe = (dirWrite D (inactive S.snd now') b now' rnd armed).base + BitVec.ofNat 32 D.acked := by
    rcases newRun_inv hrun with ⟨hi, hq, e⟩ | ⟨hi, e⟩ <;> rw [e, hi]
    · have := hdrf (by simp [hq])
      simp only [dirWrite, if_true, ← this, sub_add_cancel']
    · simp [dirWrite, h.lweS]
  have hS1in : S1.snd.inact = S.snd.inact := by
    rcases newRun_inv hrun with ⟨hi, hq, e⟩ | ⟨hi, e⟩ <;> rw [e]
  have hS1r : S1.r = S.r := by
    rcases newRun_inv hrun with ⟨hi, hq, e⟩ | ⟨hi, e⟩ <;> rw [e]
  have hfresh : inactive S.snd now' = true → D.sent.length = D.acked ∧ D.got.length = D.sent.length := by
    intro hi
    rcases newRun_inv hrun with ⟨_, hq, e⟩ | ⟨hi', e⟩
    · have h1 := hdrf (by simp [hq])
      have := h.ld; have := h.dg
      exact ⟨h1, by omega⟩
    · rw [hi] at hi'; cases hi'
  have hdead : inactive S.snd now' = true → ∀ g, g < D.sent.length → τ D g + r * BILLION + mpl * BILLION < now' := by
    intro hi g hg
    have h1 := inactive_gap hi
    have h2 := h.act g hg
    rw [h.hsi] at h1
    simp only [BILLION] at h1 ⊢
    omega
  have hrunle : D.run ≤ (dirWrite D (inactive S.snd now') b now' rnd armed).run := by simp [dirWrite]
  -- packets that existed before
  have hold : ∀ (q : Prop) (k : Pkt) (t : Tag), DataOk D q k t → (inactive S.snd now' = true → t.run = D.run → q) →
      DataOk (dirWrite D (inactive S.snd now') b now' rnd armed) q k t := by
    intro q k t hk hq
    refine ⟨?_, ?_, ?_⟩
    · show t.idx < (D.sent ++ [b]).length
      have := hk.lt; omega
    · show (D.sent ++ [b])[t.idx]? = _
      rw [hget _ hk.lt]; exact hk.pl
    · cases hi : inactive S.snd now'
      · simp only [dirWrite, Bool.toNat_false, Nat.add_zero, Bool.false_eq_true, if_false]
        exact hk.run
      · right
        simp only [dirWrite, Bool.toNat_true, if_true]
        rcases hk.run with h1 | h1
        · exact ⟨by omega, hk.lt, hq hi h1.1⟩
        · exact ⟨by omega, hk.lt, h1.2.2⟩
  have hnew : ∀ q : Prop, DataOk (dirWrite D (inactive S.snd now') b now' rnd armed) q
      (sndPkt S1 (S.snd.seqno == S.snd.lwe) b now') t := by
    intro q
    refine ⟨?_, by rw [ht2]; exact hgetl, Or.inl ⟨ht1, ?_, by rw [ht2]; exact hS1seq, ?_⟩⟩
    · show t.idx < (D.sent ++ [b]).length
      omega
    · show (if _ then D.sent.length else D.start) ≤ t.idx
      rw [ht2]
      have := h.st; have := h.ld; have := h.dg
      split <;> omega
    · intro hh
      have := hdrf hh
      have := h.ld
      show t.idx ≤ D.got.length
      omega
  exact
    { frtxS := hS1f
      frtxR := h.frtxR
      hr := by show S1.r = _; rw [hS1r, h.hr]
      hsi := by show S1.snd.inact = _; rw [hS1in, h.hsi]
      hri := h.hri
      lenT := by simp [dirWrite, h.lenT]
      mono := by
        intro i j hij hj
        have hj : j < D.sent.length + 1 := by simpa [dirWrite] using hj
        by_cases hj' : j < D.sent.length
        · rw [hτ i (by omega), hτ j hj']; exact h.mono i j hij hj'
        · have : j = D.sent.length := by omega
          subst this
          rw [hτl]
          by_cases hi : i < D.sent.length
          · rw [hτ i hi]; exact le_trans (h.tnow i hi) hn
          · have : i = D.sent.length := by omega
            rw [this, hτl]
      tnow := by
        intro g hg
        have hg : g < D.sent.length + 1 := by simpa [dirWrite] using hg
        by_cases hg' : g < D.sent.length
        · rw [hτ g hg']; exact le_trans (h.tnow g hg') hn
        · have : g = D.sent.length := by omega
          rw [this, hτl]
      act := by
        intro g hg
        show _ ≤ now'
        have hg : g < D.sent.length + 1 := by simpa [dirWrite] using hg
        by_cases hg' : g < D.sent.length
        · rw [hτ g hg']; exact le_trans (h.tnow g hg') hn
        · have : g = D.sent.length := by omega
          rw [this, hτl]
      run0 := by
        intro h0
        exfalso
        have h1 : D.run = 0 := by simp only [dirWrite] at h0; omega
        rw [h.idle0 h1 now' hn] at h0
        simp [dirWrite] at h0
      idle0 := by
        intro h0
        exfalso
        have h1 : D.run = 0 := by simp only [dirWrite] at h0; omega
        rw [h.idle0 h1 now' hn] at h0
        simp [dirWrite] at h0
      ld := h.ld
      dg := by show D.got.length ≤ (D.sent ++ [b]).length; have := h.dg; omega
      flight := by show (D.sent ++ [b]).length < _; rw [hlen]; exact hcap
      st := by
        show (if inactive S.snd now' then D.sent.length else D.start) ≤ D.acked
        split
        · have := hfresh (by assumption); omega
        · exact h.st
      lweS := by
        show (if S1.snd.frtx then S1.snd.lwe else _) = _
        rw [hS1f, if_pos rfl]; exact hS1lwe
      seqS := by
        show S1.snd.seqno + 1#32 = _ + BitVec.ofNat 32 (D.sent ++ [b]).length
        rw [hS1seq, add_succ, hlen]
      got := by
        show D.got = (D.sent ++ [b]).take D.got.length
        rw [List.take_append_of_le_length h.dg]; exact h.got
      rr := le_trans h.rr hrunle
      lag := by
        intro hne
        cases hi : inactive S.snd now'
        · rw [hi] at hne
          simp only [dirWrite, Bool.toNat_false, Nat.add_zero, Bool.false_eq_true, if_false] at hne ⊢
          exact h.lag hne
        · simp only [dirWrite, if_true]
          obtain ⟨h1, h2⟩ := hfresh hi
          refine ⟨h2, ?_⟩
          intro i
          cases hq : R.rq i with
          | none => rfl
          | some c =>
            obtain ⟨g, g1, _, g3, _⟩ := h.rq i c hq
            omega
      cur1 := by
        intro he
        cases hi : inactive S.snd now'
        · rw [hi] at he
          simp only [dirWrite, Bool.toNat_false, Nat.add_zero, Bool.false_eq_true, if_false] at he ⊢
          exact h.cur1 he
        · rw [hi] at he
          simp only [dirWrite, Bool.toNat_true] at he
          have := h.rr; omega
      cur2 := by
        intro he h0
        cases hi : inactive S.snd now'
        · rw [hi] at he h0
          simp only [dirWrite, Bool.toNat_false, Nat.add_zero, Bool.false_eq_true, if_false] at he h0 ⊢
          exact h.cur2 he h0
        · rw [hi] at he
          simp only [dirWrite, Bool.toNat_true] at he
          have := h.rr; omega
      rq := by
        intro i c hq
        obtain ⟨g, g1, g2, g3, g4, g5, g6⟩ := h.rq i c hq
        cases hi : inactive S.snd now'
        · refine ⟨g, g1, g2, ?_, ?_, ?_, ?_⟩
          · show g < (D.sent ++ [b]).length; omega
          · simpa [dirWrite] using g4
          · show (D.sent ++ [b])[g]? = _
            rw [hget g g3]; exact g5
          · have := hτ g g3
            rw [hi] at this
            rw [this]; exact g6
        · have := hfresh hi
          omega
      seen := by
        intro g hg
        have hg : g < D.got.length := hg
        have := h.dg
        rw [hτ g (by omega)]
        exact h.seen g hg
      actR := le_trans h.actR hn
      data := by
        intro q hq hdq
        have hcase : q ∈ nd ∨ q = ⟨sndPkt S1 (S.snd.seqno == S.snd.lwe) b now', now', t⟩ := by
          split at hq
          · simpa using hq
          · exact Or.inl hq
        rcases hcase with hm | rfl
        · obtain ⟨h1, h2⟩ := h.data q hm hdq
          refine ⟨hold _ _ _ (h1.mono fun hh => lt_of_lt_of_le hh hn) ?_, ?_⟩
          · intro hi _
            have := hdead hi _ h1.lt
            omega
          · rw [hτ _ h1.lt]; exact h2
        · refine ⟨hnew _, ?_⟩
          show now' ≤ τ _ t.idx + _
          rw [ht2, hτl]
          have : (0 : Int) ≤ r * BILLION := by simp only [BILLION]; omega
          omega
      nodrf := by
        intro q hq hdq
        have hcase : q ∈ nd ∨ q = ⟨sndPkt S1 (S.snd.seqno == S.snd.lwe) b now', now', t⟩ := by
          split at hq
          · simpa using hq
          · exact Or.inl hq
        rcases hcase with hm | rfl
        · exact h.nodrf q hm hdq
        · rfl
      acks := by
        intro q hq ha
        obtain ⟨h1, h2⟩ := h.acks q hq ha
        refine ⟨h1, fun he => ?_⟩
        cases hi : inactive S.snd now'
        · rw [hi] at he
          simp only [dirWrite, Bool.toNat_false, Nat.add_zero, Bool.false_eq_true, if_false] at he ⊢
          exact h2 he
        · rw [hi] at he
          simp only [dirWrite, Bool.toNat_true] at he
          have := h.rr; omega
      rxm := by
        intro x hx
        have hcase : x ∈ rx ∨ x = ⟨⟨(sndPkt S1 (S.snd.seqno == S.snd.lwe) b now').seqno, now',
            sndPkt S1 (S.snd.seqno == S.snd.lwe) b now'⟩, t⟩ := by
          split at hx
          · simpa using hx
          · exact Or.inl hx
        rcases hcase with hm | rfl
        · obtain ⟨h1, h2, h3, h4⟩ := h.rxm x hm
          refine ⟨hold _ _ _ (h1.mono fun hh => ?_) ?_, h2, ?_, h4⟩
          · rw [hτ _ h1.lt]; exact lt_of_lt_of_le hh hn
          · intro hi _
            have := hdead hi _ h1.lt
            rw [hτ _ h1.lt]
            have : (0 : Int) ≤ mpl * BILLION := by simp only [BILLION]; omega
            omega
          · rw [hτ _ h1.lt]; exact h3
        · exact ⟨hnew _, rfl, by show now' = τ _ t.idx; rw [ht2, hτl], rfl⟩
      keep := by
        intro g hg hg'
        have hg' : g < D.sent.length + 1 := by simpa [dirWrite] using hg'
        have hf : (sndEp S1 now').snd.frtx = true := hS1f
        rw [hf]
        by_cases hlt : g < D.sent.length
        · rcases h.keep g hg hlt with h1 | h1 | ⟨x, hx, h1⟩
          · left
            show g ∈ (if armed then _ else _)
            split
            · exact h1
            · exact List.mem_append_left _ h1
          · exact Or.inr (Or.inl h1)
          · right; right
            refine ⟨x, ?_, h1⟩
            split
            · exact List.mem_append_left _ hx
            · exact hx
        · have : g = D.sent.length := by omega
          subst this
          cases harm : armed
          · left
            show D.sent.length ∈ (if false = true then D.lost else D.lost ++ [D.sent.length])
            simp
          · right; right
            refine ⟨⟨⟨(sndPkt S1 (S.snd.seqno == S.snd.lwe) b now').seqno, now', sndPkt S1 (S.snd.seqno == S.snd.lwe) b now'⟩, t⟩, ?_, ht2⟩
            simp }

/-! ## Time passing at the receiver -/

theorem View.touch {mpl a r : Nat} {now now' : Int} {S R : Ep} {nd nb : List Sent} {rx : List Entry} {D : Dir} {dn : Bool}
    (h : View mpl a r now S R nd nb rx D dn) (hn : now ≤ now') :
    View mpl a r now' S { R with rcv := { R.rcv with act := now' } } nd nb rx D dn :=
  have hra : R.rcv.act ≤ now' := le_trans h.actR hn
  { frtxS := h.frtxS
    frtxR := h.frtxR
    hr := h.hr
    hsi := h.hsi
    hri := h.hri
    lenT := h.lenT
    mono := h.mono
    tnow := fun g hg => le_trans (h.tnow g hg) hn
    act := h.act
    run0 := h.run0
    idle0 := fun h0 t ht => h.idle0 h0 t (le_trans hn ht)
    ld := h.ld
    dg := h.dg
    flight := h.flight
    st := h.st
    lweS := h.lweS
    seqS := h.seqS
    got := h.got
    rr := h.rr
    lag := h.lag
    cur1 := h.cur1
    cur2 := h.cur2
    rq := fun i b hq => by
      obtain ⟨g, g1, g2, g3, g4, g5, g6⟩ := h.rq i b hq
      exact ⟨g, g1, g2, g3, g4, g5, le_trans g6 hra⟩
    seen := fun g hg => le_trans (h.seen g hg) hra
    actR := le_refl _
    data := fun q hq hdq => by
      have := h.data q hq hdq
      exact ⟨this.1.mono fun hh => lt_of_lt_of_le hh hn, this.2⟩
    nodrf := h.nodrf
    acks := h.acks
    rxm := fun x hx => by
      have := h.rxm x hx
      exact ⟨this.1.mono fun hh => lt_of_lt_of_le hh hn, this.2⟩
    keep := h.keep }

/-! ## Expiry of a timer -/

theorem mem_eraseIdx_or {α : Type} {l : List α} {k : Nat} {x : α} (h : x ∈ l) : x ∈ l.eraseIdx k ∨ l[k]? = some x := by
  obtain ⟨j, hj, rfl⟩ := List.getElem_of_mem h
  by_cases hjk : j = k
  · subst hjk; right; exact List.getElem?_eq_getElem hj
  · left
    exact List.mem_eraseIdx_iff_getElem.mpr ⟨j, hj, hjk, rfl⟩

theorem mem_set_or {α : Type} {l : List α} {k : Nat} {x y : α} (h : x ∈ l) : x ∈ l.set k y ∨ l[k]? = some x := by
  obtain ⟨j, hj, rfl⟩ := List.getElem_of_mem h
  by_cases hjk : j = k
  · subst hjk; right; exact List.getElem?_eq_getElem hj
  · left
    apply List.mem_iff_getElem.mpr
    exact ⟨j, by simpa using hj, by rw [List.getElem_set_ne (Ne.symm hjk)]⟩

theorem expire_inv (e : Ep) (x : Rxm) (now : Int) :
    (before x.seqno e.snd.lwe = true ∧ expire e x now = (e, .cleanup)) ∨
    (∃ e', e'.snd = e.snd ∧ e'.rcv = e.rcv ∧ e'.rq = e.rq ∧ e'.r = e.r ∧ expire e x now = (e', .down)) ∨
    (∃ e', e'.snd = e.snd ∧ e'.rcv = e.rcv ∧ e'.rq = e.rq ∧ e'.r = e.r ∧ now - x.t0 ≤ e.r ∧
      expire e x now = (e', .resend { x.pkt with ackno := e.rcv.lwe })) := by
  have hb : (backoff e x).snd = e.snd ∧ (backoff e x).rcv = e.rcv ∧ (backoff e x).rq = e.rq ∧ (backoff e x).r = e.r := by
    unfold backoff; split <;> exact ⟨rfl, rfl, rfl, rfl⟩
  unfold expire
  split
  · left; exact ⟨by assumption, rfl⟩
  · split
    · right; left; exact ⟨e, rfl, rfl, rfl, rfl, rfl⟩
    · dsimp only
      split
      · right; left; exact ⟨_, hb.1, hb.2.1, hb.2.2.1, hb.2.2.2, rfl⟩
      · right; right; exact ⟨_, hb.1, hb.2.1, hb.2.2.1, hb.2.2.2, by omega, rfl⟩

theorem View.erase {mpl a r : Nat} {now : Int} {S R : Ep} {nd nb : List Sent} {rx : List Entry} {D : Dir} {dn dn' : Bool}
    (h : View mpl a r now S R nd nb rx D dn) (k : Nat) (hdn : dn = true → dn' = true)
    (hk : dn' = true ∨ ∀ x, rx[k]? = some x → x.tag.idx < D.got.length) :
    View mpl a r now S R nd nb (rx.eraseIdx k) D dn' :=
  { h with
    rxm := fun x hx => h.rxm x (List.mem_of_mem_eraseIdx hx)
    keep := fun g hg hg' => by
      rcases h.keep g hg hg' with h1 | h1 | ⟨x, hx, h1⟩
      · exact Or.inl h1
      · exact Or.inr (Or.inl (hdn h1))
      · rcases hk with h2 | h2
        · exact Or.inr (Or.inl h2)
        · rcases mem_eraseIdx_or (k := k) hx with h3 | h3
          · exact Or.inr (Or.inr ⟨x, h3, h1⟩)
          · have := h2 x h3
            omega }

theorem View.acked_entry {mpl a r : Nat} {now : Int} {S R : Ep} {nd nb : List Sent} {rx : List Entry} {D : Dir} {dn : Bool}
    (h : View mpl a r now S R nd nb rx D dn) {x : Entry} (hx : x ∈ rx) (hb : before x.rxm.seqno S.snd.lwe = true) :
    x.tag.idx < D.got.length := by
  obtain ⟨h1, _, _, h4⟩ := h.rxm x hx
  have := h.ld; have := h.st; have := h.flight; have := h.dg
  rcases h1.run with ⟨_, h2, h3, _⟩ | ⟨_, h2, _⟩
  · by_contra hge
    have := h1.lt
    rw [h4, h3, h.lweS, before_add _ _ _ (by omega) (by omega)] at hb
    omega
  · omega

theorem View.resend {mpl a r : Nat} {now : Int} {S R : Ep} {nd nb : List Sent} {rx : List Entry} {D : Dir} {dn : Bool}
    (h : View mpl a r now S R nd nb rx D dn) {k : Nat} {x : Entry} (hx : rx[k]? = some x) (ht : now - x.rxm.t0 ≤ S.r) (w : W) (t : Tag)
    (ht1 : t.run = x.tag.run) (ht2 : t.idx = x.tag.idx) :
    View mpl a r now S R (nd ++ [⟨{ x.rxm.pkt with ackno := w }, now, t⟩]) nb
      (rx.set k ⟨{ x.rxm with pkt := { x.rxm.pkt with ackno := w } }, x.tag⟩) D dn := by
  have hmem : x ∈ rx := List.mem_of_getElem? hx
  obtain ⟨h1, h2, h3, h4⟩ := h.rxm x hmem
  rw [h3, h.hr] at ht
  have hcur : ∀ q : Prop, DataOk D q { x.rxm.pkt with ackno := w } t := by
    intro q
    refine ⟨by rw [ht2]; exact h1.lt, by rw [ht2]; exact h1.pl, ?_⟩
    rw [ht1, ht2]
    rcases h1.run with h5 | ⟨_, _, h5⟩
    · exact Or.inl h5
    · omega
  exact
  { h with
    data := fun q hq hdq => by
      rcases List.mem_append.mp hq with hm | hm
      · exact h.data q hm hdq
      · rw [List.mem_singleton] at hm
        subst hm
        refine ⟨hcur _, ?_⟩
        show now ≤ τ D t.idx + _
        rw [ht2]
        omega
    nodrf := fun q hq hdq => by
      rcases List.mem_append.mp hq with hm | hm
      · exact h.nodrf q hm hdq
      · rw [List.mem_singleton] at hm
        subst hm
        exact h2
    rxm := fun y hy => by
      rcases List.mem_or_eq_of_mem_set hy with hm | hm
      · exact h.rxm y hm
      · subst hm
        refine ⟨⟨h1.lt, h1.pl, ?_⟩, h2, h3, h4⟩
        exact h1.run
    keep := fun g hg hg' => by
      rcases h.keep g hg hg' with h1 | h1 | ⟨y, hy, h1⟩
      · exact Or.inl h1
      · exact Or.inr (Or.inl h1)
      · right; right
        rcases mem_set_or (k := k) (y := (⟨{ x.rxm with pkt := { x.rxm.pkt with ackno := w } }, x.tag⟩ : Entry)) hy with h3 | h3
        · exact ⟨y, h3, h1⟩
        · rw [hx] at h3
          cases h3
          refine ⟨_, List.mem_set (by rw [List.getElem?_eq_some_iff] at hx; exact hx.1) _, h1⟩ }

/-! ## Reading -/

theorem View.read {mpl a r : Nat} {now : Int} {S R : Ep} {nd nb : List Sent} {rx : List Entry} {D : Dir} {dn : Bool}
    (h : View mpl a r now S R nd nb rx D dn) {b : List Byte} (hb : R.rq (pos R.rcv.lwe) = some b) :
    View mpl a r now S
      { R with rcv := { R.rcv with lwe := R.rcv.lwe + 1#32, rwe := R.rcv.rwe + 1#32 },
               rq := fun i => if i = pos R.rcv.lwe then none else R.rq i } nd nb rx { D with got := D.got ++ [b] } dn := by
  have hrun : D.rrun = D.run := by
    by_contra hne
    have := (h.lag hne).2 (pos R.rcv.lwe)
    rw [this] at hb; cases hb
  have hlwe := h.cur1 hrun
  obtain ⟨g, g1, g2, g3, g4, g5, g6⟩ := h.rq _ _ hb
  have hg : g = D.got.length := by
    rw [hlwe] at g4
    exact (pos_inj D.base _ _ D.got.length (le_refl _) (by omega) g1 g2 g4).symm
  subst hg
  have hrun0 : 0 < D.run := by
    rcases Nat.eq_zero_or_pos D.run with h0 | h0
    · have := h.run0 h0; omega
    · exact h0
  have hdo : ∀ (q : Prop) (k : Pkt) (t : Tag), DataOk D q k t → DataOk { D with got := D.got ++ [b] } q k t := by
    intro q k t hk
    refine ⟨hk.lt, hk.pl, ?_⟩
    rcases hk.run with ⟨h1, h2, h3, h4⟩ | h1
    · left
      refine ⟨h1, h2, h3, fun hh => ?_⟩
      have := h4 hh
      simp only [List.length_append, List.length_singleton]
      omega
    · exact Or.inr h1
  have hl : (D.got ++ [b]).length = D.got.length + 1 := by simp
  exact
  { h with
    ld := by show D.acked ≤ (D.got ++ [b]).length; have := h.ld; omega
    dg := by show (D.got ++ [b]).length ≤ D.sent.length; omega
    got := by
      show D.got ++ [b] = D.sent.take (D.got ++ [b]).length
      rw [hl, List.take_add_one, ← h.got, g5]
      rfl
    lag := fun hne => absurd hrun hne
    cur1 := fun _ => by
      show R.rcv.lwe + 1#32 = D.base + BitVec.ofNat 32 (D.got ++ [b]).length
      rw [hlwe, hl, add_succ]
    cur2 := fun _ _ => by
      show R.rcv.rwe + 1#32 = D.base + BitVec.ofNat 32 ((D.got ++ [b]).length + 256)
      rw [h.cur2 hrun hrun0, add_succ, hl]
    rq := fun i c hc => by
      dsimp only at hc
      split at hc
      · cases hc
      · rename_i hi
        obtain ⟨g', k1, k2, k3, k4, k5, k6⟩ := h.rq i c hc
        have : g' ≠ D.got.length := by
          intro he
          apply hi
          rw [k4, he, hlwe]
        refine ⟨g', ?_, ?_, k3, k4, k5, k6⟩
        · show (D.got ++ [b]).length ≤ g'; omega
        · show g' < (D.got ++ [b]).length + 256; omega
    seen := fun g hg => by
      have hg : g < (D.got ++ [b]).length := hg
      by_cases h1 : g < D.got.length
      · exact h.seen g h1
      · have : g = D.got.length := by omega
        subst this
        exact g6
    data := fun q hq hdq => ⟨hdo _ _ _ (h.data q hq hdq).1, (h.data q hq hdq).2⟩
    acks := fun q hq ha => by
      obtain ⟨h1, h2⟩ := h.acks q hq ha
      refine ⟨h1, fun he => ⟨(h2 he).1, ?_⟩⟩
      have := (h2 he).2
      show _ ≤ (D.got ++ [b]).length
      omega
    rxm := fun x hx => ⟨hdo _ _ _ (h.rxm x hx).1, (h.rxm x hx).2⟩
    keep := fun g hg hg' => by
      have hg : (D.got ++ [b]).length ≤ g := hg
      exact h.keep g (by omega) hg' }

theorem View.wnd {mpl a r : Nat} {now : Int} {S R : Ep} {nd nb : List Sent} {rx : List Entry} {D : Dir} {dn : Bool}
    (h : View mpl a r now S R nd nb rx D dn) (w : Nat) : View mpl a r now S R nd nb rx { D with wnd := w } dn :=
  { h with
    data := fun q hq hdq => ⟨⟨(h.data q hq hdq).1.lt, (h.data q hq hdq).1.pl, (h.data q hq hdq).1.run⟩, (h.data q hq hdq).2⟩
    rxm := fun x hx => ⟨⟨(h.rxm x hx).1.lt, (h.rxm x hx).1.pl, (h.rxm x hx).1.run⟩, (h.rxm x hx).2⟩ }

/-! ## Receiving: the acknowledgement -/

theorem rttEstimator_snd (e : Ep) (m : Int) : (rttEstimator e m).snd = e.snd ∧ (rttEstimator e m).rcv = e.rcv ∧
    (rttEstimator e m).rq = e.rq ∧ (rttEstimator e m).r = e.r := by
  unfold rttEstimator
  exact ⟨rfl, rfl, rfl, rfl⟩

theorem rcvAck_frame (e : Ep) (p : Pkt) (now : Int) : (rcvAck e p now).rcv = e.rcv ∧ (rcvAck e p now).rq = e.rq ∧ (rcvAck e p now).r = e.r ∧
    (rcvAck e p now).snd = { e.snd with lwe := if p.ack && after p.ackno e.snd.lwe then p.ackno else e.snd.lwe } := by
  unfold rcvAck
  cases hp : p.ack
  · simp
  · simp only [if_true, Bool.true_and]
    cases ha : after p.ackno e.snd.lwe
    · simp only [Bool.false_eq_true, if_false]
      split
      · have := rttEstimator_snd e (now - e.tProbe)
        exact ⟨this.2.1, this.2.2.1, this.2.2.2, this.1⟩
      · exact ⟨rfl, rfl, rfl, rfl⟩
    · simp only [if_true]
      split
      · exact ⟨rfl, rfl, rfl, rfl⟩
      · exact ⟨rfl, rfl, rfl, rfl⟩

theorem rcvFc_frame (e : Ep) (p : Pkt) : (rcvFc e p).rcv = e.rcv ∧ (rcvFc e p).rq = e.rq ∧ (rcvFc e p).r = e.r ∧
    (rcvFc e p).snd = { e.snd with rwe := (rcvFc e p).snd.rwe } := by
  unfold rcvFc
  split <;> exact ⟨rfl, rfl, rfl, rfl⟩

theorem rcvData_snd (e : Ep) (p : Pkt) : (rcvData e p).1.snd = e.snd ∧ (rcvData e p).1.r = e.r := by
  unfold rcvData
  split
  · exact ⟨rfl, rfl⟩
  split
  · exact ⟨rfl, rfl⟩
  split
  · split
    · exact ⟨rfl, rfl⟩
    split
    · exact ⟨rfl, rfl⟩
    split <;> exact ⟨rfl, rfl⟩
  · exact ⟨rfl, rfl⟩

theorem rcvRun_snd (e e' : Ep) (p : Pkt) (now : Int) (h : rcvRun e p now = some e') : e'.snd = e.snd ∧ e'.r = e.r := by
  unfold rcvRun at h
  split at h
  · split at h
    · cases h; exact ⟨rfl, rfl⟩
    split at h
    · cases h
    · cases h; exact ⟨rfl, rfl⟩
  · cases h; exact ⟨rfl, rfl⟩

/-- What `__frcti_rcv` does to the sending half. -/
theorem rcv_snd (e : Ep) (p : Pkt) (now : Int) : (rcv e p now).1.r = e.r ∧
    ((rcv e p now).1.snd = { e.snd with rwe := (rcv e p now).1.snd.rwe } ∨
     (p.ack = true ∧ after p.ackno e.snd.lwe = true ∧
       (rcv e p now).1.snd = { e.snd with lwe := p.ackno, rwe := (rcv e p now).1.snd.rwe })) := by
  unfold rcv
  cases hr : rcvRun e p now with
  | none => exact ⟨rfl, Or.inl rfl⟩
  | some e1 =>
    obtain ⟨h1, h2⟩ := rcvRun_snd e e1 p now hr
    dsimp only
    split
    · exact ⟨h2, Or.inl (by rw [h1])⟩
    · obtain ⟨d1, d2⟩ := rcvData_snd (rcvFc (rcvAck e1 p now) p) p
      obtain ⟨_, _, f3, f4⟩ := rcvFc_frame (rcvAck e1 p now) p
      obtain ⟨_, _, a3, a4⟩ := rcvAck_frame e1 p now
      dsimp only
      refine ⟨by rw [d2, f3, a3, h2], ?_⟩
      rw [d1]
      rw [f4, a4, h1]
      dsimp only
      cases hc : (p.ack && after p.ackno e.snd.lwe)
      · left
        simp
      · right
        rw [Bool.and_eq_true] at hc
        exact ⟨hc.1, hc.2, by simp⟩

theorem View.recvS {mpl a r : Nat} {now now' : Int} {S R : Ep} {nd nb nd' : List Sent} {rx : List Entry} {D : Dir} {dn : Bool}
    (h : View mpl a r now S R nd nb rx D dn) (hn : now ≤ now') {q : Sent} (hq : q ∈ nb)
    (hok : q.pkt.ack = true → q.tag.rRun = D.run ∧ D.acked < q.tag.rIdx + 2 ^ 31)
    (hnd : ∀ x ∈ nd', x ∈ nd ∨ (x.pkt.data = false ∧ x.pkt.drf = false)) :
    View mpl a r now' (rcv S q.pkt now').1 R nd' nb rx (dirAcked D S.snd.lwe (rcv S q.pkt now').1.snd.lwe q.tag) dn := by
  obtain ⟨hr, hs | ⟨ha, haf, hs⟩⟩ := rcv_snd S q.pkt now'
  · have : dirAcked D S.snd.lwe (rcv S q.pkt now').1.snd.lwe q.tag = D := by
      unfold dirAcked; rw [hs]; simp
    rw [this]
    exact h.frame hn (by rw [hs]) hr (by rw [hs]) (by rw [hs]) (by rw [hs]) (by rw [hs]) rfl rfl rfl rfl rfl rfl hnd
      (fun _ hx => Or.inl hx)
  · obtain ⟨h1, h2⟩ := hok ha
    obtain ⟨h3, h4⟩ := (h.acks q hq ha).2 h1
    have hdg := h.dg; have hfl := h.flight
    have hlt : D.acked < q.tag.rIdx := by
      rw [h3, h.lweS, after_add] at haf
      · exact haf
      · exact h2
      · omega
    have hne : (rcv S q.pkt now').1.snd.lwe ≠ S.snd.lwe := by
      rw [hs, h.lweS]
      show q.pkt.ackno ≠ _
      rw [h3]
      intro he
      rw [add_inj] at he
      omega
    have : dirAcked D S.snd.lwe (rcv S q.pkt now').1.snd.lwe q.tag = { D with acked := q.tag.rIdx } := by
      unfold dirAcked; rw [if_neg hne]
    rw [this]
    have h' : View mpl a r now { S with snd := { S.snd with lwe := q.pkt.ackno } } R nd nb rx { D with acked := q.tag.rIdx } dn :=
      { h with
        ld := h4
        flight := by show D.sent.length < q.tag.rIdx + 2 ^ 31; omega
        st := by show D.start ≤ q.tag.rIdx; have := h.st; omega
        lweS := h3
        data := fun q hq hdq => ⟨⟨(h.data q hq hdq).1.lt, (h.data q hq hdq).1.pl, (h.data q hq hdq).1.run⟩, (h.data q hq hdq).2⟩
        rxm := fun x hx => ⟨⟨(h.rxm x hx).1.lt, (h.rxm x hx).1.pl, (h.rxm x hx).1.run⟩, (h.rxm x hx).2⟩ }
    exact h'.frame hn (by rw [hs]) hr (by rw [hs]) (by rw [hs]) (by rw [hs]) (by rw [hs]) rfl rfl rfl rfl rfl rfl hnd
      (fun _ hx => Or.inl hx)

/-! ## Receiving: the data -/

theorem View.rcvData {mpl a r : Nat} {now : Int} {S R : Ep} {nd nb : List Sent} {rx : List Entry} {D : Dir} {dn : Bool}
    (h : View mpl a r now S R nd nb rx D dn) {p : Pkt} {i : Nat} (hrun : D.rrun = D.run) (hact : R.rcv.act = now)
    (hi : i < D.sent.length) (hpl : D.sent[i]? = some p.payload) (hseq : p.seqno = D.base + BitVec.ofNat 32 i)
    (hnear : D.got.length < i + 2 ^ 31) : View mpl a r now S (Frct.rcvData R p).1 nd nb rx D dn := by
  have hfl := h.flight; have hld := h.ld; have hdg := h.dg
  have hrun0 : 0 < D.run := by
    rcases Nat.eq_zero_or_pos D.run with h0 | h0
    · have := h.run0 h0; omega
    · exact h0
  unfold Frct.rcvData
  split
  · exact h
  split
  · exact { h with }
  rename_i hb
  have hge : D.got.length ≤ i := by
    by_contra hlt
    apply hb
    rw [hseq, h.cur1 hrun, before_add _ _ _ (by omega) (by omega)]
    omega
  rw [h.frtxR]
  simp only [if_true]
  split
  · exact h
  rename_i hw
  have hlt : i < D.got.length + 256 := by
    have hw : before p.seqno R.rcv.rwe = true := by simpa using hw
    rw [hseq, h.cur2 hrun hrun0, before_add _ _ _ (by omega) (by omega)] at hw
    exact hw
  split
  · exact h
  split
  · exact h
  rename_i hfree
  exact
  { h with
    lag := fun hne => absurd hrun hne
    rq := fun j c hc => by
      dsimp only at hc
      split at hc
      · rename_i hj
        cases hc
        refine ⟨i, hge, hlt, hi, by rw [hj, hseq], hpl, ?_⟩
        show _ ≤ R.rcv.act
        rw [hact]
        exact h.tnow i hi
      · exact h.rq j c hc }

/-- A new run at the receiver. -/
theorem View.newRun {mpl a r : Nat} {now now' : Int} {S R : Ep} {nd nb : List Sent} {rx : List Entry} {D : Dir} {dn : Bool}
    (h : View mpl a r now S R nd nb rx D dn) (hn : now ≤ now') {q : Sent} (hq : q ∈ nd) (hal : now' ≤ q.at_ + mpl * BILLION)
    (hi : inactive R.rcv now' = true) (hdrf : q.pkt.drf = true) :
    q.tag.run = D.run ∧ View mpl a r now' S
      { R with rcv := { R.rcv with lwe := q.pkt.seqno, rwe := q.pkt.seqno + 256#32, seqno := q.pkt.seqno, act := now' } } nd nb rx
      { D with rrun := q.tag.run } dn := by
  have hgap := inactive_gap hi
  rw [h.hri] at hgap
  have hdat := h.nodrf q hq hdrf
  obtain ⟨hok, hat⟩ := h.data q hq hdat
  have hcur : q.tag.run = D.run ∧ D.start ≤ q.tag.idx ∧ q.pkt.seqno = D.base + BitVec.ofNat 32 q.tag.idx ∧
      (q.pkt.drf = true → q.tag.idx ≤ D.got.length) := by
    rcases hok.run with h1 | ⟨_, _, h1⟩
    · exact h1
    · omega
  obtain ⟨e1, e2, e3, e4⟩ := hcur
  have e4 := e4 hdrf
  have hlate : ∀ g, g < D.sent.length → τ D g ≤ R.rcv.act → g < q.tag.idx := by
    intro g hg hτ
    by_contra hge
    have hm := h.mono q.tag.idx g (by omega) hg
    simp only [BILLION] at hat hal hgap
    omega
  have hidx : q.tag.idx = D.got.length := by
    by_cases hr : D.rrun = D.run
    · by_contra hne
      have hlt : q.tag.idx < D.got.length := by omega
      have := hlate q.tag.idx hok.lt (h.seen _ hlt)
      omega
    · have := (h.lag hr).1
      omega
  have hrq : ∀ i, R.rq i = none := by
    intro i
    by_cases hr : D.rrun = D.run
    · cases hc : R.rq i with
      | none => rfl
      | some c =>
        obtain ⟨g, g1, _, g3, _, _, g6⟩ := h.rq i c hc
        have := hlate g g3 g6
        omega
    · exact (h.lag hr).2 i
  refine ⟨e1, ?_⟩
  have ht := h.touch hn
  exact
  { ht with
    rr := le_of_eq e1
    lag := fun hne => absurd e1 hne
    cur1 := fun _ => by
      show q.pkt.seqno = _
      rw [e3, hidx]
    cur2 := fun _ _ => by
      show q.pkt.seqno + 256#32 = _
      rw [e3, hidx, add_256]
    rq := fun i b hb => by
      have hb : R.rq i = some b := hb
      rw [hrq i] at hb; cases hb
    data := fun q hq hdq => ⟨⟨(ht.data q hq hdq).1.lt, (ht.data q hq hdq).1.pl, (ht.data q hq hdq).1.run⟩, (ht.data q hq hdq).2⟩
    acks := fun x hx ha => by
      obtain ⟨h1, h2⟩ := h.acks x hx ha
      refine ⟨?_, h2⟩
      show _ ≤ q.tag.run
      have := h.rr
      omega
    rxm := fun x hx => ⟨⟨(ht.rxm x hx).1.lt, (ht.rxm x hx).1.pl, (ht.rxm x hx).1.run⟩, (ht.rxm x hx).2⟩ }

theorem View.recvR {mpl a r : Nat} {now now' : Int} {S R : Ep} {nd nb nb' : List Sent} {rx : List Entry} {D : Dir} {dn : Bool}
    (h : View mpl a r now S R nd nb rx D dn) (hn : now ≤ now') {q : Sent} (hq : q ∈ nd) (hal : now' ≤ q.at_ + mpl * BILLION)
    (hH : q.pkt.data = true → q.tag.run = D.rrun ∨ inactive R.rcv now' = true)
    (hnear : q.pkt.data = true → D.got.length < q.tag.idx + 2 ^ 31)
    (hnb : ∀ x ∈ nb', x ∈ nb ∨ x.pkt.ack = false) :
    View mpl a r now' S (rcv R q.pkt now').1 nd nb' rx (dirRun D R q.pkt now' q.tag) dn := by
  -- the rest of the packet, once the run is settled
  have hrest : ∀ (R1 : Ep) (D1 : Dir), View mpl a r now' S R1 nd nb rx D1 dn → R1.rcv.act = now' →
      (q.pkt.data = true → D1.rrun = D1.run ∧ q.tag.run = D1.run) → D1.got = D.got →
      View mpl a r now' S
        (if q.pkt.rdvs then R1 else (Frct.rcvData (rcvFc (rcvAck R1 q.pkt now') q.pkt) q.pkt).1) nd nb' rx D1 dn := by
    intro R1 D1 h1 hact hrun hgot
    have hfr : ∀ R2, View mpl a r now' S R2 nd nb rx D1 dn → View mpl a r now' S R2 nd nb' rx D1 dn := by
      intro R2 h2
      refine h2.frame (le_refl _) rfl rfl rfl rfl rfl rfl rfl rfl rfl rfl rfl rfl (fun _ hx => Or.inl hx) ?_
      intro x hx
      rcases hnb x hx with h3 | h3
      · exact Or.inl h3
      · right; intro h4; rw [h3] at h4; cases h4
    split
    · exact hfr _ h1
    · obtain ⟨a1, a2, _, _⟩ := rcvAck_frame R1 q.pkt now'
      obtain ⟨f1, f2, _, _⟩ := rcvFc_frame (rcvAck R1 q.pkt now') q.pkt
      have h2 : View mpl a r now' S (rcvFc (rcvAck R1 q.pkt now') q.pkt) nd nb rx D1 dn :=
        h1.frame (le_refl _) rfl rfl rfl rfl rfl rfl (by rw [f1, a1]) (by rw [f1, a1]) (by rw [f1, a1]) (by rw [f1, a1]) (by rw [f1, a1])
          (by rw [f2, a2]) (fun _ hx => Or.inl hx) (fun _ hx => Or.inl hx)
      cases hd : q.pkt.data
      · apply hfr
        unfold Frct.rcvData
        rw [hd]
        exact h2
      · apply hfr
        obtain ⟨r1, r2⟩ := hrun hd
        obtain ⟨d1, _⟩ := h1.data q hq hd
        rcases d1.run with ⟨c1, c2, c3, c4⟩ | ⟨c1, _⟩
        · exact h2.rcvData r1 (by rw [f1, a1]; exact hact) d1.lt d1.pl c3 (by rw [hgot]; exact hnear hd)
        · omega
  cases hi : inactive R.rcv now'
  · have hD : dirRun D R q.pkt now' q.tag = D := by unfold dirRun; rw [hi]; rfl
    rw [hD]
    have hR : rcvRun R q.pkt now' = some { R with rcv := { R.rcv with act := now' } } := by unfold rcvRun; rw [hi]; rfl
    have := hrest _ D (h.touch hn) rfl ?_ rfl
    · unfold Frct.rcv
      rw [hR]
      dsimp only
      split at this
      · rename_i hrd; rw [if_pos hrd]; exact this
      · rename_i hrd; rw [if_neg hrd]; exact this
    · intro hd
      have h1 : q.tag.run = D.rrun := by
        rcases hH hd with h2 | h2
        · exact h2
        · rw [hi] at h2; cases h2
      obtain ⟨d1, _⟩ := h.data q hq hd
      rcases d1.run with ⟨c1, _⟩ | ⟨_, _, c1⟩
      · exact ⟨by omega, c1⟩
      · omega
  · cases hdrf : q.pkt.drf
    · have hD : dirRun D R q.pkt now' q.tag = D := by unfold dirRun; rw [hdrf]; simp
      rw [hD]
      cases hd : q.pkt.data
      · have hR : rcvRun R q.pkt now' = some { R with rcv := { R.rcv with act := now' } } := by
          unfold rcvRun; rw [hi, hdrf, hd]; rfl
        have := hrest _ D (h.touch hn) rfl ?_ rfl
        · unfold Frct.rcv
          rw [hR]
          dsimp only
          split at this
          · rename_i hrd; rw [if_pos hrd]; exact this
          · rename_i hrd; rw [if_neg hrd]; exact this
        · intro hd'; rw [hd] at hd'; cases hd'
      · have hR : rcvRun R q.pkt now' = none := by unfold rcvRun; rw [hi, hdrf, hd]; rfl
        unfold Frct.rcv
        rw [hR]
        refine h.frame hn rfl rfl rfl rfl rfl rfl rfl rfl rfl rfl rfl rfl (fun _ hx => Or.inl hx) ?_
        intro x hx
        rcases hnb x hx with h3 | h3
        · exact Or.inl h3
        · right; intro h4; rw [h3] at h4; cases h4
    · have hD : dirRun D R q.pkt now' q.tag = { D with rrun := q.tag.run } := by unfold dirRun; rw [hi, hdrf]; rfl
      rw [hD]
      obtain ⟨e1, hv⟩ := h.newRun hn hq hal hi hdrf
      have hR : rcvRun R q.pkt now' =
          some { R with rcv := { R.rcv with lwe := q.pkt.seqno, rwe := q.pkt.seqno + 256#32, seqno := q.pkt.seqno, act := now' } } := by
        unfold rcvRun; rw [hi, hdrf]; rfl
      have := hrest _ _ hv rfl (fun _ => ⟨e1, e1⟩) rfl
      unfold Frct.rcv
      rw [hR]
      dsimp only
      split at this
      · rename_i hrd; rw [if_pos hrd]; exact this
      · rename_i hrd; rw [if_neg hrd]; exact this

end Ouro.Frct
