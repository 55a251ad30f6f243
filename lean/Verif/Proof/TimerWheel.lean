import Verif.Spec.TimerHistory
import Verif.Proof.Tac

namespace Ouro.TimerWheel

open Ouro Ouro.Frct Ouro.Seqno Spec.TimerHistory

theorem res_eq (l : Nat) : res l = res 0 * 16 ^ l := by
  unfold res
  rw [Nat.mul_zero, Nat.add_zero, Nat.pow_add, Nat.pow_mul]

theorem res_pos (l : Nat) : 0 < res l := Nat.pow_pos (by decide)

theorem div_res (t l : Nat) : t / res l = t / res 0 / 16 ^ l := by
  rw [res_eq l, Nat.div_div_eq_div_mul]

theorem climb_spec (r : Nat) : ∀ lvl slot, ∃ n, climb lvl r slot = (lvl + n, r / 16 ^ n, slot / 16 ^ n) ∧ r / 16 ^ n < 256 := by
  induction r using Nat.strong_induction_on with
  | _ r ih =>
    intro lvl slot
    unfold climb
    by_cases h : SLOTS ≤ r
    · rw [dif_pos h]
      unfold SLOTS at h
      obtain ⟨n, h1, h2⟩ := ih (r / 16) (by omega) (lvl + 1) (slot / 16)
      refine ⟨n + 1, ?_, ?_⟩
      · rw [h1, Nat.pow_succ', Nat.div_div_eq_div_mul, Nat.div_div_eq_div_mul, Nat.add_assoc, Nat.add_comm 1 n]
      · rw [Nat.pow_succ', ← Nat.div_div_eq_div_mul]
        exact h2
    · rw [dif_neg h]
      unfold SLOTS at h
      exact ⟨0, by simp, by simpa using h⟩

theorem place_spec {now rto l k : Nat} (h : place now rto = some (l, k)) :
    l < 3 ∧ rto / res l < 256 ∧ k = (now / res l + rto / res l + 1) % 256 := by
  unfold place at h
  obtain ⟨n, h1, h2⟩ := climb_spec (rto / res 0) 0 (now / res 0)
  rw [h1] at h
  dsimp only at h
  unfold LVLS SLOTS at h
  split at h
  · cases h
  · rename_i hl
    simp only [Option.some.injEq, Prod.mk.injEq] at h
    obtain ⟨h3, h4⟩ := h
    have hn : n = l := by omega
    subst hn
    rw [div_res rto, div_res now]
    exact ⟨by omega, h2, h4.symm⟩

/-- The absolute slot of an entry. -/
def due (x : Ent) : Nat := x.at_ / res x.lvl + x.rto / res x.lvl + 1

theorem onTime_of (ev : Ev) (h1 : ev.prev / res ev.ent.lvl < due ev.ent) (h2 : due ev.ent ≤ ev.now / res ev.ent.lvl) : OnTime ev := by
  have hp := res_pos ev.ent.lvl
  refine ⟨due ev.ent * res ev.ent.lvl, ?_, ?_, ?_, ?_⟩
  · unfold due
    have a1 := Nat.lt_div_mul_add hp (a := ev.ent.at_)
    have a2 := Nat.lt_div_mul_add hp (a := ev.ent.rto)
    rw [Nat.add_mul, Nat.add_mul]
    omega
  · unfold due
    have a1 := Nat.div_mul_le_self ev.ent.at_ (res ev.ent.lvl)
    have a2 := Nat.div_mul_le_self ev.ent.rto (res ev.ent.lvl)
    rw [Nat.add_mul, Nat.add_mul]
    omega
  · exact (Nat.div_lt_iff_lt_mul hp).mp h1
  · exact (Nat.le_div_iff_mul_le hp).mp h2

theorem slot_arith {N P B L : Nat} (hfit : N - L + B < 256) (h1 : L ≤ P) (h2 : P ≤ N) : P < N + B + 1 ∧ N + B + 1 ≤ P + 256 := by omega

/-! ## Within a turn -/

/-- `p l` is the (absolute) slot up to which level `l` has been processed. -/
structure Mid (now : Nat) (p : Nat → Nat) (s : St) : Prop where
  slots : ∀ l k x, x ∈ s.rxms l k → x.lvl = l ∧ k = due x % 256 ∧ p l < due x ∧ due x ≤ p l + 256
  lo : ∀ l, s.last / res l ≤ p l
  hi : ∀ l, p l ≤ now / res l
  evs : ∀ ev ∈ s.out, OnTime ev

/-- The packet is the same but for the acknowledgement. -/
def SameRxm (r r' : Rxm) : Prop := r'.seqno = r.seqno ∧ r'.t0 = r.t0 ∧ ∃ a, r'.pkt = { r.pkt with ackno := a }

theorem SameRxm.rfl' (r : Rxm) : SameRxm r r := ⟨rfl, rfl, r.pkt.ackno, rfl⟩

theorem SameRxm.trans {r s t : Rxm} (h : SameRxm r s) (h' : SameRxm s t) : SameRxm r t := by
  obtain ⟨a, b, k, c⟩ := h
  obtain ⟨a', b', k', c'⟩ := h'
  exact ⟨a'.trans a, b'.trans b, k', by rw [c', c]⟩

structure Sound (ev : Ev) : Prop where
  resent : ∀ p, ev.res = .resent p → ∃ ep, ev.ep = some ep ∧ before ev.ent.rxm.seqno ep.snd.lwe = false ∧
    (ev.now : Int) - ev.ent.rxm.t0 ≤ ep.r ∧ p = { ev.ent.rxm.pkt with ackno := ep.rcv.lwe }
  over : ev.again = none → ev.res = .gone ∨ ev.res = .down ∨
    (ev.res = .acked ∧ ∃ ep, ev.ep = some ep ∧ before ev.ent.rxm.seqno ep.snd.lwe = true)
  again : ∀ y, ev.again = some y → SameRxm ev.ent.rxm y.rxm ∧ y.id = ev.ent.id

theorem expire_resend {e e' : Ep} {r : Rxm} {now : Int} {p : Pkt} (h : expire e r now = (e', .resend p)) :
    before r.seqno e.snd.lwe = false ∧ now - r.t0 ≤ e.r ∧ p = { r.pkt with ackno := e.rcv.lwe } := by
  unfold expire at h
  split at h
  · cases h
  · rename_i h1
    split at h
    · cases h
    · rename_i h2
      dsimp only at h
      split at h
      · cases h
      · simp only [Prod.mk.injEq, Expiry.resend.injEq] at h
        exact ⟨by simpa using h1, by omega, h.2.symm⟩

theorem expire_cleanup {e e' : Ep} {r : Rxm} {now : Int} (h : expire e r now = (e', .cleanup)) : before r.seqno e.snd.lwe = true := by
  unfold expire at h
  split at h
  · rename_i h1; exact h1
  · split at h
    · cases h
    · dsimp only at h
      split at h <;> cases h

/-- What examining an entry does: one more record, perhaps one more entry on the wheel. -/
theorem examine_inv' (env : Nat → Bool × Bool) (now : Nat) (s : St) (x : Ent) : ∃ fl ev,
    ev.ent = x ∧ ev.now = now ∧ ev.prev = s.last ∧ Sound ev ∧
    ((ev.again = none ∧ examine env now s x = { s with flows := fl, out := s.out ++ [ev] }) ∨
     (∃ y l k, ev.again = some y ∧ y.id = x.id ∧ y.at_ = now ∧ y.lvl = l ∧ place now y.rto = some (l, k) ∧
       examine env now s x = { put s l k y true with flows := fl, out := s.out ++ [ev] })) := by
  unfold examine
  cases hf : s.flows x.fd with
  | none => exact ⟨s.flows, ⟨x, now, s.last, none, .gone, none⟩, rfl, rfl, rfl, ⟨(by intro p h; cases h), fun _ => Or.inl rfl, (by intro y h; cases h)⟩, Or.inl ⟨rfl, rfl⟩⟩
  | some fe =>
    obtain ⟨fid, ep⟩ := fe
    dsimp only
    split
    · exact ⟨s.flows, ⟨x, now, s.last, none, .gone, none⟩, rfl, rfl, rfl, ⟨(by intro p h; cases h), fun _ => Or.inl rfl, (by intro y h; cases h)⟩, Or.inl ⟨rfl, rfl⟩⟩
    · cases he : expire ep x.rxm now with
      | mk ep' r =>
        cases r with
        | cleanup => exact ⟨s.flows, ⟨x, now, s.last, some ep, .acked, none⟩, rfl, rfl, rfl,
            ⟨(by intro p h; cases h), fun _ => Or.inr (Or.inr ⟨rfl, ep, rfl, expire_cleanup he⟩), (by intro y h; cases h)⟩, Or.inl ⟨rfl, rfl⟩⟩
        | down => exact ⟨_, ⟨x, now, s.last, some ep, .down, none⟩, rfl, rfl, rfl, ⟨(by intro p h; cases h), fun _ => Or.inr (Or.inl rfl), (by intro y h; cases h)⟩, Or.inl ⟨rfl, rfl⟩⟩
        | resend pk =>
          dsimp only
          cases hp : place now ep'.rto.toNat with
          | none => exact ⟨_, ⟨x, now, s.last, some ep, .down, none⟩, rfl, rfl, rfl, ⟨(by intro p h; cases h), fun _ => Or.inr (Or.inl rfl), (by intro y h; cases h)⟩, Or.inl ⟨rfl, rfl⟩⟩
          | some lk =>
            obtain ⟨l, k⟩ := lk
            dsimp only
            cases ha : (env s.out.length).1
            · simp only [Bool.not_false, if_true]
              exact ⟨_, ⟨x, now, s.last, some ep, .kept, some { x with lvl := l, at_ := now, rto := ep'.rto.toNat }⟩, rfl, rfl, rfl,
                ⟨(by intro p h; cases h), (by intro h; cases h), (by intro y h; cases h; exact ⟨SameRxm.rfl' _, rfl⟩)⟩,
                Or.inr ⟨_, l, k, rfl, rfl, rfl, rfl, hp, rfl⟩⟩
            · simp only [Bool.not_true, Bool.false_eq_true, if_false]
              cases ho : (env s.out.length).2
              · simp only [Bool.not_false, if_true]
                exact ⟨_, ⟨x, now, s.last, some ep, .down, none⟩, rfl, rfl, rfl, ⟨(by intro p h; cases h), fun _ => Or.inr (Or.inl rfl), (by intro y h; cases h)⟩, Or.inl ⟨rfl, rfl⟩⟩
              · simp only [Bool.not_true, Bool.false_eq_true, if_false]
                exact ⟨_, ⟨x, now, s.last, some ep, .resent pk,
                  some { x with rxm := { x.rxm with pkt := pk }, lvl := l, at_ := now, rto := ep'.rto.toNat }⟩, rfl, rfl, rfl,
                  ⟨(by intro p h; cases h; exact ⟨ep, rfl, expire_resend he⟩), (by intro h; cases h),
                    (by intro y h; cases h; exact ⟨⟨rfl, rfl, _, (expire_resend he).2.2⟩, rfl⟩)⟩,
                  Or.inr ⟨_, l, k, rfl, rfl, rfl, rfl, hp, rfl⟩⟩

theorem examine_inv (env : Nat → Bool × Bool) (now : Nat) (s : St) (x : Ent) : ∃ fl ev,
    ev.ent = x ∧ ev.now = now ∧ ev.prev = s.last ∧
    ((ev.again = none ∧ examine env now s x = { s with flows := fl, out := s.out ++ [ev] }) ∨
     (∃ y l k, ev.again = some y ∧ y.id = x.id ∧ y.at_ = now ∧ y.lvl = l ∧ place now y.rto = some (l, k) ∧
       examine env now s x = { put s l k y true with flows := fl, out := s.out ++ [ev] })) := by
  obtain ⟨fl, ev, a, b, c, _, h⟩ := examine_inv' env now s x
  exact ⟨fl, ev, a, b, c, h⟩

theorem mem_put {s : St} {l k l' k' : Nat} {x y : Ent} {b : Bool} (h : y ∈ (put s l k x b).rxms l' k') :
    y ∈ s.rxms l' k' ∨ (y = x ∧ l' = l ∧ k' = k) := by
  unfold put at h
  dsimp only at h
  split at h
  · rename_i hc
    obtain ⟨rfl, rfl⟩ := hc
    cases b
    · simp only [Bool.false_eq_true, if_false, List.mem_append, List.mem_singleton] at h
      exact h.imp id fun h => ⟨h, rfl, rfl⟩
    · simp only [if_true, List.mem_cons] at h
      exact h.symm.imp id fun h => ⟨h, rfl, rfl⟩
  · exact Or.inl h

theorem examine_out (env : Nat → Bool × Bool) (now : Nat) (s : St) (x : Ent) :
    s.out <+: (examine env now s x).out ∧ (examine env now s x).last = s.last ∧ (examine env now s x).prv = s.prv ∧
    (examine env now s x).next = s.next := by
  obtain ⟨fl, ev, _, _, _, ⟨_, h⟩ | ⟨y, l, k, _, _, _, _, _, h⟩⟩ := examine_inv env now s x <;> rw [h] <;>
    exact ⟨List.prefix_append _ _, rfl, rfl, rfl⟩

theorem fold_out {α : Type} {f : St → α → St} (hf : ∀ s x, s.out <+: (f s x).out ∧ (f s x).last = s.last ∧ (f s x).next = s.next) (l : List α) :
    ∀ s, s.out <+: (l.foldl f s).out ∧ (l.foldl f s).last = s.last ∧ (l.foldl f s).next = s.next := by
  induction l with
  | nil => intro s; exact ⟨List.prefix_rfl, rfl, rfl⟩
  | cons x l ih =>
    intro s
    obtain ⟨h1, h2, h3⟩ := ih (f s x)
    obtain ⟨g1, g2, g3⟩ := hf s x
    exact ⟨g1.trans h1, h2.trans g2, h3.trans g3⟩

theorem fold_prv (env : Nat → Bool × Bool) (now : Nat) (l : List Ent) : ∀ s, (l.foldl (examine env now) s).prv = s.prv := by
  induction l with
  | nil => intro s; rfl
  | cons x l ih => intro s; rw [List.foldl_cons, ih]; exact (examine_out env now s x).2.2.1

theorem visit_out (env : Nat → Bool × Bool) (now i : Nat) (s : St) (j : Nat) :
    s.out <+: (visit env now i s j).out ∧ (visit env now i s j).last = s.last ∧ (visit env now i s j).next = s.next := by
  unfold visit
  dsimp only
  exact fold_out (s := { s with rxms := fun l' k' => if l' = i ∧ k' = j % SLOTS then [] else s.rxms l' k' }) (fun s x => ⟨(examine_out env now s x).1, (examine_out env now s x).2.1, (examine_out env now s x).2.2.2⟩) (s.rxms i (j % SLOTS))

theorem visit_prv (env : Nat → Bool × Bool) (now i : Nat) (s : St) (j : Nat) : (visit env now i s j).prv = s.prv := by
  unfold visit
  exact fold_prv env now _ _

theorem visits_prv (env : Nat → Bool × Bool) (now i : Nat) (l : List Nat) : ∀ s, (l.foldl (visit env now i) s).prv = s.prv := by
  induction l with
  | nil => intro s; rfl
  | cons x l ih => intro s; rw [List.foldl_cons, ih]; exact visit_prv env now i s x

theorem level_out (env : Nat → Bool × Bool) (now : Nat) (s : St) (i : Nat) :
    s.out <+: (level env now s i).out ∧ (level env now s i).last = s.last ∧ (level env now s i).next = s.next := by
  unfold level
  exact fold_out (visit_out env now i) _ s

/-- The entries scheduled again from record `n` on fit. -/
def NewFit (n last now : Nat) (out : List Ev) : Prop := ∀ i ev y, n ≤ i → out[i]? = some ev → ev.again = some y → Fits last now y.rto y.lvl

theorem NewFit.prefix {n last now : Nat} {out out' : List Ev} (h : NewFit n last now out') (hp : out <+: out') : NewFit n last now out := by
  intro i ev y hi he hy
  refine h i ev y hi ?_ hy
  obtain ⟨t, rfl⟩ := hp
  rw [List.getElem?_append_left]
  · exact he
  · exact (List.getElem?_eq_some_iff.mp he).1

theorem mid_examine {env : Nat → Bool × Bool} {now n : Nat} {p : Nat → Nat} {s : St} {x : Ent} (h : Mid now p s) (hn : n ≤ s.out.length)
    (hfit : NewFit n s.last now (examine env now s x).out) (h1 : s.last / res x.lvl < due x) (h2 : due x ≤ now / res x.lvl) :
    Mid now p (examine env now s x) := by
  obtain ⟨fl, ev, e1, e2, e3, ⟨_, he⟩ | ⟨y, l, k, ea, _, ya, yl, hpl, he⟩⟩ := examine_inv env now s x
  · have ht : OnTime ev := by
      apply onTime_of
      · rw [e1, e3]; exact h1
      · rw [e1, e2]; exact h2
    rw [he]
    exact ⟨h.slots, h.lo, h.hi, by
      intro ev' hev
      rcases List.mem_append.mp hev with hev | hev
      · exact h.evs ev' hev
      · rw [List.mem_singleton] at hev; subst hev; exact ht⟩
  · have ht : OnTime ev := by
      apply onTime_of
      · rw [e1, e3]; exact h1
      · rw [e1, e2]; exact h2
    have hf : Fits s.last now y.rto y.lvl := by
      refine hfit s.out.length ev y hn ?_ ea
      rw [he]
      show (s.out ++ [ev])[s.out.length]? = some ev
      simp
    rw [he]
    refine ⟨?_, h.lo, h.hi, ?_⟩
    · intro l' k' z hz
      rcases mem_put hz with hz | ⟨rfl, rfl, rfl⟩
      · exact h.slots l' k' z hz
      · obtain ⟨_, p2, p3⟩ := place_spec hpl
        subst yl
        unfold due
        rw [ya]
        exact ⟨rfl, p3, slot_arith hf (h.lo z.lvl) (h.hi z.lvl)⟩
    · intro ev' hev
      rcases List.mem_append.mp hev with hev | hev
      · exact h.evs ev' hev
      · rw [List.mem_singleton] at hev; subst hev; exact ht

theorem mid_fold {env : Nat → Bool × Bool} {now n : Nat} {p : Nat → Nat} (xs : List Ent) : ∀ {s : St}, Mid now p s → n ≤ s.out.length →
    NewFit n s.last now (xs.foldl (examine env now) s).out →
    (∀ x ∈ xs, s.last / res x.lvl < due x ∧ due x ≤ now / res x.lvl) → Mid now p (xs.foldl (examine env now) s) := by
  induction xs with
  | nil => intro s h _ _ _; exact h
  | cons x xs ih =>
    intro s h hn hfit hx
    obtain ⟨o1, o2, _, _⟩ := examine_out env now s x
    have hfo := (fold_out (f := examine env now) (fun s x => ⟨(examine_out env now s x).1, (examine_out env now s x).2.1,
      (examine_out env now s x).2.2.2⟩) xs (examine env now s x)).1
    obtain ⟨x1, x2⟩ := hx x (by simp)
    refine ih (mid_examine h hn ?_ x1 x2) (le_trans hn o1.length_le) ?_ ?_
    · exact hfit.prefix hfo
    · rw [o2]; exact hfit
    · intro y hy; rw [o2]; exact hx y (by simp [hy])

theorem mid_visit {env : Nat → Bool × Bool} {now n i j : Nat} {p : Nat → Nat} {s : St} (h : Mid now p s) (hn : n ≤ s.out.length)
    (hfit : NewFit n s.last now (visit env now i s j).out) (hj : j % 256 = (p i + 1) % 256) (hlt : p i + 1 ≤ now / res i) :
    Mid now (fun l => if l = i then p i + 1 else p l) (visit env now i s j) := by
  unfold visit SLOTS at *
  have hdue : ∀ x ∈ s.rxms i (j % 256), x.lvl = i ∧ due x = p i + 1 := by
    intro x hx
    obtain ⟨a, b, c, d⟩ := h.slots _ _ _ hx
    exact ⟨a, by omega⟩
  refine mid_fold (n := n) _ ?_ hn hfit ?_
  · refine ⟨?_, ?_, ?_, h.evs⟩
    · intro l k x hx
      dsimp only at hx ⊢
      split at hx
      · cases hx
      · rename_i hc
        obtain ⟨a, b, c, d⟩ := h.slots _ _ _ hx
        refine ⟨a, b, ?_, ?_⟩
        · split
          · rename_i hl
            subst hl
            have hk : k ≠ j % 256 := fun hk => hc ⟨rfl, hk⟩
            have : due x ≠ p l + 1 := by
              intro hd
              apply hk
              rw [b, hd, hj]
            omega
          · exact c
        · split
          · rename_i hl; subst hl; omega
          · exact d
    · intro l
      have := h.lo l
      dsimp only
      split
      · rename_i hl; subst hl; omega
      · exact this
    · intro l
      split
      · rename_i hl; subst hl; exact hlt
      · exact h.hi l
  · intro x hx
    obtain ⟨a, b⟩ := hdue x hx
    have := h.lo i
    rw [a, b]
    exact ⟨by show s.last / res i < _; omega, hlt⟩

theorem mid_visits {env : Nat → Bool × Bool} {now n i : Nat} (c : Nat) : ∀ {j : Nat} {p : Nat → Nat} {s : St}, Mid now p s → n ≤ s.out.length →
    NewFit n s.last now ((List.range' (j + 1) c).foldl (visit env now i) s).out → j % 256 = p i % 256 → p i + c ≤ now / res i →
    Mid now (fun l => if l = i then p i + c else p l) ((List.range' (j + 1) c).foldl (visit env now i) s) := by
  induction c with
  | zero =>
    intro j p s h _ _ _ _
    have : (fun l => if l = i then p i + 0 else p l) = p := by
      funext l; split
      · rename_i hl; subst hl; rfl
      · rfl
    rw [this]
    exact h
  | succ c ih =>
    intro j p s h hn hfit hj hle
    rw [List.range'_succ, List.foldl_cons] at hfit ⊢
    obtain ⟨o1, o2, _⟩ := visit_out env now i s (j + 1)
    have hfo := (fold_out (visit_out env now i) (List.range' (j + 1 + 1) c) (visit env now i s (j + 1))).1
    have hm := mid_visit (j := j + 1) h hn (hfit.prefix hfo) (by omega) (by omega)
    have := ih (j := j + 1) hm (le_trans hn o1.length_le) (by rw [o2]; exact hfit) (by simp only [if_true]; omega) (by simp only [if_true]; omega)
    simp only [if_true] at this
    have hfun : (fun l => if l = i then p i + 1 + c else if l = i then p i + 1 else p l) = fun l => if l = i then p i + (c + 1) else p l := by
      funext l
      split
      · omega
      · rfl
    rw [hfun] at this
    exact this

theorem mid_level {env : Nat → Bool × Bool} {now n i : Nat} {p : Nat → Nat} {s : St} (h : Mid now p s) (hn : n ≤ s.out.length)
    (hfit : NewFit n s.last now (level env now s i).out) (hpv : s.prv i = p i % 256) (hgap : now / res i < p i + 256) :
    Mid now (fun l => if l = i then now / res i else p l) (level env now s i) := by
  unfold level SLOTS at *
  dsimp only at *
  have hc : p i + ((if now / res i % 256 < s.prv i then now / res i % 256 + 256 else now / res i % 256) - s.prv i) = now / res i := by
    have := h.hi i
    rw [hpv]
    split <;> omega
  have hm := mid_visits (env := env) (i := i) _ (j := s.prv i) h hn hfit (by rw [hpv]; omega) (le_of_eq hc)
  rw [hc] at hm
  exact ⟨hm.slots, hm.lo, hm.hi, hm.evs⟩

/-! ## Between turns -/

structure Inv (s : St) : Prop where
  slots : ∀ l k x, x ∈ s.rxms l k → l < 3 ∧ x.lvl = l ∧ k = due x % 256 ∧ s.last / res l < due x ∧ due x ≤ s.last / res l + 256
  prv : ∀ l, l < 3 → s.prv l = s.last / res l % 256
  evs : ∀ ev ∈ s.out, OnTime ev

/-- Entries are only ever put on the three levels. -/
def Three (s : St) : Prop := ∀ l k x, x ∈ s.rxms l k → l < 3

theorem three_examine {env : Nat → Bool × Bool} {now : Nat} {s : St} {x : Ent} (h : Three s) : Three (examine env now s x) := by
  obtain ⟨fl, ev, _, _, _, ⟨_, he⟩ | ⟨y, l, k, _, _, _, _, hpl, he⟩⟩ := examine_inv env now s x
  · rw [he]; exact h
  · rw [he]
    intro l' k' z hz
    rcases mem_put hz with hz | ⟨_, rfl, _⟩
    · exact h _ _ _ hz
    · exact (place_spec hpl).1

theorem three_visit {env : Nat → Bool × Bool} {now i j : Nat} {s : St} (h : Three s) : Three (visit env now i s j) := by
  unfold visit
  dsimp only
  have h0 : Three { s with rxms := fun l' k' => if l' = i ∧ k' = j % SLOTS then [] else s.rxms l' k' } := by
    intro l k x hx
    dsimp only at hx
    split at hx
    · cases hx
    · exact h _ _ _ hx
  generalize s.rxms i (j % SLOTS) = xs
  generalize ({ s with rxms := fun l' k' => if l' = i ∧ k' = j % SLOTS then [] else s.rxms l' k' } : St) = s' at h0
  induction xs generalizing s' with
  | nil => exact h0
  | cons x xs ih => exact ih _ (three_examine h0)

theorem three_level {env : Nat → Bool × Bool} {now i : Nat} {s : St} (h : Three s) : Three (level env now s i) := by
  unfold level
  have : ∀ (l : List Nat) (s : St), Three s → Three (l.foldl (visit env now i) s) := by
    intro l
    induction l with
    | nil => intro s h; exact h
    | cons x l ih => intro s h; exact ih _ (three_visit h)
  exact this _ s h

theorem inv_init (now : Nat) (flows : Nat → Option (Nat × Ep)) : Inv (init now flows) where
  slots := by intro l k x hx; cases hx
  prv := by
    intro l _
    show (now / res 0 - 1) / 16 ^ l % SLOTS = (now / res 0 - 1) * res 0 / res l % 256
    rw [div_res _ l, Nat.mul_div_cancel _ (res_pos 0)]
    rfl
  evs := by intro ev hev; cases hev

theorem level_prv (env : Nat → Bool × Bool) (now i l : Nat) (s : St) :
    (level env now s i).prv l = if l = i then now / res i % 256 else s.prv l := by
  unfold level
  dsimp only
  rw [visits_prv]
  rfl

theorem inv_step {s : St} {op : Op} (h : Inv s) (hok : Ok s op) : Inv (step s op) := by
  cases op with
  | rxm fd r now =>
    obtain ⟨hn, hf⟩ := hok
    unfold step rxm
    dsimp only
    cases hfl : s.flows fd with
    | none => exact h
    | some fe =>
      obtain ⟨fid, ep⟩ := fe
      dsimp only
      cases hp : place now ep.rto.toNat with
      | none => exact h
      | some lk =>
        obtain ⟨l, k⟩ := lk
        have hf := hf fid ep l k hfl hp
        dsimp only
        refine ⟨?_, h.prv, h.evs⟩
        intro l' k' z hz
        rcases mem_put hz with hz | ⟨rfl, rfl, rfl⟩
        · exact h.slots _ _ _ hz
        · obtain ⟨p1, p2, p3⟩ := place_spec hp
          have hle : s.last / res l' ≤ now / res l' := Nat.div_le_div_right hn
          exact ⟨p1, rfl, p3, slot_arith hf (le_refl _) hle⟩
  | flows f => exact ⟨h.slots, h.prv, h.evs⟩
  | turn now env =>
    obtain ⟨hn, hgap, hfit⟩ := hok
    have hfit : NewFit s.out.length s.last now (turn env s now).out := by
      intro i ev y hi he hy
      refine hfit ev ?_ y hy
      rw [List.mem_drop_iff_getElem]
      obtain ⟨h1, h2⟩ := List.getElem?_eq_some_iff.mp he
      refine ⟨i - s.out.length, by omega, ?_⟩
      have : s.out.length + (i - s.out.length) = i := by omega
      simp only [this]
      exact h2
    unfold step turn at *
    dsimp only [List.foldl] at *
    have m0 : Mid now (fun l => s.last / res l) s :=
      ⟨fun l k x hx => (h.slots l k x hx).2, fun l => le_refl _, fun l => Nat.div_le_div_right hn, h.evs⟩
    have hg : ∀ l, now / res l < s.last / res l + 256 := by
      intro l
      rw [div_res now, div_res s.last]
      have hp : 0 < 16 ^ l := Nat.pow_pos (by decide)
      have h1 : now / res 0 / 16 ^ l ≤ (s.last / res 0 + 255) / 16 ^ l := Nat.div_le_div_right (by omega)
      have h2 : (s.last / res 0 + 255) / 16 ^ l ≤ s.last / res 0 / 16 ^ l + 255 := by
        rw [Nat.div_le_iff_le_mul_add_pred hp, Nat.mul_add]
        have h3 := Nat.div_add_mod (s.last / res 0) (16 ^ l)
        have h4 := Nat.mod_lt (s.last / res 0) hp
        have h5 : 255 ≤ 16 ^ l * 255 := Nat.le_mul_of_pos_left _ hp
        omega
      omega
    obtain ⟨a0, b0, _⟩ := level_out env now s 0
    obtain ⟨a1, b1, _⟩ := level_out env now (level env now s 0) 1
    obtain ⟨a2, b2, _⟩ := level_out env now (level env now (level env now s 0) 1) 2
    have m1 := mid_level m0 (le_refl _) (hfit.prefix (a1.trans a2)) (h.prv 0 (by omega)) (hg 0)
    have m2 := mid_level (i := 1) (env := env) m1 a0.length_le (by rw [b0]; exact hfit.prefix a2)
      (by rw [level_prv]; exact h.prv 1 (by omega)) (hg 1)
    have m3 := mid_level (i := 2) (env := env) m2 (a0.trans a1).length_le (by rw [b1, b0]; exact hfit)
      (by rw [level_prv, level_prv]; exact h.prv 2 (by omega)) (hg 2)
    have h3 : Three (level env now (level env now (level env now s 0) 1) 2) :=
      three_level (three_level (three_level fun l k x hx => (h.slots l k x hx).1))
    refine ⟨?_, ?_, m3.evs⟩
    · intro l k x hx
      have hl := h3 l k x hx
      obtain ⟨c1, c2, c3, c4⟩ := m3.slots l k x hx
      refine ⟨hl, c1, c2, ?_⟩
      have hcase : l = 0 ∨ l = 1 ∨ l = 2 := by omega
      rcases hcase with rfl | rfl | rfl
      · exact ⟨c3, c4⟩
      · exact ⟨c3, c4⟩
      · exact ⟨c3, c4⟩
    · intro l hl
      show (level env now (level env now (level env now s 0) 1) 2).prv l = now / res l % 256
      have hcase : l = 0 ∨ l = 1 ∨ l = 2 := by omega
      rcases hcase with rfl | rfl | rfl <;> simp [level_prv]

theorem inv_reach {s : St} (h : Reach s) : Inv s := by
  induction h with
  | init now flows => exact inv_init now flows
  | step _ hok ih => exact inv_step ih hok

/-! ## No entry is lost, every retransmission is justified -/

theorem mem_put_of {s : St} {l k l' k' : Nat} {x y : Ent} {b : Bool} (h : y ∈ s.rxms l' k' ∨ (y = x ∧ l' = l ∧ k' = k)) :
    y ∈ (put s l k x b).rxms l' k' := by
  unfold put
  dsimp only
  split
  · rename_i hc
    obtain ⟨rfl, rfl⟩ := hc
    cases b
    · simp only [Bool.false_eq_true, if_false, List.mem_append, List.mem_singleton]
      exact h.imp id fun h => h.1
    · simp only [if_true, List.mem_cons]
      exact h.symm.imp (fun h => h.1) id
  · rename_i hc
    rcases h with h | ⟨_, h1, h2⟩
    · exact h
    · exact absurd ⟨h1, h2⟩ hc

/-- An entry is for the packet it was made for. -/
def IsFor (q : List Rxm) (x : Ent) : Prop := ∃ r, q[x.id]? = some r ∧ SameRxm r x.rxm

/-- Every entry made so far is on the wheel, in `hand`, or ended. -/
structure Kept (s : St) (q : List Rxm) (hand : List Ent) : Prop where
  len : s.next = q.length
  all : ∀ i, i < s.next → OnWheel s i ∨ (∃ x ∈ hand, x.id = i) ∨ Ended s i
  wheel : ∀ l k x, x ∈ s.rxms l k → IsFor q x
  hand : ∀ x ∈ hand, IsFor q x
  out : ∀ ev ∈ s.out, IsFor q ev.ent ∧ Sound ev

theorem kept_examine {env : Nat → Bool × Bool} {now : Nat} {s : St} {q : List Rxm} {x : Ent} {xs : List Ent} (h : Kept s q (x :: xs)) :
    Kept (examine env now s x) q xs := by
  obtain ⟨fl, ev, e1, _, _, es, ⟨ea, he⟩ | ⟨y, l, k, ea, yi, _, _, hpl, he⟩⟩ := examine_inv' env now s x
  · rw [he]
    refine ⟨h.len, ?_, h.wheel, fun z hz => h.hand z (List.mem_cons_of_mem _ hz), ?_⟩
    · intro i hi
      rcases h.all i hi with h1 | ⟨z, hz, h1⟩ | ⟨ev', h1, h2⟩
      · exact Or.inl h1
      · rcases List.mem_cons.mp hz with rfl | hz
        · exact Or.inr (Or.inr ⟨ev, by simp, by rw [e1]; exact h1, ea⟩)
        · exact Or.inr (Or.inl ⟨z, hz, h1⟩)
      · exact Or.inr (Or.inr ⟨ev', by simp [h1], h2⟩)
    · intro ev' hv
      rcases List.mem_append.mp hv with hv | hv
      · exact h.out ev' hv
      · rw [List.mem_singleton] at hv
        subst hv
        exact ⟨by rw [e1]; exact h.hand x List.mem_cons_self, es⟩
  · rw [he]
    refine ⟨h.len, ?_, ?_, fun z hz => h.hand z (List.mem_cons_of_mem _ hz), ?_⟩
    · intro i hi
      rcases h.all i hi with ⟨l', k', z, hz, h1⟩ | ⟨z, hz, h1⟩ | ⟨ev', h1, h2⟩
      · exact Or.inl ⟨l', k', z, mem_put_of (Or.inl hz), h1⟩
      · rcases List.mem_cons.mp hz with rfl | hz
        · exact Or.inl ⟨l, k, y, mem_put_of (Or.inr ⟨rfl, rfl, rfl⟩), yi.trans h1⟩
        · exact Or.inr (Or.inl ⟨z, hz, h1⟩)
      · exact Or.inr (Or.inr ⟨ev', by simp [h1], h2⟩)
    · intro l' k' z hz
      rcases mem_put hz with hz | ⟨rfl, _, _⟩
      · exact h.wheel l' k' z hz
      · obtain ⟨r, h1, h2⟩ := h.hand x List.mem_cons_self
        obtain ⟨h3, h4⟩ := es.again z ea
        rw [e1] at h3 h4
        exact ⟨r, by rw [h4]; exact h1, h2.trans h3⟩
    · intro ev' hv
      rcases List.mem_append.mp hv with hv | hv
      · exact h.out ev' hv
      · rw [List.mem_singleton] at hv
        subst hv
        exact ⟨by rw [e1]; exact h.hand x List.mem_cons_self, es⟩

theorem kept_visit {env : Nat → Bool × Bool} {now i j : Nat} {s : St} {q : List Rxm} (h : Kept s q []) : Kept (visit env now i s j) q [] := by
  unfold visit
  dsimp only
  have h0 : Kept { s with rxms := fun l' k' => if l' = i ∧ k' = j % SLOTS then [] else s.rxms l' k' } q (s.rxms i (j % SLOTS)) := by
    refine ⟨h.len, ?_, ?_, fun x hx => h.wheel _ _ x hx, h.out⟩
    · intro n hn
      rcases h.all n hn with ⟨l', k', z, hz, h1⟩ | ⟨z, hz, h1⟩ | h1
      · by_cases hc : l' = i ∧ k' = j % SLOTS
        · right; left
          exact ⟨z, by rw [← hc.1, ← hc.2]; exact hz, h1⟩
        · left
          refine ⟨l', k', z, ?_, h1⟩
          dsimp only
          rw [if_neg hc]
          exact hz
      · cases hz
      · exact Or.inr (Or.inr h1)
    · intro l' k' z hz
      dsimp only at hz
      split at hz
      · cases hz
      · exact h.wheel _ _ z hz
  generalize s.rxms i (j % SLOTS) = xs at h0
  generalize ({ s with rxms := fun l' k' => if l' = i ∧ k' = j % SLOTS then [] else s.rxms l' k' } : St) = s' at h0
  induction xs generalizing s' with
  | nil => exact h0
  | cons x xs ih => exact ih _ (kept_examine h0)

theorem kept_level {env : Nat → Bool × Bool} {now i : Nat} {s : St} {q : List Rxm} (h : Kept s q []) : Kept (level env now s i) q [] := by
  unfold level
  have : ∀ (l : List Nat) (s : St), Kept s q [] → Kept (l.foldl (visit env now i) s) q [] := by
    intro l
    induction l with
    | nil => intro s h; exact h
    | cons x l ih => intro s h; exact ih _ (kept_visit h)
  dsimp only
  generalize List.range' (s.prv i + 1) _ = js
  have h' := this js s h
  exact ⟨h'.len, h'.all, h'.wheel, h'.hand, h'.out⟩

theorem rxm_inv (s : St) (fd : Nat) (r : Rxm) (now : Nat) : rxm s fd r now = (s, false) ∨ ∃ fid rto l k,
    rxm s fd r now = ({ put s l k ⟨fd, fid, r, s.next, l, now, rto⟩ false with next := s.next + 1 }, true) := by
  unfold rxm
  cases hfl : s.flows fd with
  | none => exact Or.inl rfl
  | some fe =>
    obtain ⟨fid, ep⟩ := fe
    dsimp only
    split
    · exact Or.inl rfl
    · rename_i l k _
      exact Or.inr ⟨fid, _, l, k, rfl⟩

theorem IsFor.app {q q' : List Rxm} {x : Ent} (h : IsFor q x) : IsFor (q ++ q') x := by
  obtain ⟨r, h1, h2⟩ := h
  refine ⟨r, ?_, h2⟩
  rw [List.getElem?_append_left (List.getElem?_eq_some_iff.mp h1).1]
  exact h1

theorem kept_exec {s : St} {q : List Rxm} (h : Exec s q) : Kept s q [] := by
  induction h with
  | init now flows =>
    exact ⟨rfl, (by intro i hi; cases hi), (by intro l k x hx; cases hx), (by intro x hx; cases hx), (by intro x hx; cases hx)⟩
  | @step s q op _ ih =>
    cases op with
    | rxm fd r now =>
      unfold step made
      dsimp only
      rcases rxm_inv s fd r now with he | ⟨fid, rto, l, k, he⟩
      · rw [he]
        simp only [Bool.false_eq_true, if_false, List.append_nil]
        exact ih
      · rw [he]
        simp only [if_true]
        refine ⟨?_, ?_, ?_, (by intro x hx; cases hx), fun ev hv => ⟨(ih.out ev hv).1.app, (ih.out ev hv).2⟩⟩
        · show s.next + 1 = _
          rw [ih.len, List.length_append]
          rfl
        · intro i hi
          have hi : i < s.next + 1 := hi
          rcases Nat.lt_or_ge i s.next with h1 | h1
          · rcases ih.all i h1 with ⟨l', k', z, hz, h1⟩ | ⟨z, hz, h1⟩ | h1
            · exact Or.inl ⟨l', k', z, mem_put_of (Or.inl hz), h1⟩
            · cases hz
            · exact Or.inr (Or.inr h1)
          · have : i = s.next := by omega
            subst this
            exact Or.inl ⟨l, k, _, mem_put_of (Or.inr ⟨rfl, rfl, rfl⟩), rfl⟩
        · intro l' k' z hz
          rcases mem_put hz with hz | ⟨rfl, _, _⟩
          · exact (ih.wheel _ _ z hz).app
          · refine ⟨r, ?_, SameRxm.rfl' r⟩
            show (q ++ [r])[s.next]? = some r
            rw [ih.len]
            simp
    | flows f =>
      unfold step made
      rw [List.append_nil]
      exact ⟨ih.len, ih.all, ih.wheel, ih.hand, ih.out⟩
    | turn now env =>
      unfold step turn made
      rw [List.append_nil]
      have := kept_level (env := env) (now := now) (i := 2) (kept_level (env := env) (now := now) (i := 1) (kept_level (env := env) (now := now) (i := 0) ih))
      exact ⟨this.len, this.all, this.wheel, this.hand, this.out⟩

end Ouro.TimerWheel
