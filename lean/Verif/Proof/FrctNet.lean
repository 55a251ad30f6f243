import Verif.Proof.Frct

namespace Ouro.Frct

open Ouro Ouro.Seqno Spec.FrctHistory

/-- The invariant of both directions. -/
def Inv (mpl a r : Nat) (s : Sys) : Prop :=
  ∀ d, View mpl a r s.now (s.ep d) (s.ep (!d)) (s.net d) (s.net (!d)) (s.rxm d) (s.dir d) (s.down d)

theorem both {P : Bool → Prop} (d : Bool) (h : P d) (h' : P (!d)) : ∀ b, P b := by
  intro b
  cases b <;> cases d <;> assumption

theorem inv_init (a r mpl : Nat) (now : Int) : Inv mpl a r (Sys.init a r mpl now) := by
  intro d
  exact
  { frtxS := rfl
    frtxR := rfl
    hr := rfl
    hsi := by
      show (3 * ((mpl : Int) * BILLION) + a * BILLION + r * BILLION) / BILLION + 1 = _
      simp only [BILLION]; omega
    hri := by
      show (2 * ((mpl : Int) * BILLION) + a * BILLION + r * BILLION) / BILLION + 1 = _
      simp only [BILLION]; omega
    lenT := rfl
    mono := fun _ _ _ h => absurd h (Nat.not_lt_zero _)
    tnow := fun _ h => absurd h (Nat.not_lt_zero _)
    act := fun _ h => absurd h (Nat.not_lt_zero _)
    run0 := fun _ => rfl
    idle0 := by
      intro _ t ht
      have ht : now ≤ t := ht
      unfold inactive
      apply decide_eq_true
      show tsec t - tsec ((tsec now - (((3 * ((mpl : Int) * BILLION) + a * BILLION + r * BILLION) / BILLION + 1) + 1)) * BILLION) >
        (3 * ((mpl : Int) * BILLION) + a * BILLION + r * BILLION) / BILLION + 1
      simp only [tsec, BILLION]
      omega
    ld := Nat.le_refl _
    dg := Nat.le_refl _
    flight := by show 0 < 0 + 2 ^ 31; decide
    st := Nat.le_refl _
    lweS := rfl
    seqS := rfl
    got := rfl
    rr := Nat.le_refl _
    lag := fun h => absurd rfl h
    cur1 := fun _ => rfl
    cur2 := fun _ h => absurd h (Nat.lt_irrefl _)
    rq := by intro i b h; cases h
    seen := fun _ h => absurd h (Nat.not_lt_zero _)
    actR := by
      show (tsec now - (((2 * ((mpl : Int) * BILLION) + a * BILLION + r * BILLION) / BILLION + 1) + 1)) * BILLION ≤ now
      simp only [tsec, BILLION]
      omega
    data := by intro q h; cases h
    nodrf := by intro q h; cases h
    acks := by intro q h; cases h
    rxm := by intro q h; cases h
    keep := fun _ _ h => absurd h (Nat.not_lt_zero _) }

/-! ## The frames of the two directions when endpoint `d` moves -/

/-- Endpoint `d` changes nothing that matters, and may send one packet without data. -/
theorem inv_quiet {mpl a r : Nat} {s : Sys} (h : Inv mpl a r s) {d : Bool} {now' : Int} (hn : s.now ≤ now') {e : Ep} {p : Option Pkt}
    (s1 : e.snd.frtx = (s.ep d).snd.frtx) (s2 : e.r = (s.ep d).r) (s3 : e.snd.inact = (s.ep d).snd.inact)
    (s4 : e.snd.act = (s.ep d).snd.act) (s5 : e.snd.lwe = (s.ep d).snd.lwe) (s6 : e.snd.seqno = (s.ep d).snd.seqno)
    (r1 : e.rcv.frtx = (s.ep d).rcv.frtx) (r2 : e.rcv.inact = (s.ep d).rcv.inact) (r3 : e.rcv.act = (s.ep d).rcv.act)
    (r4 : e.rcv.lwe = (s.ep d).rcv.lwe) (r5 : e.rcv.rwe = (s.ep d).rcv.rwe) (r6 : e.rq = (s.ep d).rq)
    (hp : ∀ x, p = some x → x.data = false ∧ x.drf = false ∧ (x.ack = true → x.ackno = (s.ep d).rcv.lwe)) :
    Inv mpl a r { s with now := now', ep := upd s.ep d e, net := upd s.net d (emit s d p now') } := by
  have hem : ∀ q ∈ emit s d p now', q ∈ s.net d ∨ ∃ x, p = some x ∧ q = ⟨x, now', tagNow s d (s.dir d).run 0⟩ := by
    intro q hq
    unfold emit at hq
    split at hq
    · exact Or.inl hq
    · rename_i x
      rcases List.mem_append.mp hq with h1 | h1
      · exact Or.inl h1
      · exact Or.inr ⟨x, rfl, by simpa using h1⟩
  refine both d ?_ ?_
  · have := h d
    simp only [upd_same, upd_not]
    refine this.frame hn s1 s2 s3 s4 s5 s6 rfl rfl rfl rfl rfl rfl ?_ (fun _ hx => Or.inl hx)
    intro q hq
    rcases hem q hq with h1 | ⟨x, h1, rfl⟩
    · exact Or.inl h1
    · exact Or.inr ⟨(hp x h1).1, (hp x h1).2.1⟩
  · have := h (!d)
    simp only [Bool.not_not, upd_same, upd_not] at this ⊢
    refine this.frame hn rfl rfl rfl rfl rfl rfl r1 r2 r3 r4 r5 r6 (fun _ hx => Or.inl hx) ?_
    intro q hq
    rcases hem q hq with h1 | ⟨x, h1, rfl⟩
    · exact Or.inl h1
    · exact Or.inr fun ha => ⟨rfl, rfl, (hp x h1).2.2 ha⟩

theorem emit_none (s : Sys) (d : Bool) (now : Int) : upd s.net d (emit s d none now) = s.net := by
  funext b
  unfold upd emit
  split
  · rename_i h; rw [h]
  · rfl

theorem upd_self {α : Type} (f : Bool → α) (d : Bool) : upd f d (f d) = f := by
  funext b
  unfold upd
  split
  · rename_i h; rw [h]
  · rfl

theorem isWindowOpen_frame (e : Ep) (now : Int) : (isWindowOpen e now).1.snd = e.snd ∧ (isWindowOpen e now).1.rcv = e.rcv ∧
    (isWindowOpen e now).1.rq = e.rq ∧ (isWindowOpen e now).1.r = e.r ∧
    ∀ x, (isWindowOpen e now).2.2 = some x → x = ctrl false false true 0 0 := by
  unfold isWindowOpen
  cases (if e.snd.rescntl then before e.snd.seqno e.snd.rwe else true)
  · simp only [Bool.not_false, if_true]
    split
    · exact ⟨rfl, rfl, rfl, rfl, fun x hx => by cases hx⟩
    split
    · exact ⟨rfl, rfl, rfl, rfl, fun x hx => by cases hx⟩
    split
    · exact ⟨rfl, rfl, rfl, rfl, fun x hx => (Option.some.inj hx).symm⟩
    · exact ⟨rfl, rfl, rfl, rfl, fun x hx => by cases hx⟩
  · exact ⟨rfl, rfl, rfl, rfl, fun x hx => by cases hx⟩

theorem inv_step {mpl a r : Nat} {s s' : Sys} {op : Op} (h : Inv mpl a r s) (hok : Ok mpl s op) (hs : step s op = .ok s') :
    Inv mpl a r s' := by
  obtain ⟨hn, hok⟩ := hok
  cases op with
  | write d b now' rnd armed out =>
    unfold step stepWrite at hs
    dsimp only at hs hok
    have hn : s.now ≤ now' := hn
    cases hsn : snd (s.ep d) b now' rnd with
    | ub => rw [hsn] at hs; cases hs
    | ok ep =>
      obtain ⟨e, p⟩ := ep
      rw [hsn] at hs
      cases Outcome.ok.inj hs
      refine both d ?_ ?_
      · have := (h d).write hn hsn hok armed out
          (tagNow s d (dirWrite (s.dir d) (inactive (s.ep d).snd now') b now' rnd armed).run (s.dir d).sent.length) rfl rfl
        simp only [upd_same, upd_not]
        convert this using 1
        · split <;> simp [upd, tagNow]
        · split
          · simp
          · rfl
        · split <;> simp [upd, tagNow]
      · have hv := h (!d)
        obtain ⟨e1, hrun, rfl, rfl⟩ := snd_inv hsn
        have hrc : e1.rcv = (s.ep d).rcv ∧ e1.rq = (s.ep d).rq := by
          rcases newRun_inv hrun with ⟨_, _, he⟩ | ⟨_, he⟩ <;> rw [he] <;> exact ⟨rfl, rfl⟩
        simp only [Bool.not_not, upd_same, upd_not] at hv ⊢
        have key : ∀ nb', (∀ q ∈ nb', q ∈ s.net d ∨ (q.pkt.ack = true → q.tag.rRun = (s.dir (!d)).rrun ∧
            q.tag.rIdx = (s.dir (!d)).got.length ∧ q.pkt.ackno = (s.ep d).rcv.lwe)) →
            View mpl a r now' (s.ep (!d)) (sndEp e1 now') (s.net (!d)) nb' (s.rxm (!d)) (s.dir (!d)) (s.down (!d)) := by
          intro nb' hnb
          refine hv.frame hn rfl rfl rfl rfl rfl rfl ?_ ?_ ?_ ?_ ?_ ?_ (fun _ hx => Or.inl hx) hnb
          · show e1.rcv.frtx = _; rw [hrc.1]
          · show e1.rcv.inact = _; rw [hrc.1]
          · show e1.rcv.act = _; rw [hrc.1]
          · show e1.rcv.lwe = _; rw [hrc.1]
          · show e1.rcv.rwe = _; rw [hrc.1]
          · show e1.rq = _; rw [hrc.2]
        have hrx : (if (sndEp e1 now').snd.frtx && armed then upd s.rxm d (s.rxm d ++
            [⟨⟨(sndPkt e1 ((s.ep d).snd.seqno == (s.ep d).snd.lwe) b now').seqno, now',
              sndPkt e1 ((s.ep d).snd.seqno == (s.ep d).snd.lwe) b now'⟩,
              tagNow s d (dirWrite (s.dir d) (inactive (s.ep d).snd now') b now' rnd armed).run (s.dir d).sent.length⟩]) else s.rxm) (!d) =
            s.rxm (!d) := by
          split
          · simp
          · rfl
        rw [hrx]
        have hnet : ∀ (b' : Bool) (x : Sent), (if b' then upd s.net d (s.net d ++ [x]) else s.net) (!d) = s.net (!d) := by
          intro b' x; cases b' <;> simp
        have hnet' : ∀ (b' : Bool) (x : Sent), (if b' then upd s.net d (s.net d ++ [x]) else s.net) d = if b' then s.net d ++ [x] else s.net d := by
          intro b' x; cases b' <;> simp
        rw [hnet, hnet']
        apply key
        intro q hq
        cases out
        · exact Or.inl hq
        · simp only [if_true] at hq
          rcases List.mem_append.mp hq with h1 | h1
          · exact Or.inl h1
          · right
            rw [List.mem_singleton] at h1
            subst h1
            intro ha
            refine ⟨rfl, rfl, ?_⟩
            have ha : sndAck e1 now' = true := ha
            show (if sndAck e1 now' then e1.rcv.lwe else 0) = _
            rw [ha, if_pos rfl, hrc.1]
  | recv d k now' =>
    unfold step at hs
    dsimp only at hs hok
    have hn : s.now ≤ now' := hn
    cases hk : (s.net (!d))[k]? with
    | none => rw [hk] at hs; cases Outcome.ok.inj hs; exact h
    | some q =>
      rw [hk] at hs
      cases Outcome.ok.inj hs
      obtain ⟨hal, hH, hnear, hack⟩ := hok q hk
      have hq : q ∈ s.net (!d) := List.mem_of_getElem? hk
      have hout : ∀ x, (rcv (s.ep d) q.pkt now').2.2 = some x → x.data = false ∧ x.drf = false ∧ x.ack = false := by
        intro x hx
        unfold rcv at hx
        split at hx
        · cases hx
        · split at hx
          · cases hx; exact ⟨rfl, rfl, rfl⟩
          · cases hx
      have hem : ∀ x ∈ emit s d (rcv (s.ep d) q.pkt now').2.2 now', x ∈ s.net d ∨
          (x.pkt.data = false ∧ x.pkt.drf = false ∧ x.pkt.ack = false) := by
        intro x hx
        unfold emit at hx
        split at hx
        · exact Or.inl hx
        · rename_i y hy
          rcases List.mem_append.mp hx with h1 | h1
          · exact Or.inl h1
          · rw [List.mem_singleton] at h1
            subst h1
            exact Or.inr (hout y hy)
      unfold stepRecv
      refine both d ?_ ?_
      · have hv := h d
        simp only [upd_same, upd_not, upd_not']
        have hv := hv.recvS hn hq hack fun x hx => (hem x hx).imp id fun hh => ⟨hh.1, hh.2.1⟩
        unfold dirWnd
        split
        · exact hv.wnd _
        · exact hv
      · have hv := h (!d)
        simp only [Bool.not_not, upd_same, upd_not] at hv ⊢
        exact hv.recvR hn hq hal hH hnear fun x hx => (hem x hx).imp id fun hh => hh.2.2
  | read d =>
    unfold step stepRead at hs
    unfold queuedPdu at hs
    dsimp only at hs
    cases hb : (s.ep d).rq (pos (s.ep d).rcv.lwe) with
    | none => rw [hb] at hs; cases Outcome.ok.inj hs; exact h
    | some b =>
      rw [hb] at hs
      cases Outcome.ok.inj hs
      refine both d ?_ ?_
      · have hv := h d
        simp only [upd_same, upd_not, upd_not']
        exact hv.frame (le_refl _) rfl rfl rfl rfl rfl rfl rfl rfl rfl rfl rfl rfl (fun _ hx => Or.inl hx) (fun _ hx => Or.inl hx)
      · have hv := h (!d)
        simp only [Bool.not_not, upd_same, upd_not] at hv ⊢
        exact hv.read hb
  | ack d now' =>
    unfold step at hs
    dsimp only at hs
    have hn : s.now ≤ now' := hn
    cases Outcome.ok.inj hs
    unfold sendAck
    split
    · exact inv_quiet h hn rfl rfl rfl rfl rfl rfl rfl rfl rfl rfl rfl rfl (by intro x hx; cases hx)
    split
    · exact inv_quiet h hn rfl rfl rfl rfl rfl rfl rfl rfl rfl rfl rfl rfl (by intro x hx; cases hx)
    split
    · exact inv_quiet h hn rfl rfl rfl rfl rfl rfl rfl rfl rfl rfl rfl rfl (by intro x hx; cases hx)
    · exact inv_quiet h hn rfl rfl rfl rfl rfl rfl rfl rfl rfl rfl rfl rfl
        (by intro x hx; cases hx; exact ⟨rfl, rfl, fun _ => rfl⟩)
  | expire d k now' alloc out =>
    unfold step at hs
    dsimp only at hs
    have hn : s.now ≤ now' := hn
    cases hk : (s.rxm d)[k]? with
    | none => rw [hk] at hs; cases Outcome.ok.inj hs; exact h
    | some x =>
      rw [hk] at hs
      cases Outcome.ok.inj hs
      have hmem : x ∈ s.rxm d := List.mem_of_getElem? hk
      -- both directions if only the timer queue and the flow state of `d` change
      have hframe : ∀ e' : Ep, e'.snd = (s.ep d).snd → e'.rcv = (s.ep d).rcv → e'.rq = (s.ep d).rq → e'.r = (s.ep d).r →
          View mpl a r now' e' (s.ep (!d)) (s.net d) (s.net (!d)) (s.rxm d) (s.dir d) (s.down d) := by
        intro e' e1 e2 e3 e4
        exact (h d).frame hn (by rw [e1]) e4 (by rw [e1]) (by rw [e1]) (by rw [e1]) (by rw [e1]) rfl rfl rfl rfl rfl rfl
          (fun _ hx => Or.inl hx) (fun _ hx => Or.inl hx)
      have hframe' : ∀ e' : Ep, e'.snd = (s.ep d).snd → e'.rcv = (s.ep d).rcv → e'.rq = (s.ep d).rq → e'.r = (s.ep d).r → ∀ nb',
          (∀ q ∈ nb', q ∈ s.net d ∨ (q.pkt.ack = true → q.tag.rRun = (s.dir (!d)).rrun ∧
            q.tag.rIdx = (s.dir (!d)).got.length ∧ q.pkt.ackno = (s.ep d).rcv.lwe)) →
          View mpl a r now' (s.ep (!d)) e' (s.net (!d)) nb' (s.rxm (!d)) (s.dir (!d)) (s.down (!d)) := by
        intro e' e1 e2 e3 e4 nb' hnb
        have hv := h (!d)
        simp only [Bool.not_not] at hv
        exact hv.frame hn rfl rfl rfl rfl rfl rfl (by rw [e2]) (by rw [e2]) (by rw [e2]) (by rw [e2]) (by rw [e2]) e3
          (fun _ hx => Or.inl hx) hnb
      unfold stepExpire
      rcases expire_inv (s.ep d) x.rxm now' with ⟨hb, he⟩ | ⟨e', e1, e2, e3, e4, he⟩ | ⟨e', e1, e2, e3, e4, ht, he⟩
      · rw [he]
        refine both d ?_ ?_
        · simp only [upd_same, upd_not]
          refine (hframe _ rfl rfl rfl rfl).erase k id (Or.inr ?_)
          intro y hy
          rw [hk] at hy
          cases hy
          exact (h d).acked_entry hmem hb
        · simp only [Bool.not_not, upd_same, upd_not]
          exact hframe' _ rfl rfl rfl rfl _ fun _ hx => Or.inl hx
      · rw [he]
        refine both d ?_ ?_
        · simp only [upd_same, upd_not]
          exact (hframe _ e1 e2 e3 e4).erase k (fun _ => rfl) (Or.inl rfl)
        · simp only [Bool.not_not, upd_same, upd_not]
          exact hframe' _ e1 e2 e3 e4 _ fun _ hx => Or.inl hx
      · rw [he]
        dsimp only
        split
        · refine both d ?_ ?_
          · simp only [upd_same, upd_not]
            exact hframe _ e1 e2 e3 e4
          · simp only [Bool.not_not, upd_same, upd_not]
            exact hframe' _ e1 e2 e3 e4 _ fun _ hx => Or.inl hx
        split
        · refine both d ?_ ?_
          · simp only [upd_same, upd_not]
            exact (hframe _ e1 e2 e3 e4).erase k (fun _ => rfl) (Or.inl rfl)
          · simp only [Bool.not_not, upd_same, upd_not]
            exact hframe' _ e1 e2 e3 e4 _ fun _ hx => Or.inl hx
        · refine both d ?_ ?_
          · simp only [upd_same, upd_not]
            exact (hframe _ e1 e2 e3 e4).resend hk (by rw [e4]; exact ht) _ _ rfl rfl
          · simp only [Bool.not_not, upd_same, upd_not]
            refine hframe' _ e1 e2 e3 e4 _ ?_
            intro q hq
            rcases List.mem_append.mp hq with h1 | h1
            · exact Or.inl h1
            · right
              rw [List.mem_singleton] at h1
              subst h1
              exact fun _ => ⟨rfl, rfl, rfl⟩
  | window d now' =>
    unfold step at hs
    dsimp only at hs
    have hn : s.now ≤ now' := hn
    cases Outcome.ok.inj hs
    obtain ⟨w1, w2, w3, w4, w5⟩ := isWindowOpen_frame (s.ep d) now'
    exact inv_quiet h hn (by rw [w1]) w4 (by rw [w1]) (by rw [w1]) (by rw [w1]) (by rw [w1]) (by rw [w2]) (by rw [w2]) (by rw [w2]) (by rw [w2])
      (by rw [w2]) w3 fun x hx => by
        rw [w5 x hx]
        exact ⟨rfl, rfl, fun hh => by cases hh⟩
  | close d now' =>
    unfold step at hs
    dsimp only at hs
    have hn : s.now ≤ now' := hn
    cases Outcome.ok.inj hs
    unfold dealloc
    dsimp only
    have := inv_quiet (d := d) (e := s.ep d)
      (p := if (s.ep d).rcv.lwe != (s.ep d).rcv.seqno then some (ctrl true false false (s.ep d).rcv.lwe 0) else none)
      h hn rfl rfl rfl rfl rfl rfl rfl rfl rfl rfl rfl rfl ?_
    · rw [upd_self] at this
      exact this
    · intro x hx
      split at hx
      · cases hx; exact ⟨rfl, rfl, fun _ => rfl⟩
      · cases hx
  | flags d f rc l =>
    unfold step at hs
    dsimp only at hs
    cases Outcome.ok.inj hs
    have := inv_quiet (d := d) (e := setflags (s.ep d) f rc l) (p := none) (now' := s.now) h (le_refl _) ?_ rfl rfl rfl rfl rfl rfl rfl rfl
      rfl rfl rfl (by intro x hx; cases hx)
    · rw [emit_none] at this
      exact this
    · show ((s.ep d).snd.frtx && (f || true)) = (s.ep d).snd.frtx
      simp

theorem inv_reach {mpl a r : Nat} {s : Sys} (h : Reach a r mpl s) : Inv mpl a r s := by
  induction h with
  | init now => exact inv_init a r mpl now
  | step _ hok hs ih => exact inv_step ih hok hs

end Ouro.Frct
