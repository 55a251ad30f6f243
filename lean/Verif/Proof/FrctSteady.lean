import Verif.Proof.FrctNet

namespace Ouro.Frct

open Ouro Ouro.Seqno Spec.FrctHistory

/-! ## Histories in which each end sends in one run -/

/-- The receiver behind `R` has not followed any run yet: it has not changed since its creation. -/
def Idle (now : Int) (R : Ep) : Prop :=
  R.rcv.lwe = R.rcv.seqno ∧ (∀ t, now ≤ t → inactive R.rcv t = true) ∧ R.a < R.rcv.inact * BILLION

structure View1 (now : Int) (R : Ep) (nb : List Sent) (rxb : List Entry) (D : Dir) : Prop where
  one : D.run ≤ 1
  fresh : D.sent = [] → D.run = 0
  idle : D.rrun = 0 → Idle now R
  net : ∀ q ∈ nb, q.pkt.ack = true → 0 < q.tag.rRun
  rxm : ∀ x ∈ rxb, x.rxm.pkt.ack = true → 0 < D.rrun

def Inv1 (s : Sys) : Prop := ∀ d, View1 s.now (s.ep (!d)) (s.net (!d)) (s.rxm (!d)) (s.dir d)

theorem Idle.mono {now now' : Int} {R : Ep} (h : Idle now R) (hn : now ≤ now') : Idle now' R :=
  ⟨h.1, fun t ht => h.2.1 t (le_trans hn ht), h.2.2⟩

theorem View1.frame {now now' : Int} {R R' : Ep} {nb nb' : List Sent} {rxb rxb' : List Entry} {D : Dir} (h : View1 now R nb rxb D)
    (hn : now ≤ now') (hi : D.rrun = 0 → Idle now' R → Idle now' R') (hnb : ∀ q ∈ nb', q ∈ nb ∨ (q.pkt.ack = true → 0 < q.tag.rRun))
    (hrx : ∀ x ∈ rxb', x ∈ rxb ∨ (x.rxm.pkt.ack = true → 0 < D.rrun)) : View1 now' R' nb' rxb' D where
  one := h.one
  fresh := h.fresh
  idle h0 := hi h0 ((h.idle h0).mono hn)
  net q hq := (hnb q hq).elim (h.net q) id
  rxm x hx := (hrx x hx).elim (h.rxm x) id

theorem inv1_init (a r mpl : Nat) (now : Int) : Inv1 (Sys.init a r mpl now) := by
  intro d
  refine ⟨Nat.zero_le _, fun _ => rfl, fun _ => ⟨rfl, ?_, ?_⟩, (by intro q hq; cases hq), (by intro q hq; cases hq)⟩
  · intro t ht
    have ht : now ≤ t := ht
    unfold inactive
    apply decide_eq_true
    show tsec t - tsec ((tsec now - (((2 * ((mpl : Int) * BILLION) + a * BILLION + r * BILLION) / BILLION + 1) + 1)) * BILLION) >
      (2 * ((mpl : Int) * BILLION) + a * BILLION + r * BILLION) / BILLION + 1
    simp only [tsec, BILLION]
    omega
  · show (a : Int) * BILLION < ((2 * ((mpl : Int) * BILLION) + a * BILLION + r * BILLION) / BILLION + 1) * BILLION
    simp only [BILLION]
    omega

theorem idle_noAck {now now' : Int} {e : Ep} (h : Idle now e) (hn : now ≤ now') :
    sndAck e now' = false ∧ (sendAck e now') = (e, none) ∧ (dealloc e now').2 = none := by
  have hi := h.2.1 now' hn
  refine ⟨?_, ?_, ?_⟩
  · unfold sndAck
    unfold inactive at hi
    have hi := of_decide_eq_true hi
    have ha := h.2.2
    rw [Bool.and_eq_false_iff]
    right
    apply decide_eq_false
    simp only [BILLION] at *
    omega
  · unfold sendAck
    rw [h.1]
    have : after e.rcv.seqno e.rcv.seqno = false := C10_irreflexive _
    rw [this]
    rfl
  · unfold dealloc
    rw [h.1]
    simp

theorem inv1_quiet {s : Sys} (h : Inv1 s) {d : Bool} {now' : Int} (hn : s.now ≤ now') {e : Ep} {p : Option Pkt}
    (hi : (s.dir (!d)).rrun = 0 → Idle now' (s.ep d) → Idle now' e)
    (hp : ∀ x, p = some x → x.ack = true → (s.dir (!d)).rrun ≠ 0) :
    Inv1 { s with now := now', ep := upd s.ep d e, net := upd s.net d (emit s d p now') } := by
  refine both d ?_ ?_
  · have hv := h d
    simp only [upd_not]
    exact hv.frame hn (fun _ => id) (fun _ hx => Or.inl hx) (fun _ hx => Or.inl hx)
  · have hv := h (!d)
    simp only [Bool.not_not, upd_same] at hv ⊢
    refine hv.frame hn hi ?_ (fun _ hx => Or.inl hx)
    intro q hq
    unfold emit at hq
    split at hq
    · exact Or.inl hq
    · rename_i x
      rcases List.mem_append.mp hq with h1 | h1
      · exact Or.inl h1
      · right
        rw [List.mem_singleton] at h1
        subst h1
        intro ha
        exact Nat.pos_of_ne_zero (hp x rfl ha)

/-- In such a history the operation satisfies the general conditions. -/
theorem steady_ok {mpl a r : Nat} {s : Sys} {op : Op} (hI : Inv mpl a r s) (h : Inv1 s) (hok : OkSteady mpl s op) : Ok mpl s op := by
  obtain ⟨hn, hok⟩ := hok
  refine ⟨hn, ?_⟩
  cases op with
  | write d b now' rnd armed out => exact hok.1
  | recv d k now' =>
    dsimp only at hok ⊢
    intro q hk
    obtain ⟨h1, h2, h3, h4⟩ := hok q hk
    have hq : q ∈ s.net (!d) := List.mem_of_getElem? hk
    have hn : s.now ≤ now' := hn
    refine ⟨h1, ?_, h2, ?_⟩
    · intro hd
      have hv := h (!d)
      have hIv := hI (!d)
      simp only [Bool.not_not] at hv hIv
      rcases Nat.eq_zero_or_pos (s.dir (!d)).rrun with h0 | h0
      · right
        exact (hv.idle h0).2.1 now' hn
      · left
        have := hv.one
        have := hIv.rr
        obtain ⟨d1, _⟩ := hIv.data q hq hd
        rcases d1.run with ⟨c1, _⟩ | ⟨_, _, c1⟩
        · omega
        · exfalso
          unfold Alive at h1
          omega
    · intro ha
      refine ⟨?_, h3 ha⟩
      have hv := h d
      have hIv := hI d
      have := hv.one
      have := hv.net q hq ha
      have := (hIv.acks q hq ha).1
      have := hIv.rr
      omega
  | read d => trivial
  | ack d now' => trivial
  | expire d k now' alloc out => trivial
  | window d now' => trivial
  | close d now' => trivial
  | flags d f rc l => trivial

theorem inv1_step {mpl a r : Nat} {s s' : Sys} {op : Op} (hI : Inv mpl a r s) (h : Inv1 s) (hok : OkSteady mpl s op)
    (hs : step s op = .ok s') : Inv1 s' := by
  obtain ⟨hn, hok⟩ := hok
  cases op with
  | write d b now' rnd armed out =>
    unfold step stepWrite at hs
    dsimp only at hs hok
    have hn : s.now ≤ now' := hn
    cases hsn : snd (s.ep d) b now' rnd with
    | ub => rw [hsn] at hs; cases hs
    | ok ep =>
      obtain ⟨e, p⟩ := ep
      rw [hsn] at hs
      cases Outcome.ok.inj hs
      obtain ⟨e1, hrun, rfl, rfl⟩ := snd_inv hsn
      have hnet : ∀ (b' : Bool) (x : Sent), (if b' then upd s.net d (s.net d ++ [x]) else s.net) (!d) = s.net (!d) := by
        intro b' x; cases b' <;> simp
      have hrx : ∀ (b' : Bool) (x : Entry), (if b' then upd s.rxm d (s.rxm d ++ [x]) else s.rxm) (!d) = s.rxm (!d) := by
        intro b' x; cases b' <;> simp
      refine both d ?_ ?_
      · have hv := h d
        simp only [upd_same, upd_not]
        rw [hnet, hrx]
        refine ⟨?_, fun h0 => absurd h0 (by simp [dirWrite]), fun h0 => (hv.idle h0).mono hn, hv.net, hv.rxm⟩
        show (s.dir d).run + (inactive (s.ep d).snd now').toNat ≤ 1
        rcases hok.2 with h1 | h1
        · have h1 : (s.dir d).sent = [] := h1
          have := hv.fresh h1
          rw [this]
          cases inactive (s.ep d).snd now' <;> simp
        · rw [h1]; exact hv.one
      · have hv := h (!d)
        have hrc : e1.rcv = (s.ep d).rcv ∧ e1.a = (s.ep d).a := by
          rcases newRun_inv hrun with ⟨_, _, he⟩ | ⟨_, he⟩ <;> rw [he] <;> exact ⟨rfl, rfl⟩
        simp only [Bool.not_not, upd_same, upd_not] at hv ⊢
        have hidle1 : (s.dir (!d)).rrun = 0 → Idle now' e1 := by
          intro h0
          have := (hv.idle h0).mono hn
          unfold Idle at this ⊢
          rw [hrc.1, hrc.2]; exact this
        have hack : (sndPkt e1 ((s.ep d).snd.seqno == (s.ep d).snd.lwe) b now').ack = true → 0 < (s.dir (!d)).rrun := by
          intro ha
          by_contra h0
          have ha : sndAck e1 now' = true := ha
          rw [(idle_noAck (hidle1 (by omega)) (le_refl _)).1] at ha
          cases ha
        refine hv.frame hn ?_ ?_ ?_
        · intro h0 _
          have h1 := hidle1 h0
          have h2 := (idle_noAck h1 (le_refl _)).1
          refine ⟨?_, h1.2.1, h1.2.2⟩
          show e1.rcv.lwe = if sndAck e1 now' then e1.rcv.lwe else e1.rcv.seqno
          rw [h2]
          exact h1.1
        · intro q hq
          split at hq
          · rw [upd_same] at hq
            rcases List.mem_append.mp hq with h1 | h1
            · exact Or.inl h1
            · rw [List.mem_singleton] at h1; subst h1; exact Or.inr hack
          · exact Or.inl hq
        · intro q hq
          split at hq
          · rw [upd_same] at hq
            rcases List.mem_append.mp hq with h1 | h1
            · exact Or.inl h1
            · rw [List.mem_singleton] at h1; subst h1; exact Or.inr hack
          · exact Or.inl hq
  | recv d k now' =>
    unfold step at hs
    dsimp only at hs hok
    have hn : s.now ≤ now' := hn
    cases hk : (s.net (!d))[k]? with
    | none => rw [hk] at hs; cases Outcome.ok.inj hs; exact h
    | some q =>
      rw [hk] at hs
      cases Outcome.ok.inj hs
      have hq : q ∈ s.net (!d) := List.mem_of_getElem? hk
      obtain ⟨hal, h2, h3, h4⟩ := hok q hk
      unfold stepRecv
      have hem : ∀ x ∈ emit s d (rcv (s.ep d) q.pkt now').2.2 now', x ∈ s.net d ∨ x.pkt.ack = false := by
        intro x hx
        unfold emit at hx
        split at hx
        · exact Or.inl hx
        · rename_i y hy
          rcases List.mem_append.mp hx with h1 | h1
          · exact Or.inl h1
          · right
            rw [List.mem_singleton] at h1
            subst h1
            unfold rcv at hy
            split at hy
            · cases hy
            · split at hy
              · cases hy; rfl
              · cases hy
      refine both d ?_ ?_
      · have hv := h d
        simp only [upd_same, upd_not, upd_not']
        have hS : (dirWnd (dirAcked (s.dir d) (s.ep d).snd.lwe (rcv (s.ep d) q.pkt now').1.snd.lwe q.tag) (s.ep d) q.pkt now' q.tag).sent =
            (s.dir d).sent := by
          unfold dirWnd dirAcked
          split <;> split <;> rfl
        have hD : (dirWnd (dirAcked (s.dir d) (s.ep d).snd.lwe (rcv (s.ep d) q.pkt now').1.snd.lwe q.tag) (s.ep d) q.pkt now' q.tag).run =
            (s.dir d).run ∧
            (dirWnd (dirAcked (s.dir d) (s.ep d).snd.lwe (rcv (s.ep d) q.pkt now').1.snd.lwe q.tag) (s.ep d) q.pkt now' q.tag).rrun =
            (s.dir d).rrun := by
          unfold dirWnd dirAcked
          split <;> split <;> exact ⟨rfl, rfl⟩
        refine ⟨?_, ?_, ?_, hv.net, ?_⟩
        · rw [hD.1]; exact hv.one
        · rw [hD.1, hS]; exact hv.fresh
        · rw [hD.2]; exact fun h0 => (hv.idle h0).mono hn
        · rw [hD.2]; exact hv.rxm
      · have hv := h (!d)
        have hIv := hI (!d)
        simp only [Bool.not_not, upd_same] at hv hIv ⊢
        have hnet' : ∀ x ∈ emit s d (rcv (s.ep d) q.pkt now').2.2 now', x.pkt.ack = true → 0 < x.tag.rRun := by
          intro x hx ha
          rcases hem x hx with h1 | h1
          · exact hv.net x h1 ha
          · rw [h1] at ha; cases ha
        cases hc : (inactive (s.ep d).rcv now' && q.pkt.drf)
        · have hD : dirRun (s.dir (!d)) (s.ep d) q.pkt now' q.tag = s.dir (!d) := by unfold dirRun; rw [hc]; rfl
          rw [hD]
          refine ⟨hv.one, hv.fresh, ?_, hnet', hv.rxm⟩
          intro h0
          have hid := (hv.idle h0).mono hn
          have hin := hid.2.1 now' (le_refl _)
          rw [hin] at hc
          have hdat : q.pkt.data = true := by
            by_contra hne
            have := h4 (by simpa using hne)
            omega
          have : rcvRun (s.ep d) q.pkt now' = none := by
            unfold rcvRun
            rw [hin, show q.pkt.drf = false by simpa using hc, hdat]
            rfl
          unfold rcv
          rw [this]
          exact hid
        · have hc' := hc
          rw [Bool.and_eq_true] at hc'
          have hD : dirRun (s.dir (!d)) (s.ep d) q.pkt now' q.tag = { s.dir (!d) with rrun := q.tag.run } := by unfold dirRun; rw [hc]; rfl
          rw [hD]
          obtain ⟨e1, _⟩ := hIv.newRun hn hq hal hc'.1 hc'.2
          have hpos : 0 < q.tag.run := by
            rw [e1]
            rcases Nat.eq_zero_or_pos (s.dir (!d)).run with h0 | h0
            · have := hIv.run0 h0
              have := (hIv.data q hq (hIv.nodrf q hq hc'.2)).1.lt
              omega
            · exact h0
          exact ⟨hv.one, hv.fresh, fun h0 => absurd h0 (Nat.pos_iff_ne_zero.mp hpos), hnet', fun _ _ _ => hpos⟩
  | read d =>
    unfold step stepRead at hs
    unfold queuedPdu at hs
    dsimp only at hs
    cases hb : (s.ep d).rq (pos (s.ep d).rcv.lwe) with
    | none => rw [hb] at hs; cases Outcome.ok.inj hs; exact h
    | some b =>
      rw [hb] at hs
      cases Outcome.ok.inj hs
      refine both d ?_ ?_
      · have hv := h d
        simp only [upd_not, upd_not']
        exact hv.frame (le_refl _) (fun _ => id) (fun _ hx => Or.inl hx) (fun _ hx => Or.inl hx)
      · have hv := h (!d)
        have hIv := hI (!d)
        simp only [Bool.not_not, upd_same] at hv hIv ⊢
        refine ⟨hv.one, hv.fresh, ?_, hv.net, hv.rxm⟩
        intro h0
        exfalso
        have h0 : (s.dir (!d)).rrun = 0 := h0
        obtain ⟨g, g1, g2, g3, _⟩ := hIv.rq _ _ hb
        by_cases hr : (s.dir (!d)).rrun = (s.dir (!d)).run
        · have := hIv.run0 (by omega)
          omega
        · have := (hIv.lag hr).2 (pos (s.ep d).rcv.lwe)
          rw [this] at hb; cases hb
  | ack d now' =>
    unfold step at hs
    dsimp only at hs
    have hn : s.now ≤ now' := hn
    cases Outcome.ok.inj hs
    have hv := h (!d)
    simp only [Bool.not_not] at hv
    refine inv1_quiet h hn ?_ ?_
    · intro h0 hid
      rw [(idle_noAck hid (le_refl _)).2.1]; exact hid
    · intro x hx _ h0
      rw [(idle_noAck (hv.idle h0) hn).2.1] at hx
      cases hx
  | expire d k now' alloc out =>
    unfold step at hs
    dsimp only at hs
    have hn : s.now ≤ now' := hn
    cases hk : (s.rxm d)[k]? with
    | none => rw [hk] at hs; cases Outcome.ok.inj hs; exact h
    | some x =>
      rw [hk] at hs
      cases Outcome.ok.inj hs
      have hmem : x ∈ s.rxm d := List.mem_of_getElem? hk
      have hvd := h d
      have hv := h (!d)
      simp only [Bool.not_not] at hv
      have hidle : ∀ e' : Ep, e'.rcv = (s.ep d).rcv → e'.a = (s.ep d).a → Idle now' (s.ep d) → Idle now' e' := by
        intro e' h1 h2 h3
        unfold Idle at h3 ⊢
        rw [h1, h2]; exact h3
      have hea : (expire (s.ep d) x.rxm now').1.a = (s.ep d).a := by
        have : (backoff (s.ep d) x.rxm).a = (s.ep d).a := by unfold backoff; split <;> rfl
        unfold expire
        split
        · rfl
        split
        · rfl
        dsimp only
        split <;> exact this
      have herase : ∀ (e' : Ep) (dn : Bool → Bool), e'.rcv = (s.ep d).rcv → e'.a = (s.ep d).a →
          Inv1 { s with now := now', ep := upd s.ep d e', rxm := upd s.rxm d ((s.rxm d).eraseIdx k), down := dn } := by
        intro e' dn e1 e2
        refine both d ?_ ?_
        · simp only [upd_not]
          exact hvd.frame hn (fun _ => id) (fun _ hx => Or.inl hx) (fun _ hx => Or.inl hx)
        · simp only [Bool.not_not, upd_same]
          exact hv.frame hn (fun _ => hidle e' e1 e2) (fun _ hx => Or.inl hx) (fun y hy => Or.inl (List.mem_of_mem_eraseIdx hy))
      unfold stepExpire
      rcases expire_inv (s.ep d) x.rxm now' with ⟨hb, he⟩ | ⟨e', e1, e2, e3, e4, he⟩ | ⟨e', e1, e2, e3, e4, ht, he⟩
      · rw [he]; exact herase _ _ rfl rfl
      · rw [he] at hea ⊢; exact herase _ _ e2 hea
      · rw [he] at hea ⊢
        dsimp only at hea ⊢
        split
        · refine both d ?_ ?_
          · simp only [upd_not]
            exact hvd.frame hn (fun _ => id) (fun _ hx => Or.inl hx) (fun _ hx => Or.inl hx)
          · simp only [Bool.not_not, upd_same]
            exact hv.frame hn (fun _ => hidle e' e2 hea) (fun _ hx => Or.inl hx) (fun _ hx => Or.inl hx)
        split
        · exact herase _ _ e2 hea
        · have hx' := hv.rxm x hmem
          refine both d ?_ ?_
          · simp only [upd_not]
            exact hvd.frame hn (fun _ => id) (fun _ hx => Or.inl hx) (fun _ hx => Or.inl hx)
          · simp only [Bool.not_not, upd_same]
            refine hv.frame hn (fun _ => hidle e' e2 hea) ?_ ?_
            · intro q hq
              rcases List.mem_append.mp hq with h1 | h1
              · exact Or.inl h1
              · right
                rw [List.mem_singleton] at h1
                subst h1
                exact hx'
            · intro y hy
              rcases List.mem_or_eq_of_mem_set hy with h1 | h1
              · exact Or.inl h1
              · right
                subst h1
                exact hx'
  | window d now' =>
    unfold step at hs
    dsimp only at hs
    have hn : s.now ≤ now' := hn
    cases Outcome.ok.inj hs
    obtain ⟨w1, w2, w3, w4, w5⟩ := isWindowOpen_frame (s.ep d) now'
    have wa : (isWindowOpen (s.ep d) now').1.a = (s.ep d).a := by
      unfold isWindowOpen
      cases (if (s.ep d).snd.rescntl then before (s.ep d).snd.seqno (s.ep d).snd.rwe else true)
      · simp only [Bool.not_false, if_true]
        split
        · rfl
        split
        · rfl
        split <;> rfl
      · rfl
    refine inv1_quiet h hn ?_ ?_
    · intro _ hid
      unfold Idle at hid ⊢
      rw [w2, wa]; exact hid
    · intro x hx ha
      rw [w5 x hx] at ha
      cases ha
  | close d now' =>
    unfold step at hs
    dsimp only at hs
    have hn : s.now ≤ now' := hn
    cases Outcome.ok.inj hs
    have hv := h (!d)
    simp only [Bool.not_not] at hv
    have := inv1_quiet (d := d) (e := s.ep d) (now' := now') (p := (dealloc (s.ep d) now').2) h hn (fun _ => id) ?_
    · rw [upd_self] at this
      exact this
    · intro x hx _ h0
      rw [(idle_noAck (hv.idle h0) hn).2.2] at hx
      cases hx
  | flags d f rc l =>
    unfold step at hs
    dsimp only at hs
    cases Outcome.ok.inj hs
    have := inv1_quiet (d := d) (e := setflags (s.ep d) f rc l) (p := none) (now' := s.now) h (le_refl _) (fun _ => id)
      (by intro x hx; cases hx)
    rw [emit_none] at this
    exact this

theorem steady_reach {a r mpl : Nat} {s : Sys} (h : ReachSteady a r mpl s) : Reach a r mpl s ∧ Inv1 s := by
  induction h with
  | init now => exact ⟨.init now, inv1_init a r mpl now⟩
  | step _ hok hs ih =>
    have hI := inv_reach ih.1
    exact ⟨.step ih.1 (steady_ok hI ih.2 hok) hs, inv1_step hI ih.2 hok hs⟩

end Ouro.Frct
