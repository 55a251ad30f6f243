import Verif.Proof.FrctNet

namespace Ouro.Frct

open Ouro Ouro.Seqno Spec.FrctHistory

/-! ## The 24 bit window -/

theorem mask_hi (x : W) : (x &&& 0xFF000000#32).toNat = 2 ^ 24 * (x.toNat / 2 ^ 24) := by
  have h : x &&& 0xFF000000#32 = (x >>> 24) <<< 24 := by
    apply BitVec.eq_of_getLsbD_eq
    intro i hi
    have : (0xFF000000#32).getLsbD i = decide (24 ≤ i) := by
      have h : ∀ j : Fin 32, (0xFF000000#32).getLsbD j.1 = decide (24 ≤ j.1) := by decide
      exact h ⟨i, hi⟩
    simp only [BitVec.getLsbD_and, BitVec.getLsbD_shiftLeft, BitVec.getLsbD_ushiftRight, this]
    by_cases h24 : 24 ≤ i
    · have : 24 + (i - 24) = i := by omega
      simp [h24, hi, this]
    · simp [h24]
  rw [h]
  simp only [BitVec.toNat_shiftLeft, BitVec.toNat_ushiftRight, Nat.shiftRight_eq_div_pow, Nat.shiftLeft_eq]
  have := x.isLt
  omega

theorem recon_toNat (cur : W) (win : BitVec 24) :
    (win.setWidth 32 ||| (cur &&& 0xFF000000#32)).toNat = 2 ^ 24 * (cur.toNat / 2 ^ 24) + win.toNat := by
  rw [BitVec.toNat_or, mask_hi, Nat.or_comm, BitVec.toNat_setWidth]
  have hw := win.isLt
  rw [Nat.mod_eq_of_lt (by omega), Nat.two_pow_add_eq_or_of_lt hw]

/-- The window is reconstructed exactly as long as it has not moved by more than `2^23`. -/
theorem recon_exact (cur : W) (n : Nat) (hn : n ≤ 2 ^ 23) :
    recon cur ((cur + BitVec.ofNat 32 n).setWidth 24) = cur + BitVec.ofNat 32 n := by
  have hc := cur.isLt
  have hwin : ((cur + BitVec.ofNat 32 n).setWidth 24).toNat = (cur.toNat + n) % 2 ^ 24 := by
    rw [BitVec.toNat_setWidth, add_toNat]; omega
  have hr := recon_toNat cur ((cur + BitVec.ofNat 32 n).setWidth 24)
  rw [hwin] at hr
  have hb := before_iff (((cur + BitVec.ofNat 32 n).setWidth 24).setWidth 32 ||| (cur &&& 0xFF000000#32)) cur
  have hs := toNat_sub' (((cur + BitVec.ofNat 32 n).setWidth 24).setWidth 32 ||| (cur &&& 0xFF000000#32)) cur
  unfold dist at hb hs
  rw [hr] at hb hs
  unfold recon
  dsimp only
  by_cases hlow : cur.toNat % 2 ^ 24 + n < 2 ^ 24
  · rw [if_neg]
    · apply w_eq
      rw [hr, add_toNat]
      omega
    · rw [Bool.and_eq_true, hb]
      omega
  · rw [if_pos]
    · apply w_eq
      rw [BitVec.toNat_add, hr, add_toNat]
      simp only [BitVec.toNat_ofNat]
      omega
    · rw [Bool.and_eq_true, hb, decide_eq_true_iff, hs]
      omega

theorem recon_add (c : W) (i j : Nat) (h1 : i ≤ j) (h2 : j ≤ i + 2 ^ 23) :
    recon (c + BitVec.ofNat 32 i) ((c + BitVec.ofNat 32 j).setWidth 24) = c + BitVec.ofNat 32 j := by
  have : c + BitVec.ofNat 32 j = c + BitVec.ofNat 32 i + BitVec.ofNat 32 (j - i) := by
    apply w_eq
    rw [add_toNat, add_toNat, add_toNat]
    omega
  rw [this]
  exact recon_exact _ _ (by omega)

/-! ## The invariant of flow control -/

/-- A packet that announces a window. -/
def FcOk (D : Dir) (p : Pkt) (t : Tag) : Prop :=
  p.fc = true → t.wRun ≤ D.rrun ∧ (0 < D.run → t.wRun = D.run →
    p.window = (D.base + BitVec.ofNat 32 t.wIdx).setWidth 24 ∧ t.wIdx ≤ D.got.length + 256)

structure ViewW (S : Ep) (nb : List Sent) (rxb : List Entry) (D : Dir) : Prop where
  rdvs : ∀ q ∈ nb, q.pkt.rdvs = true → q.pkt.drf = false
  rdvx : ∀ x ∈ rxb, x.rxm.pkt.rdvs = false
  edge : 0 < D.run → S.snd.rwe = D.base + BitVec.ofNat 32 D.wnd
  lo : 0 < D.run → D.sent.length ≤ D.wnd
  hi : 0 < D.run → D.wnd ≤ D.got.length + 256
  net : ∀ q ∈ nb, FcOk D q.pkt q.tag
  rxm : ∀ x ∈ rxb, FcOk D x.rxm.pkt x.tag

theorem ViewW.frame {S S' : Ep} {nb nb' : List Sent} {rxb rxb' : List Entry} {D : Dir} (h : ViewW S nb rxb D)
    (hs : S'.snd.rwe = S.snd.rwe) (hn : ∀ q ∈ nb', q ∈ nb ∨ (FcOk D q.pkt q.tag ∧ (q.pkt.rdvs = true → q.pkt.drf = false)))
    (hr : ∀ x ∈ rxb', x ∈ rxb ∨ (FcOk D x.rxm.pkt x.tag ∧ x.rxm.pkt.rdvs = false)) : ViewW S' nb' rxb' D where
  rdvs q hq := (hn q hq).elim (h.rdvs q) fun h => h.2
  rdvx x hx := (hr x hx).elim (h.rdvx x) fun h => h.2
  edge := by rw [hs]; exact h.edge
  lo := h.lo
  hi := h.hi
  net q hq := (hn q hq).elim (h.net q) fun h => h.1
  rxm x hx := (hr x hx).elim (h.rxm x) fun h => h.1

def InvW (s : Sys) : Prop := ∀ d, ViewW (s.ep d) (s.net (!d)) (s.rxm (!d)) (s.dir d)

/-- What the receiver announces now. -/
theorem fcNow {mpl a r : Nat} {s : Sys} (hI : Inv mpl a r s) (d : Bool) {p : Pkt} {t : Tag}
    (hp : p.fc = true → p.window = (s.ep d).rcv.rwe.setWidth 24) (h1 : t.wRun = (s.dir (!d)).rrun)
    (h2 : t.wIdx = (s.dir (!d)).got.length + 256) : FcOk (s.dir (!d)) p t := by
  intro hf
  refine ⟨le_of_eq h1, fun h0 he => ⟨?_, le_of_eq h2⟩⟩
  have hv := hI (!d)
  simp only [Bool.not_not] at hv
  rw [hp hf, hv.cur2 (by rw [← h1]; exact he) h0, h2]

theorem rcv_rwe (e : Ep) (p : Pkt) (now : Int) : (rcv e p now).1.snd.rwe =
    if p.fc && !p.rdvs && (rcvRun e p now).isSome then recon e.snd.rwe p.window else e.snd.rwe := by
  unfold rcv
  cases hr : rcvRun e p now with
  | none => simp
  | some e1 =>
    obtain ⟨h1, _⟩ := rcvRun_snd e e1 p now hr
    dsimp only
    cases hd : p.rdvs
    · simp only [Bool.false_eq_true, if_false, Option.isSome_some, Bool.not_false, Bool.and_true]
      obtain ⟨d1, _⟩ := rcvData_snd (rcvFc (rcvAck e1 p now) p) p
      obtain ⟨_, _, _, a4⟩ := rcvAck_frame e1 p now
      rw [d1]
      unfold rcvFc
      split
      · rw [a4, h1]
      · rw [a4, h1]
    · simp [h1]

theorem rcv_out {e : Ep} {p y : Pkt} {now : Int} (h : (rcv e p now).2.2 = some y) (hd : p.rdvs = true → p.drf = false) :
    y.drf = false ∧ y.window = e.rcv.rwe.setWidth 24 := by
  unfold rcv at h
  cases hr : rcvRun e p now with
  | none => rw [hr] at h; cases h
  | some e1 =>
    rw [hr] at h
    dsimp only at h
    split at h
    · rename_i hrd
      cases h
      refine ⟨rfl, ?_⟩
      have hd := hd hrd
      unfold rcvRun at hr
      rw [hd] at hr
      simp only [Bool.false_eq_true, if_false] at hr
      have : e1.rcv.rwe = e.rcv.rwe := by
        split at hr
        · split at hr
          · cases hr
          · cases hr; rfl
        · cases hr; rfl
      show e1.rcv.rwe.setWidth 24 = _
      rw [this]
    · cases h

theorem invW_init (a r mpl : Nat) (now : Int) : InvW (Sys.init a r mpl now) := by
  intro d
  exact
  { rdvs := by intro q hq; cases hq
    rdvx := by intro q hq; cases hq
    edge := fun h => absurd h (Nat.lt_irrefl _)
    lo := fun h => absurd h (Nat.lt_irrefl _)
    hi := fun h => absurd h (Nat.lt_irrefl _)
    net := by intro q hq; cases hq
    rxm := by intro q hq; cases hq }

theorem invW_quiet {mpl a r : Nat} {s : Sys} (hI : Inv mpl a r s) (h : InvW s) {d : Bool} {now' : Int} {e : Ep} {p : Option Pkt}
    (he : e.snd.rwe = (s.ep d).snd.rwe)
    (hp : ∀ x, p = some x → x.drf = false ∧ (x.fc = true → x.window = (s.ep d).rcv.rwe.setWidth 24)) :
    InvW { s with now := now', ep := upd s.ep d e, net := upd s.net d (emit s d p now') } := by
  have hem : ∀ q ∈ emit s d p now', q ∈ s.net d ∨ ∃ x, p = some x ∧ q = ⟨x, now', tagNow s d (s.dir d).run 0⟩ := by
    intro q hq
    unfold emit at hq
    split at hq
    · exact Or.inl hq
    · rename_i x
      rcases List.mem_append.mp hq with h1 | h1
      · exact Or.inl h1
      · exact Or.inr ⟨x, rfl, by simpa using h1⟩
  refine both d ?_ ?_
  · have hv := h d
    simp only [upd_same, upd_not]
    exact hv.frame he (fun _ hx => Or.inl hx) (fun _ hx => Or.inl hx)
  · have hv := h (!d)
    simp only [Bool.not_not, upd_same, upd_not] at hv ⊢
    refine hv.frame rfl ?_ (fun _ hx => Or.inl hx)
    intro q hq
    rcases hem q hq with h1 | ⟨x, h1, rfl⟩
    · exact Or.inl h1
    · exact Or.inr ⟨fcNow hI d (hp x h1).2 rfl rfl, fun _ => (hp x h1).1⟩

theorem FcOk.got {D : Dir} {p : Pkt} {t : Tag} (h : FcOk D p t) (b : List Byte) : FcOk { D with got := D.got ++ [b] } p t := by
  intro hf
  obtain ⟨h1, h2⟩ := h hf
  refine ⟨h1, fun h0 he => ⟨(h2 h0 he).1, ?_⟩⟩
  have := (h2 h0 he).2
  simp only [List.length_append, List.length_singleton]
  omega

theorem invW_step {mpl a r : Nat} {s s' : Sys} {op : Op} (hI : Inv mpl a r s) (h : InvW s) (hok : Ok mpl s op) (hw : OkWindow s op)
    (hs : step s op = .ok s') : InvW s' := by
  obtain ⟨hn, hok⟩ := hok
  cases op with
  | write d b now' rnd armed out =>
    unfold step stepWrite at hs
    dsimp only at hs hok
    have hn : s.now ≤ now' := hn
    obtain ⟨hrc, hopen⟩ := hw
    cases hsn : snd (s.ep d) b now' rnd with
    | ub => rw [hsn] at hs; cases hs
    | ok ep =>
      obtain ⟨e, p⟩ := ep
      rw [hsn] at hs
      cases Outcome.ok.inj hs
      obtain ⟨e1, hrun, rfl, rfl⟩ := snd_inv hsn
      have hI' := hI d
      refine both d ?_ ?_
      · have hv := h d
        simp only [upd_same]
        have hnet : ∀ (b' : Bool) (x : Sent), (if b' then upd s.net d (s.net d ++ [x]) else s.net) (!d) = s.net (!d) := by
          intro b' x; cases b' <;> simp
        have hrx : ∀ (b' : Bool) (x : Entry), (if b' then upd s.rxm d (s.rxm d ++ [x]) else s.rxm) (!d) = s.rxm (!d) := by
          intro b' x; cases b' <;> simp
        rw [hnet, hrx]
        have hfc : ∀ k t, FcOk (s.dir d) k t → FcOk (dirWrite (s.dir d) (inactive (s.ep d).snd now') b now' rnd armed) k t := by
          intro k t hk hf
          obtain ⟨h1, h2⟩ := hk hf
          refine ⟨h1, fun h0 he => ?_⟩
          cases hi : inactive (s.ep d).snd now'
          · rw [hi] at h0 he
            simp only [dirWrite, Bool.toNat_false, Nat.add_zero, Bool.false_eq_true, if_false] at h0 he ⊢
            exact h2 h0 he
          · rw [hi] at he
            simp only [dirWrite, Bool.toNat_true] at he
            have := hI'.rr; omega
        rcases newRun_inv hrun with ⟨hi, hq, he⟩ | ⟨hi, he⟩
        · have hGL : (s.dir d).sent.length = (s.dir d).acked := by
            rw [hI'.seqS, hI'.lweS, add_inj] at hq
            have := hI'.flight; have := hI'.ld; have := hI'.dg
            omega
          have := hI'.ld; have := hI'.dg
          refine ⟨hv.rdvs, hv.rdvx, ?_, ?_, ?_, fun q hq => hfc _ _ (hv.net q hq), fun x hx => hfc _ _ (hv.rxm x hx)⟩
          · intro _
            show e1.snd.rwe = _
            rw [he, hi]
            show rnd + START_WINDOW = rnd - BitVec.ofNat 32 (s.dir d).sent.length + BitVec.ofNat 32 ((s.dir d).sent.length + 64)
            apply w_eq
            rw [add_toNat, BitVec.toNat_sub, BitVec.toNat_add]
            simp only [START_WINDOW, BitVec.toNat_ofNat]
            have := rnd.isLt
            omega
          · intro _
            rw [hi]
            show ((s.dir d).sent ++ [b]).length ≤ (s.dir d).sent.length + 64
            simp
          · intro _
            rw [hi]
            show (s.dir d).sent.length + 64 ≤ (s.dir d).got.length + 256
            omega
        · have h0 : 0 < (s.dir d).run := by
            rcases Nat.eq_zero_or_pos (s.dir d).run with h0 | h0
            · rw [hI'.idle0 h0 now' hn] at hi; cases hi
            · exact h0
          have hlt : (s.dir d).sent.length < (s.dir d).wnd := by
            have hb : before (s.ep d).snd.seqno (s.ep d).snd.rwe = true := by
              unfold isWindowOpen at hopen
              dsimp only at hopen
              rw [hrc] at hopen
              simp only [if_true] at hopen
              by_contra hne
              have hne : before (s.ep d).snd.seqno (s.ep d).snd.rwe = false := by simpa using hne
              rw [hne] at hopen
              simp only [Bool.not_false, if_true] at hopen
              split at hopen
              · cases hopen
              split at hopen
              · cases hopen
              split at hopen <;> cases hopen
            rw [hI'.seqS, hv.edge h0, before_add] at hb
            · exact hb
            · have := hv.lo h0; omega
            · have := hv.hi h0; have := hI'.dg; omega
          refine ⟨hv.rdvs, hv.rdvx, ?_, ?_, ?_, fun q hq => hfc _ _ (hv.net q hq), fun x hx => hfc _ _ (hv.rxm x hx)⟩
          · intro _
            show e1.snd.rwe = _
            rw [he, hi]
            exact hv.edge h0
          · intro _
            rw [hi]
            show ((s.dir d).sent ++ [b]).length ≤ (s.dir d).wnd
            simp only [List.length_append, List.length_singleton]
            omega
          · intro _
            rw [hi]
            exact hv.hi h0
      · have hv := h (!d)
        have hrc' : e1.rcv = (s.ep d).rcv := by
          rcases newRun_inv hrun with ⟨_, _, he⟩ | ⟨_, he⟩ <;> rw [he]
        have hnew := fcNow hI d (p := sndPkt e1 ((s.ep d).snd.seqno == (s.ep d).snd.lwe) b now')
          (t := tagNow s d (dirWrite (s.dir d) (inactive (s.ep d).snd now') b now' rnd armed).run (s.dir d).sent.length)
          (by
            intro hf
            have hf : sndFc e1 now' = true := hf
            show (if sndFc e1 now' then e1.rcv.rwe.setWidth 24 else 0) = _
            rw [hf, if_pos rfl, hrc']) rfl rfl
        simp only [Bool.not_not, upd_not] at hv ⊢
        refine hv.frame rfl ?_ ?_
        · intro q hq
          split at hq
          · rw [upd_same] at hq
            rcases List.mem_append.mp hq with h1 | h1
            · exact Or.inl h1
            · rw [List.mem_singleton] at h1; subst h1; exact Or.inr ⟨hnew, fun hh => by cases hh⟩
          · exact Or.inl hq
        · intro q hq
          split at hq
          · rw [upd_same] at hq
            rcases List.mem_append.mp hq with h1 | h1
            · exact Or.inl h1
            · rw [List.mem_singleton] at h1; subst h1; exact Or.inr ⟨hnew, rfl⟩
          · exact Or.inl hq
  | recv d k now' =>
    unfold step at hs
    dsimp only at hs hok
    have hn : s.now ≤ now' := hn
    cases hk : (s.net (!d))[k]? with
    | none => rw [hk] at hs; cases Outcome.ok.inj hs; exact h
    | some q =>
      rw [hk] at hs
      cases Outcome.ok.inj hs
      obtain ⟨hal, hH, hnear, hack⟩ := hok q hk
      have hq : q ∈ s.net (!d) := List.mem_of_getElem? hk
      have hwq := hw q hk
      unfold stepRecv
      refine both d ?_ ?_
      · have hv := h d
        simp only [upd_same, upd_not, upd_not']
        have hD : ∃ ac wn, dirWnd (dirAcked (s.dir d) (s.ep d).snd.lwe (rcv (s.ep d) q.pkt now').1.snd.lwe q.tag) (s.ep d) q.pkt now' q.tag =
            { s.dir d with acked := ac, wnd := wn } ∧
            wn = if q.pkt.fc && !q.pkt.rdvs && (rcvRun (s.ep d) q.pkt now').isSome then q.tag.wIdx else (s.dir d).wnd := by
          unfold dirWnd dirAcked
          split <;> split <;> exact ⟨_, _, rfl, rfl⟩
        obtain ⟨ac, wn, hD, hwn⟩ := hD
        rw [hD]
        have hfc : ∀ k t, FcOk (s.dir d) k t → FcOk { s.dir d with acked := ac, wnd := wn } k t := fun k t hk hf => hk hf
        have hr := rcv_rwe (s.ep d) q.pkt now'
        cases hc : (q.pkt.fc && !q.pkt.rdvs && (rcvRun (s.ep d) q.pkt now').isSome)
        · rw [hc] at hr hwn
          simp only [Bool.false_eq_true, if_false] at hr hwn
          subst hwn
          exact ⟨hv.rdvs, hv.rdvx, fun h0 => by rw [hr]; exact hv.edge h0, hv.lo, hv.hi, fun q hq => hfc _ _ (hv.net q hq), fun x hx => hfc _ _ (hv.rxm x hx)⟩
        · rw [hc] at hr hwn
          simp only [if_true] at hr hwn
          subst hwn
          have hf : q.pkt.fc = true := by
            rw [Bool.and_eq_true, Bool.and_eq_true] at hc; exact hc.1.1
          refine ⟨hv.rdvs, hv.rdvx, ?_, ?_, ?_, fun q hq => hfc _ _ (hv.net q hq), fun x hx => hfc _ _ (hv.rxm x hx)⟩
          · intro h0
            obtain ⟨w1, w2, w3⟩ := hwq hf h0
            obtain ⟨w4, w5⟩ := (hv.net q hq hf).2 h0 w1
            rw [hr, hv.edge h0, w4]
            exact recon_add _ _ _ w2 w3
          · intro h0
            obtain ⟨w1, w2, w3⟩ := hwq hf h0
            have := hv.lo h0
            show (s.dir d).sent.length ≤ q.tag.wIdx
            omega
          · intro h0
            obtain ⟨w1, w2, w3⟩ := hwq hf h0
            exact ((hv.net q hq hf).2 h0 w1).2
      · have hv := h (!d)
        have hIv := hI (!d)
        simp only [Bool.not_not, upd_same, upd_not] at hv hIv ⊢
        -- the receiver of this direction may change its run
        have hD : ∀ k t, FcOk (s.dir (!d)) k t → FcOk (dirRun (s.dir (!d)) (s.ep d) q.pkt now' q.tag) k t := by
          intro k t hk hf
          obtain ⟨h1, h2⟩ := hk hf
          unfold dirRun
          split
          · rename_i hc
            rw [Bool.and_eq_true] at hc
            obtain ⟨e1, _⟩ := hIv.newRun hn hq hal hc.1 hc.2
            refine ⟨?_, h2⟩
            show t.wRun ≤ q.tag.run
            have := hIv.rr
            omega
          · exact ⟨h1, h2⟩
        have hem : ∀ x ∈ emit s d (rcv (s.ep d) q.pkt now').2.2 now', x ∈ s.net d ∨
            (FcOk (dirRun (s.dir (!d)) (s.ep d) q.pkt now' q.tag) x.pkt x.tag ∧ x.pkt.drf = false) := by
          intro x hx
          unfold emit at hx
          split at hx
          · exact Or.inl hx
          · rename_i y hy
            have hyw := rcv_out hy (h d |>.rdvs q hq)
            rcases List.mem_append.mp hx with h1 | h1
            · exact Or.inl h1
            · right
              rw [List.mem_singleton] at h1
              subst h1
              exact ⟨hD _ _ (fcNow hI d (fun _ => hyw.2) rfl rfl), hyw.1⟩
        have hdir : (dirRun (s.dir (!d)) (s.ep d) q.pkt now' q.tag).run = (s.dir (!d)).run ∧
            (dirRun (s.dir (!d)) (s.ep d) q.pkt now' q.tag).base = (s.dir (!d)).base ∧
            (dirRun (s.dir (!d)) (s.ep d) q.pkt now' q.tag).wnd = (s.dir (!d)).wnd ∧
            (dirRun (s.dir (!d)) (s.ep d) q.pkt now' q.tag).sent = (s.dir (!d)).sent ∧
            (dirRun (s.dir (!d)) (s.ep d) q.pkt now' q.tag).got = (s.dir (!d)).got := by
          unfold dirRun; split <;> exact ⟨rfl, rfl, rfl, rfl, rfl⟩
        obtain ⟨d1, d2, d3, d4, d5⟩ := hdir
        refine ⟨?_, hv.rdvx, ?_, ?_, ?_, ?_, fun x hx => hD _ _ (hv.rxm x hx)⟩
        · intro x hx
          rcases hem x hx with h1 | h1
          · exact hv.rdvs x h1
          · exact fun _ => h1.2
        · rw [d1, d2, d3]; exact hv.edge
        · rw [d1, d3, d4]; exact hv.lo
        · rw [d1, d3, d5]; exact hv.hi
        · intro x hx
          rcases hem x hx with h1 | h1
          · exact hD _ _ (hv.net x h1)
          · exact h1.1
  | read d =>
    unfold step stepRead at hs
    unfold queuedPdu at hs
    dsimp only at hs
    cases hb : (s.ep d).rq (pos (s.ep d).rcv.lwe) with
    | none => rw [hb] at hs; cases Outcome.ok.inj hs; exact h
    | some b =>
      rw [hb] at hs
      cases Outcome.ok.inj hs
      refine both d ?_ ?_
      · have hv := h d
        simp only [upd_same, upd_not']
        exact hv.frame rfl (fun _ hx => Or.inl hx) (fun _ hx => Or.inl hx)
      · have hv := h (!d)
        simp only [Bool.not_not, upd_same, upd_not] at hv ⊢
        refine ⟨hv.rdvs, hv.rdvx, hv.edge, hv.lo, ?_, fun q hq => (hv.net q hq).got b, fun x hx => (hv.rxm x hx).got b⟩
        intro h0
        have := hv.hi h0
        show (s.dir (!d)).wnd ≤ ((s.dir (!d)).got ++ [b]).length + 256
        simp only [List.length_append, List.length_singleton]
        omega
  | ack d now' =>
    unfold step at hs
    dsimp only at hs
    cases Outcome.ok.inj hs
    unfold sendAck
    split
    · exact invW_quiet hI h rfl (by intro x hx; cases hx)
    split
    · exact invW_quiet hI h rfl (by intro x hx; cases hx)
    split
    · exact invW_quiet hI h rfl (by intro x hx; cases hx)
    · exact invW_quiet hI h rfl (by intro x hx; cases hx; exact ⟨rfl, fun _ => rfl⟩)
  | expire d k now' alloc out =>
    unfold step at hs
    dsimp only at hs
    cases hk : (s.rxm d)[k]? with
    | none => rw [hk] at hs; cases Outcome.ok.inj hs; exact h
    | some x =>
      rw [hk] at hs
      cases Outcome.ok.inj hs
      have hmem : x ∈ s.rxm d := List.mem_of_getElem? hk
      have hvd := h d
      have hv := h (!d)
      simp only [Bool.not_not] at hv
      have herase : ∀ (e' : Ep) (dn : Bool → Bool), e'.snd = (s.ep d).snd →
          InvW { s with now := now', ep := upd s.ep d e', rxm := upd s.rxm d ((s.rxm d).eraseIdx k), down := dn } := by
        intro e' dn e1
        refine both d ?_ ?_
        · simp only [upd_same, upd_not]
          exact hvd.frame (by rw [e1]) (fun _ hx => Or.inl hx) (fun _ hx => Or.inl hx)
        · simp only [Bool.not_not, upd_same, upd_not]
          exact hv.frame rfl (fun _ hx => Or.inl hx) (fun y hy => Or.inl (List.mem_of_mem_eraseIdx hy))
      unfold stepExpire
      rcases expire_inv (s.ep d) x.rxm now' with ⟨hb, he⟩ | ⟨e', e1, e2, e3, e4, he⟩ | ⟨e', e1, e2, e3, e4, ht, he⟩
      · rw [he]; exact herase _ _ rfl
      · rw [he]; exact herase _ _ e1
      · rw [he]
        dsimp only
        split
        · refine both d ?_ ?_
          · simp only [upd_same]
            exact hvd.frame (by rw [e1]) (fun _ hx => Or.inl hx) (fun _ hx => Or.inl hx)
          · simp only [Bool.not_not, upd_not]
            exact hv.frame rfl (fun _ hx => Or.inl hx) (fun y hy => Or.inl hy)
        split
        · exact herase _ _ e1
        · have hx' := hv.rxm x hmem
          refine both d ?_ ?_
          · simp only [upd_same, upd_not]
            exact hvd.frame (by rw [e1]) (fun _ hx => Or.inl hx) (fun _ hx => Or.inl hx)
          · simp only [Bool.not_not, upd_same, upd_not]
            refine hv.frame rfl ?_ ?_
            · intro q hq
              rcases List.mem_append.mp hq with h1 | h1
              · exact Or.inl h1
              · right
                rw [List.mem_singleton] at h1
                subst h1
                exact ⟨hx', fun hh => by
                  have := hv.rdvx x hmem
                  have hh : x.rxm.pkt.rdvs = true := hh
                  rw [this] at hh; cases hh⟩
            · intro y hy
              rcases List.mem_or_eq_of_mem_set hy with h1 | h1
              · exact Or.inl h1
              · right
                subst h1
                exact ⟨hx', hv.rdvx x hmem⟩
  | window d now' =>
    unfold step at hs
    dsimp only at hs
    cases Outcome.ok.inj hs
    obtain ⟨w1, w2, w3, w4, w5⟩ := isWindowOpen_frame (s.ep d) now'
    exact invW_quiet hI h (by rw [w1]) fun x hx => by
      rw [w5 x hx]
      exact ⟨rfl, fun hh => by cases hh⟩
  | close d now' =>
    unfold step at hs
    dsimp only at hs
    cases Outcome.ok.inj hs
    unfold dealloc
    dsimp only
    have := invW_quiet (d := d) (e := s.ep d) (now' := now')
      (p := if (s.ep d).rcv.lwe != (s.ep d).rcv.seqno then some (ctrl true false false (s.ep d).rcv.lwe 0) else none) hI h rfl ?_
    · rw [upd_self] at this
      exact this
    · intro x hx
      split at hx
      · cases hx; exact ⟨rfl, fun hh => by cases hh⟩
      · cases hx
  | flags d f rc l =>
    unfold step at hs
    dsimp only at hs
    cases Outcome.ok.inj hs
    have := invW_quiet (d := d) (e := setflags (s.ep d) f rc l) (p := none) (now' := s.now) hI h rfl (by intro x hx; cases hx)
    rw [emit_none] at this
    exact this

theorem invW_reach {a r mpl : Nat} {s : Sys} (h : ReachWindow a r mpl s) : Reach a r mpl s ∧ InvW s := by
  induction h with
  | init now => exact ⟨.init now, invW_init a r mpl now⟩
  | step _ hok hw hs ih => exact ⟨.step ih.1 hok hs, invW_step (inv_reach ih.1) ih.2 hok hw hs⟩

end Ouro.Frct
