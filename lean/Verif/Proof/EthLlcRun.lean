import Verif.Proof.EthLlcStep

namespace Ouro.EthLlc

open Ouro.FaMsg

variable {c : Cfg} {s : Host}

theorem reg_ainv (I : AInv c s) {x : List Byte} {s' : Host} (h : step c s (.reg x) = .ok s') : AInv c s' := by
  simp only [step] at h
  split at h
  · cases h; exact I
  cases h
  have hp : ∀ fd a sap, Peer (s.log ++ [.registered x]) fd a sap ↔ Peer s.log fd a sap := fun fd a sap => peer_dull (by simp [Dull])
  refine { tab := I.tab, dead := I.dead, aw := I.aw, bs := ?_, bound := ?_, adr := I.adr, cur := ?_, i8 := I.i8, qsrc := I.qsrc, regN := ?_, regI := ?_, dirI := ?_, wr := ?_, hist := I.hist.snoc trivial }
  · intro b hb
    obtain ⟨t1, t2, t3⟩ := I.bs b hb
    exact ⟨t1, (hp _ _ _).2 t2, t3⟩
  · intro fd; exact (I.bound fd).imp id (hp _ _ _).2
  · intro fd a sap h; exact (I.cur fd a sap ((hp _ _ _).1 h)).imp id (hp _ _ _).2
  · dsimp only
    split
    · exact I.regN
    · rename_i hn
      refine List.nodup_cons.2 ⟨by simpa using hn, I.regN⟩
  · intro h
    dsimp only
    rw [registered_reg, ← I.regI]
    split
    · rename_i hn
      have : x ∈ s.reg := by simpa using hn
      constructor
      · exact .inr
      · rintro (rfl | h)
        · exact this
        · exact h
    · rw [List.mem_cons, eq_comm]
  · intro e he
    exact ⟨List.mem_append_left _ (I.dirI e he).1, (I.dirI e he).2⟩
  · intro w y hw
    exact List.mem_append_left _ (I.wr w y hw)

theorem unreg_ainv (I : AInv c s) {x : List Byte} {s' : Host} (h : step c s (.unreg x) = .ok s') : AInv c s' := by
  simp only [step] at h
  cases h
  have hp : ∀ fd a sap, Peer (s.log ++ [.unregistered x]) fd a sap ↔ Peer s.log fd a sap := fun fd a sap => peer_dull (by simp [Dull])
  refine { tab := I.tab, dead := I.dead, aw := I.aw, bs := ?_, bound := ?_, adr := I.adr, cur := ?_, i8 := I.i8, qsrc := I.qsrc, regN := I.regN.erase _, regI := ?_, dirI := ?_, wr := ?_, hist := I.hist.snoc trivial }
  · intro b hb
    obtain ⟨t1, t2, t3⟩ := I.bs b hb
    exact ⟨t1, (hp _ _ _).2 t2, t3⟩
  · intro fd; exact (I.bound fd).imp id (hp _ _ _).2
  · intro fd a sap h; exact (I.cur fd a sap ((hp _ _ _).1 h)).imp id (hp _ _ _).2
  · intro h
    dsimp only
    rw [registered_unreg, ← I.regI, I.regN.mem_erase_iff, ne_eq, ne_eq, eq_comm]
  · intro e he
    exact ⟨List.mem_append_left _ (I.dirI e he).1, (I.dirI e he).2⟩
  · intro w y hw
    exact List.mem_append_left _ (I.wr w y hw)

theorem write_ainv (I : AInv c s) {w fd : Nat} {p : List Byte} {s' : Host} (h : step c s (.write w fd p) = .ok s') : AInv c s' := by
  simp only [step] at h
  split at h
  swap
  · cases h; exact I
  cases h
  refine { I.say (l := [.wrote fd p]) (by simp [Plain]) (I.hist.snoc trivial) with wr := ?_ }
  intro v x hv
  dsimp only at hv ⊢
  by_cases hw : v = w
  · subst hw
    rw [upd_same] at hv
    cases hv
    simp
  · rw [upd_ne hw] at hv
    exact List.mem_append_left _ (I.wr v x hv)

theorem send_ainv (hm : c.mac < 2 ^ 48) (I : AInv c s) {w : Nat} {ok : Bool} {s' : Host} (h : step c s (.send w ok) = .ok s') : AInv c s' := by
  simp only [step] at h
  split at h
  · cases h; exact I
  rename_i x hx
  have hwr : ∀ v y, upd s.wr w none v = some y → s.wr v = some y := by
    intro v y hv
    by_cases hw : v = w
    · subst hw; rw [upd_same] at hv; cases hv
    · rwa [upd_ne hw] at hv
  split at h
  · cases h
    refine { I.say (l := [.sent x.1 (frame (s.ef x.1).addr c.mac (reverseBits (BitVec.ofNat 8 (toU8 (s.ef x.1).rSap))) (reverseBits (BitVec.ofNat 8 (toU8 (s.ef x.1).sap))) x.2)])
      (by simp [Plain]) (I.hist.snoc ?_) with wr := ?_ }
    · refine ⟨x.2, I.wr w x hx, (s.ef x.1).addr, toU8 (s.ef x.1).rSap, toU8 (s.ef x.1).sap, frame_is (I.adr _) hm (toU8_lt _) (toU8_lt _) _, ?_⟩
      rcases I.bound x.1 with ⟨h1, h2⟩ | h1
      · exact .inr ⟨h2, by rw [h1]; rfl⟩
      · exact .inl h1
    · intro v y hv
      exact List.mem_append_left _ (I.wr v y (hwr v y hv))
  · cases h
    exact { I with wr := fun v y hv => I.wr v y (hwr v y hv) }

theorem step_ainv (hm : c.mac < 2 ^ 48) (I : AInv c s) {op : Op} {s' : Host} (hc : Calm s op) (h : step c s op = .ok s') : AInv c s' := by
  cases op with
  | reg x => exact reg_ainv I h
  | unreg x => exact unreg_ainv I h
  | alloc fd dst q data ok j => exact alloc_ainv I h
  | recv fr mem over => exact recv_ainv I h
  | mgmt fd ok j => exact mgmt_ainv I h
  | mgmtStore => exact store_ainv I h
  | resp fd r data ok j => exact resp_ainv I h
  | write w fd p => exact write_ainv I h
  | send w ok => exact send_ainv hm I h
  | dealloc fd => exact dealloc_ainv I hc h

theorem run_ainv (hm : c.mac < 2 ^ 48) : ∀ (ops : List Op) (s : Host), AInv c s → Along c Calm s ops → ∀ s', run c s ops = .ok s' → AInv c s' := by
  intro ops
  induction ops with
  | nil => intro s I _ s' h; cases h; exact I
  | cons op l ih =>
    intro s I hc s' h
    simp only [run] at h
    split at h
    · cases h
    · rename_i s1 hs1
      exact ih s1 (step_ainv hm I hc.1 hs1) (hc.2 s1 hs1) s' h

/-- What holds in an orderly world. -/
structure BInv (c : Cfg) (s : Host) : Prop where
  sapv : ∀ fd, (s.ef fd).sap = -1 ∨ ∃ sap : Nat, 2 ≤ sap ∧ sap < 64 ∧ (s.ef fd).sap = sap ∧ HasSap s.log fd sap ∧ s.efToFd sap = some fd ∧ s.used sap = true
  has : ∀ fd sap, HasSap s.log fd sap → (s.ef fd).sap = sap
  usd : ∀ sap, s.used sap = true → ∃ fd, (s.ef fd).sap = sap
  que : ∀ f ∈ s.queue, ∃ m, parse c.hashLen f.buf = .ok m ∧ ∀ ssap dsap r data, m = .reply ssap dsap r data → r = 0 ∧ dsap < 64

theorem init_binv (c : Cfg) : BInv c init := by
  refine ⟨fun _ => .inl rfl, ?_, ?_, ?_⟩
  · intro fd sap h; cases h
  · intro sap h; cases h
  · intro f h; cases h

theorem room_sap (B : BInv c s) (h : Room s.log) : ∃ sap, allocSap s.used = some sap ∧ 2 ≤ sap ∧ sap < 64 ∧ s.used sap = false := by
  obtain ⟨x, h1, h2, h3⟩ := h
  have hx : s.used x = false := by
    by_contra hu
    have hu : s.used x = true := by simpa using hu
    obtain ⟨fd, hfd⟩ := B.usd x hu
    rcases B.sapv fd with hn | ⟨y, -, -, hy, hy2, -⟩
    · rw [hn] at hfd; omega
    · have : y = x := by rw [hy] at hfd; exact_mod_cast hfd
      subst this
      exact h3 fd hy2
  have hmem : x ∈ List.range' 2 MAX_SAPS := by
    rw [List.mem_range'_1]; unfold MAX_SAPS; omega
  cases hf : allocSap s.used with
  | none =>
    unfold allocSap at hf
    rw [List.find?_eq_none] at hf
    have := hf x hmem
    rw [hx] at this
    simp at this
  | some sap =>
    refine ⟨sap, rfl, ?_⟩
    unfold allocSap at hf
    have hm := List.mem_of_find?_eq_some hf
    have hu := List.find?_some hf
    rw [List.mem_range'_1] at hm
    refine ⟨hm.1, ?_, by simpa using hu⟩
    by_contra hge
    obtain ⟨as, bs, e, hall⟩ := (List.find?_eq_some_iff_append.1 hf).2
    have hxa : x ∈ as := by
      have hs : (List.range' 2 MAX_SAPS).Pairwise (· < ·) := List.pairwise_lt_range'
      rw [e] at hmem hs
      rcases List.mem_append.1 hmem with hm' | hm'
      · exact hm'
      · rcases List.mem_cons.1 hm' with rfl | hm'
        · omega
        · have := (List.pairwise_cons.1 (List.pairwise_append.1 hs).2.1).1 x hm'
          omega
    have := hall x hxa
    rw [hx] at this
    simp at this

/-- Something is seen that neither gives nor takes a SAP. -/
theorem BInv.say (B : BInv c s) {l : List Event} (h : ∀ e ∈ l, (∀ fd sap, e ≠ .assigned fd sap) ∧ ∀ fd, e ≠ .closed fd) : BInv c { s with log := s.log ++ l } := by
  have hh : ∀ fd sap, HasSap (s.log ++ l) fd sap ↔ HasSap s.log fd sap := by
    intro fd sap
    rw [sap_mem (fun hm => (h _ hm).2 fd rfl)]
    constructor
    · rintro (hm | hm)
      · exact ((h _ hm).1 fd sap rfl).elim
      · exact hm
    · exact .inr
  refine ⟨?_, ?_, B.usd, B.que⟩
  · intro fd
    refine (B.sapv fd).imp id ?_
    rintro ⟨sap, h1, h2, h3, h4, h5⟩
    exact ⟨sap, h1, h2, h3, (hh _ _).2 h4, h5⟩
  · intro fd sap hp
    exact B.has fd sap ((hh _ _).1 hp)

theorem BInv.give (A : AInv c s) (B : BInv c s) {fd sap : Nat} (hn : (s.ef fd).sap = -1) (h1 : 2 ≤ sap) (h2 : sap < 64) (h3 : s.used sap = false) (e : Event) (he : ∀ g, e ≠ .closed g) (he' : ∀ g x, e ≠ .assigned g x) :
    BInv c { s with used := upd s.used sap true, ef := upd s.ef fd { s.ef fd with sap := sap }, efToFd := upd s.efToFd sap (some fd), log := s.log ++ [e, .assigned fd sap] } := by
  have hh : ∀ g x, HasSap (s.log ++ [e, .assigned fd sap]) g x ↔ (g = fd ∧ x = sap) ∨ HasSap s.log g x := by
    intro g x
    rw [sap_mem (by simpa using fun hc => he g hc.symm)]
    simp only [List.mem_cons, Event.assigned.injEq, List.not_mem_nil, or_false]
    constructor
    · rintro ((hc | hc) | hc)
      · exact (he' _ _ hc.symm).elim
      · exact .inl hc
      · exact .inr hc
    · rintro (hc | hc)
      · exact .inl (.inr hc)
      · exact .inr hc
  refine ⟨?_, ?_, ?_, B.que⟩
  · intro g
    by_cases hg : g = fd
    · subst hg
      simp only [upd_same]
      exact .inr ⟨sap, h1, h2, rfl, (hh _ _).2 (.inl ⟨rfl, rfl⟩), upd_same, upd_same⟩
    · simp only [upd_ne hg]
      refine (B.sapv g).imp id ?_
      rintro ⟨x, x1, x2, x3, x4, x5, x6⟩
      have hx : x ≠ sap := by rintro rfl; rw [h3] at x6; cases x6
      exact ⟨x, x1, x2, x3, (hh _ _).2 (.inr x4), by simp only [upd_ne hx]; exact x5, by simp only [upd_ne hx]; exact x6⟩
  · intro g x hp
    rcases (hh _ _).1 hp with ⟨rfl, rfl⟩ | hp
    · simp only [upd_same]
    · have := B.has g x hp
      have hg : g ≠ fd := by rintro rfl; rw [hn] at this; omega
      simp only [upd_ne hg]
      exact this
  · intro x hx
    by_cases hxs : x = sap
    · subst hxs
      exact ⟨fd, by simp only [upd_same]⟩
    · simp only [upd_ne hxs] at hx
      obtain ⟨g, hg⟩ := B.usd x hx
      have hgf : g ≠ fd := by rintro rfl; rw [hn] at hg; omega
      exact ⟨g, by simp only [upd_ne hgf]; exact hg⟩

theorem BInv.live (B : BInv c s) (f : Nat → Bool) : BInv c { s with live := f } := ⟨B.sapv, B.has, B.usd, B.que⟩

theorem alloc_binv (A : AInv c s) (B : BInv c s) {fd : Nat} {dst : List Byte} {q : Qos} {data : List Byte} {ok : Bool} {j : Junk} (hr : Room s.log) :
    ∃ s', alloc c s fd dst q data ok j = .ok s' ∧ BInv c s' := by
  unfold alloc
  split
  · exact ⟨_, rfl, B⟩
  rename_i hf
  push Not at hf
  have hdead : s.live fd = false := by
    have := hf.1
    simp only [ne_eq, Bool.not_eq_false, freeFd, Bool.and_eq_true, Bool.not_eq_true'] at this
    exact this.2
  have hef := A.dead fd hdead
  have hn : (s.ef fd).sap = -1 := by rw [hef]; rfl
  obtain ⟨sap, h1, h2, h3, h4⟩ := room_sap B hr
  dsimp only
  split
  · exact ⟨_, rfl, B.live _⟩
  rename_i e he
  rw [h1]
  dsimp only
  rw [if_neg (by unfold MAX_SAPS; omega)]
  split
  · refine ⟨_, rfl, ?_⟩
    have := (A.live fd)
    exact { BInv.give A B hn h2 h3 h4 (.requested fd e.2 dst q data) (by simp) (by simp) with }
  · refine ⟨_, rfl, ?_⟩
    have e1 : upd s.ef fd { s.ef fd with sap := -1 } = s.ef := by
      funext x
      by_cases hx : x = fd
      · subst hx; simp only [upd_same, hef]; rfl
      · exact upd_ne hx
    have e2 : releaseSap (upd s.used sap true) (sap : Int) = s.used := by
      unfold releaseSap
      rw [if_pos (by omega)]
      funext x
      by_cases hx : x = sap
      · subst hx; simp only [Int.toNat_natCast, upd_same, h4]
      · simp only [Int.toNat_natCast, upd_ne hx]
    rw [e1, e2]
    refine ⟨?_, B.has, B.usd, B.que⟩
    intro g
    refine (B.sapv g).imp id ?_
    rintro ⟨x, x1, x2, x3, x4, x5, x6⟩
    have hx : x ≠ sap := by rintro rfl; rw [h4] at x6; cases x6
    exact ⟨x, x1, x2, x3, x4, by simp only [upd_ne hx]; exact x5, x6⟩

theorem length_reply (a b : Nat) (r : Int) (data : List Byte) (j : Junk) : (reply a b r data j).length = 36 + data.length := by
  simp [reply]; omega

theorem resp_binv (A : AInv c s) (B : BInv c s) {fd : Nat} {r : Int} {data : List Byte} {ok : Bool} {j : Junk} (h0 : r = 0) (hr : Room s.log) (hl : 36 + data.length + 3 ≤ c.mtu) (hok : ok = true) :
    ∃ s', resp c s fd r data ok j = .ok s' ∧ BInv c s' := by
  unfold resp
  rw [if_neg (by simpa using h0)]
  split
  · exact ⟨_, rfl, B⟩
  rename_i haw
  push Not at haw
  obtain ⟨sap, h1, h2, h3, h4⟩ := room_sap B hr
  dsimp only
  rw [h1]
  dsimp only
  rw [if_neg (by unfold MAX_SAPS; omega), if_pos (by rw [length_reply]; unfold sends; simp [hok]; omega)]
  refine ⟨_, rfl, ?_⟩
  exact { BInv.give A B (A.aw fd haw).2 h2 h3 h4 (.responded fd data) (by simp) (by simp) with }

theorem recv_frame {dst src : Nat} (hs : src < 2 ^ 48) (d e : Byte) {p : List Byte} (hp : p.length ≤ 1497) (pad mem : List Byte) :
    recv s (frame dst src d e p ++ pad) mem none =
      if (reverseBits e).toNat = 1 ∧ (reverseBits d).toNat = 1 then .ok { s with queue := ⟨src, p⟩ :: s.queue }
      else if 64 ≤ (reverseBits d).toNat then .ub
      else match s.efToFd (reverseBits d).toNat with
        | none => .ok s
        | some fd =>
          if (s.ef fd).rSap ≠ (reverseBits e).toNat ∨ (s.ef fd).addr ≠ src then .ok s
          else if s.live fd then .ok { s with log := s.log ++ [.delivered fd src (reverseBits e).toNat p] } else .ok s := by
  obtain ⟨f1, f2, f3, f4, f5⟩ := frame_parts dst src d e p (pad ++ mem)
  unfold recv
  dsimp only
  rw [List.append_assoc, f1]
  simp only [Outcome.bind_ok]
  rw [beVal_beBytes (n := 2) (by omega), if_neg (by omega), f2, f3]
  simp only [Outcome.bind_ok, Option.getD_none]
  have : (3 + p.length + 65533) % 65536 = p.length := by omega
  rw [this, f4]
  have hb : ¬ MGMT_FRAME_SIZE < p.length := by unfold MGMT_FRAME_SIZE; omega
  simp only [HDR_LEN, f5, Outcome.bind_ok, if_neg hb]
  rw [leVal_leBytes (by simpa using hs)]
  rfl

theorem recv_binv (B : BInv c s) {fr mem : List Byte} (h : Honest c fr) : ∃ s', recv s fr mem none = .ok s' ∧ BInv c s' := by
  obtain ⟨dst, src, d, e, p, h1, h2, h3, ⟨pad, rfl⟩, h4, h5⟩ := h
  rw [recv_frame h2 d e (by omega)]
  split
  · rename_i hm
    refine ⟨_, rfl, B.sapv, B.has, B.usd, ?_⟩
    intro f hf
    rcases List.mem_cons.1 hf with rfl | hf
    · exact h5 hm.2 hm.1
    · exact B.que f hf
  rw [if_neg (by omega)]
  split
  · exact ⟨_, rfl, B⟩
  split
  · exact ⟨_, rfl, B⟩
  split
  · exact ⟨_, rfl, B.say (by simp)⟩
  · exact ⟨_, rfl, B⟩

theorem mgmt_binv (B : BInv c s) {fd : Option Nat} {ok : Bool} {j : Junk} : ∃ s', mgmt c s fd ok j = .ok s' ∧ BInv c s' := by
  unfold mgmt
  split
  swap
  · exact ⟨_, rfl, B⟩
  rename_i fr rest hb hq
  have Bq : BInv c { s with queue := rest } := ⟨B.sapv, B.has, B.usd, fun f hf => B.que f (hq ▸ List.mem_cons_of_mem _ hf)⟩
  obtain ⟨m, hm, hrep⟩ := B.que fr (hq ▸ List.mem_cons_self)
  dsimp only
  rw [hm]
  cases m with
  | unknown => exact ⟨_, rfl, Bq⟩
  | reply ssap dsap r data =>
    obtain ⟨rfl, hd⟩ := hrep _ _ _ _ rfl
    dsimp only [allocReply]
    rw [if_neg (by unfold MAX_SAPS; omega)]
    split
    · exact ⟨_, rfl, Bq⟩
    rename_i g hg
    have B1 : BInv c { s with queue := rest, ef := upd s.ef g { s.ef g with rSap := toI8 ssap, addr := fr.src } } := by
      refine ⟨?_, ?_, ?_, Bq.que⟩
      · intro x
        by_cases hx : x = g
        · subst hx; simp only [upd_same]; exact B.sapv x
        · simp only [upd_ne hx]; exact B.sapv x
      · intro x sap hs
        by_cases hx : x = g
        · subst hx; simp only [upd_same]; exact B.has x sap hs
        · simp only [upd_ne hx]; exact B.has x sap hs
      · intro sap hs
        obtain ⟨x, hx⟩ := B.usd sap hs
        refine ⟨x, ?_⟩
        by_cases hxg : x = g
        · subst hxg; simp only [upd_same]; exact hx
        · simp only [upd_ne hxg]; exact hx
    simp only [ne_eq, not_true_eq_false, if_false, if_true]
    split
    · exact ⟨_, rfl, { B1.say (l := [.replied g fr.src ssap 0 data]) (by simp) with }⟩
    · exact ⟨_, rfl, B1⟩
  | request ssap q dst data =>
    dsimp only
    split
    · exact ⟨_, rfl, Bq⟩
    split
    · exact ⟨_, rfl, B⟩
    split
    · exact ⟨_, rfl, Bq⟩
    split
    · rename_i g _
      exact ⟨_, rfl, { Bq.say (l := [.offered g fr.src ssap dst q data]) (by simp) with }⟩
    · exact ⟨_, rfl, Bq⟩
  | query hash =>
    dsimp only
    split
    · exact ⟨_, rfl, { Bq.say (l := [.answered fr.src hash]) (by simp) with }⟩
    · exact ⟨_, rfl, Bq⟩
  | answer hash => exact ⟨_, rfl, { Bq.say (l := [.announced hash fr.src]) (by simp) with }⟩

theorem store_binv (B : BInv c s) : ∃ s', step c s .mgmtStore = .ok s' ∧ BInv c s' := by
  simp only [step]
  split
  · exact ⟨_, rfl, B⟩
  rename_i b hb
  refine ⟨_, rfl, ?_, ?_, ?_, B.que⟩
  · intro x
    by_cases hx : x = b.fd
    · subst hx; simp only [upd_same]; exact B.sapv _
    · simp only [upd_ne hx]; exact B.sapv x
  · intro x sap hs
    by_cases hx : x = b.fd
    · subst hx; simp only [upd_same]; exact B.has _ sap hs
    · simp only [upd_ne hx]; exact B.has x sap hs
  · intro sap hs
    obtain ⟨x, hx⟩ := B.usd sap hs
    refine ⟨x, ?_⟩
    by_cases hxg : x = b.fd
    · subst hxg; simp only [upd_same]; exact hx
    · simp only [upd_ne hxg]; exact hx

theorem dealloc_binv (B : BInv c s) {fd : Nat} (h : s.live fd = true → ∃ sap, HasSap s.log fd sap) : ∃ s', step c s (.dealloc fd) = .ok s' ∧ BInv c s' := by
  simp only [step]
  split
  swap
  · exact ⟨_, rfl, B⟩
  rename_i hl
  obtain ⟨sap, hs⟩ := h hl
  have e1 := B.has fd sap hs
  rcases B.sapv fd with hn | ⟨x, x1, x2, x3, x4, x5, x6⟩
  · rw [hn] at e1; omega
  have : x = sap := by rw [x3] at e1; exact_mod_cast e1
  subst this
  rw [x3, toU8_nat (by omega), if_neg (by unfold MAX_SAPS; omega)]
  refine ⟨_, rfl, ?_, ?_, ?_, B.que⟩
  · intro g
    by_cases hg : g = fd
    · subst hg; simp only [upd_same]; exact .inl rfl
    · simp only [upd_ne hg]
      refine (B.sapv g).imp id ?_
      rintro ⟨y, y1, y2, y3, y4, y5, y6⟩
      have hy : y ≠ x := by rintro rfl; rw [x5] at y5; cases y5; exact hg rfl
      refine ⟨y, y1, y2, y3, (sap_mem (by simpa using hg)).2 (.inr y4), by simp only [upd_ne hy]; exact y5, ?_⟩
      unfold releaseSap
      rw [if_pos (by omega), Int.toNat_natCast, upd_ne hy]
      exact y6
  · intro g y hp
    by_cases hg : g = fd
    · subst hg; exact (sap_closed hp).elim
    · simp only [upd_ne hg]
      rcases (sap_mem (by simpa using hg)).1 hp with hp | hp
      · simp at hp
      · exact B.has g y hp
  · intro y hy
    unfold releaseSap at hy
    rw [if_pos (by omega), Int.toNat_natCast] at hy
    by_cases hyx : y = x
    · subst hyx; simp only [upd_same] at hy; cases hy
    · simp only [upd_ne hyx] at hy
      obtain ⟨g, hg⟩ := B.usd y hy
      have hgf : g ≠ fd := by
        rintro rfl
        rw [x3] at hg
        exact hyx (by exact_mod_cast hg.symm)
      exact ⟨g, by simp only [upd_ne hgf]; exact hg⟩

theorem step_binv (A : AInv c s) (B : BInv c s) {op : Op} (hf : Fair c s op) : ∃ s', step c s op = .ok s' ∧ BInv c s' := by
  cases op with
  | reg x =>
    simp only [step]
    split
    · exact ⟨_, rfl, B⟩
    · exact ⟨_, rfl, { B.say (l := [.registered x]) (by simp) with }⟩
  | unreg x => exact ⟨_, rfl, { B.say (l := [.unregistered x]) (by simp) with }⟩
  | alloc fd dst q data ok j => exact alloc_binv A B hf
  | recv fr mem over =>
    obtain ⟨h1, rfl⟩ := hf
    exact recv_binv B h1
  | mgmt fd ok j => exact mgmt_binv B
  | mgmtStore => exact store_binv B
  | resp fd r data ok j => exact resp_binv A B hf.1 hf.2.1 hf.2.2.1 hf.2.2.2
  | write w fd p =>
    simp only [step]
    split
    · exact ⟨_, rfl, { B.say (l := [.wrote fd p]) (by simp) with }⟩
    · exact ⟨_, rfl, B⟩
  | send w ok =>
    simp only [step]
    split
    · exact ⟨_, rfl, B⟩
    split
    · rename_i x hx _
      exact ⟨_, rfl, { B.say (l := [.sent x.1 (frame (s.ef x.1).addr c.mac (reverseBits (BitVec.ofNat 8 (toU8 (s.ef x.1).rSap))) (reverseBits (BitVec.ofNat 8 (toU8 (s.ef x.1).sap))) x.2)]) (by simp) with }⟩
    · exact ⟨_, rfl, { B with }⟩
  | dealloc fd => exact dealloc_binv B hf

theorem run_binv (hm : c.mac < 2 ^ 48) : ∀ (ops : List Op) (s : Host), AInv c s → BInv c s → Along c Calm s ops → Along c (Fair c) s ops →
    ∃ s', run c s ops = .ok s' ∧ AInv c s' ∧ BInv c s' := by
  intro ops
  induction ops with
  | nil => intro s A B _ _; exact ⟨s, rfl, A, B⟩
  | cons op l ih =>
    intro s A B hc hf
    obtain ⟨s1, hs1, B1⟩ := step_binv A B hf.1
    have A1 := step_ainv hm A hc.1 hs1
    obtain ⟨s', h', r⟩ := ih s1 A1 B1 (hc.2 s1 hs1) (hf.2 s1 hs1)
    exact ⟨s', by simp only [run, hs1]; exact h', r⟩

end Ouro.EthLlc
