import Verif.Proof.EthLlc

namespace Ouro.EthLlc

open Ouro.FaMsg

/-- What holds whatever frames come in. -/
structure AInv (c : Cfg) (s : Host) : Prop where
  tab : ∀ sap fd, s.efToFd sap = some fd → s.live fd = true ∧ (s.ef fd).sap = sap
  dead : ∀ fd, s.live fd = false → s.ef fd = .init
  aw : ∀ fd, s.await = some fd → s.live fd = true ∧ (s.ef fd).sap = -1
  bs : ∀ b, s.busy = some b → s.live b.fd = true ∧ Peer s.log b.fd b.src b.ssap ∧ b.ssap < 256 ∧ b.src < 2 ^ 48
  bound : ∀ fd, ((s.ef fd).rSap = -1 ∧ (s.ef fd).addr = 0) ∨ Peer s.log fd (s.ef fd).addr (toU8 (s.ef fd).rSap)
  adr : ∀ fd, (s.ef fd).addr < 2 ^ 48
  cur : ∀ fd a sap, Peer s.log fd a sap → (∃ b, s.busy = some b ∧ b.fd = fd) ∨ Peer s.log fd (s.ef fd).addr (toU8 (s.ef fd).rSap)
  i8 : ∀ fd, -1 ≤ (s.ef fd).sap ∧ (s.ef fd).sap < 64
  qsrc : ∀ f ∈ s.queue, f.src < 2 ^ 48
  regN : s.reg.Nodup
  regI : ∀ h, h ∈ s.reg ↔ Registered s.log h
  dirI : ∀ e ∈ s.dir, .announced e.1 e.2 ∈ s.log ∧ e.2 < 2 ^ 48
  wr : ∀ w x, s.wr w = some x → .wrote x.1 x.2 ∈ s.log
  hist : Hist c s.log

theorem init_ainv (c : Cfg) : AInv c init := by
  refine ⟨?_, ?_, ?_, ?_, ?_, ?_, ?_, ?_, ?_, ?_, ?_, ?_, ?_, ?_⟩
  · intro sap fd h; cases h
  · intro fd _; rfl
  · intro fd h; cases h
  · intro b h; cases h
  · intro fd; exact .inl ⟨rfl, rfl⟩
  · intro fd; change 0 < 2 ^ 48; decide
  · intro fd a sap h
    rcases h with ⟨_, _, _, h⟩ | ⟨_, h⟩ <;> cases h
  · intro fd; change -1 ≤ (-1 : Int) ∧ (-1 : Int) < 64; decide
  · intro f h; cases h
  · exact List.nodup_nil
  · intro h
    constructor
    · intro h; cases h
    · intro h; cases h
  · intro e h; cases h
  · intro w x h; cases h
  · intro l1 e l2 h
    have := congrArg List.length h
    simp [init] at this

/-- Events that name neither peers nor names nor ends of flows. -/
def Plain : Event → Prop
  | .requested .. | .assigned .. | .responded .. | .wrote .. | .sent .. | .delivered .. | .answered .. | .announced .. => True
  | .replied _ _ _ r _ => r ≠ 0
  | _ => False

theorem Plain.dull {e : Event} (h : Plain e) : Dull e := by
  cases e <;> first | trivial | exact h

variable {c : Cfg} {s : Host}

theorem plain_peer {l : List Event} (h : ∀ e ∈ l, Plain e) (fd a sap : Nat) : Peer (s.log ++ l) fd a sap ↔ Peer s.log fd a sap :=
  peer_dull fun e he => (h e he).dull

theorem plain_reg {l : List Event} (h : ∀ e ∈ l, Plain e) (x : List Byte) : Registered (s.log ++ l) x ↔ Registered s.log x :=
  registered_append (fun hm => h _ hm) (fun hm => h _ hm)

/-- Something plain is seen. -/
theorem AInv.say (I : AInv c s) {l : List Event} (h : ∀ e ∈ l, Plain e) (hh : Hist c (s.log ++ l)) : AInv c { s with log := s.log ++ l } where
  tab := I.tab
  dead := I.dead
  aw := I.aw
  bs b hb := by
    obtain ⟨h1, h2, h3⟩ := I.bs b hb
    exact ⟨h1, (plain_peer h _ _ _).2 h2, h3⟩
  bound fd := (I.bound fd).imp id (plain_peer h _ _ _).2
  adr := I.adr
  cur fd a sap hp := (I.cur fd a sap ((plain_peer h _ _ _).1 hp)).imp id (plain_peer h _ _ _).2
  i8 := I.i8
  qsrc := I.qsrc
  regN := I.regN
  regI x := (I.regI x).trans (plain_reg h x).symm
  dirI e he := ⟨List.mem_append_left _ (I.dirI e he).1, (I.dirI e he).2⟩
  wr w x hw := List.mem_append_left _ (I.wr w x hw)
  hist := hh

theorem leVal48 {l : List Byte} (h : l.length = 6) : leVal l < 2 ^ 48 := by
  have := leVal_lt l
  rw [h] at this
  simpa using this

theorem recv_ainv (I : AInv c s) {fr mem : List Byte} {over : Option (List Byte)} {s' : Host} (h : recv s fr mem over = .ok s') : AInv c s' := by
  unfold recv at h
  obtain ⟨len, -, h⟩ := bind_eq h
  split at h
  · cases h; exact I
  obtain ⟨d, -, h⟩ := bind_eq h
  obtain ⟨e, -, h⟩ := bind_eq h
  dsimp only at h
  split at h
  · obtain ⟨pl, -, h⟩ := bind_eq h
    obtain ⟨src, hs, h⟩ := bind_eq h
    split at h
    · cases h
    · cases h
      have := leVal48 (slice_length hs)
      refine { I with qsrc := ?_ }
      intro f hf
      rcases List.mem_cons.1 hf with rfl | hf
      · exact this
      · exact I.qsrc f hf
  split at h
  · cases h
  split at h
  · cases h; exact I
  · rename_i fd hfd
    obtain ⟨src, hs, h⟩ := bind_eq h
    split at h
    · cases h; exact I
    · rename_i hm
      push Not at hm
      obtain ⟨pl, -, h⟩ := bind_eq h
      split at h
      · cases h
        refine I.say (by simp [Plain]) (I.hist.snoc ?_)
        have hb := (reverseBits e).isLt
        rcases I.bound fd with ⟨h1, -⟩ | h1
        · rw [h1] at hm
          omega
        · rw [hm.1, hm.2, toU8_nat (by omega)] at h1
          exact h1
      · cases h; exact I

theorem parse_bytes {L : Nat} {b : List Byte} {m : Msg} (h : parse L b = .ok m) :
    (∀ ssap q dst data, m = .request ssap q dst data → ssap < 256) ∧ ∀ ssap dsap r data, m = .reply ssap dsap r data → ssap < 256 ∧ dsap < 256 := by
  unfold parse at h
  obtain ⟨code, -, h⟩ := bind_eq h
  split at h
  · split at h
    · cases h
    obtain ⟨x, -, h⟩ := bind_eq h
    obtain ⟨_, -, h⟩ := bind_eq h
    obtain ⟨_, -, h⟩ := bind_eq h
    obtain ⟨_, -, h⟩ := bind_eq h
    obtain ⟨_, -, h⟩ := bind_eq h
    obtain ⟨_, -, h⟩ := bind_eq h
    obtain ⟨_, -, h⟩ := bind_eq h
    obtain ⟨_, -, h⟩ := bind_eq h
    obtain ⟨_, -, h⟩ := bind_eq h
    obtain ⟨_, -, h⟩ := bind_eq h
    obtain ⟨_, -, h⟩ := bind_eq h
    cases h
    exact ⟨fun _ _ _ _ he => (by cases he; exact x.isLt), fun _ _ _ _ he => by cases he⟩
  split at h
  · split at h
    · cases h
    obtain ⟨x, -, h⟩ := bind_eq h
    obtain ⟨y, -, h⟩ := bind_eq h
    obtain ⟨_, -, h⟩ := bind_eq h
    cases h
    exact ⟨fun _ _ _ _ he => (by cases he), fun _ _ _ _ he => by cases he; exact ⟨x.isLt, y.isLt⟩⟩
  split at h
  · obtain ⟨_, -, h⟩ := bind_eq h
    cases h
    exact ⟨fun _ _ _ _ he => (by cases he), fun _ _ _ _ he => by cases he⟩
  split at h
  · obtain ⟨_, -, h⟩ := bind_eq h
    cases h
    exact ⟨fun _ _ _ _ he => (by cases he), fun _ _ _ _ he => by cases he⟩
  · cases h
    exact ⟨fun _ _ _ _ he => (by cases he), fun _ _ _ _ he => by cases he⟩

/-- A peer is stored. -/
theorem reply_ainv (I : AInv c s) {src ssap dsap : Nat} {r : Int} {data : List Byte} {s' : Host} (h1 : ssap < 256) (h2 : src < 2 ^ 48) (h : allocReply s src ssap dsap r data = .ok s') : AInv c s' := by
  unfold allocReply at h
  split at h
  · cases h
  split at h
  · cases h; exact I
  rename_i fd hfd
  obtain ⟨hlive, hsap⟩ := I.tab _ _ hfd
  dsimp only at h
  rw [if_pos hlive] at h
  cases h
  by_cases hr : r = 0
  · subst hr
    simp only [ne_eq, not_true_eq_false, if_false, if_true]
    refine { tab := ?_, dead := ?_, aw := ?_, bs := ?_, bound := ?_, adr := ?_, cur := ?_, i8 := ?_, qsrc := I.qsrc, regN := I.regN, regI := ?_, dirI := ?_, wr := ?_, hist := ?_ }
    · intro sap g hg
      obtain ⟨t1, t2⟩ := I.tab sap g hg
      refine ⟨t1, ?_⟩
      by_cases hgf : g = fd
      · subst hgf; simp only [upd_same]; exact t2
      · simp only [upd_ne hgf]; exact t2
    · intro g hg
      have : g ≠ fd := by rintro rfl; simp only [hlive] at hg; cases hg
      simp only [upd_ne this]
      exact I.dead g hg
    · intro g hg
      obtain ⟨t1, t2⟩ := I.aw g hg
      refine ⟨t1, ?_⟩
      by_cases hgf : g = fd
      · subst hgf; simp only [upd_same]; exact t2
      · simp only [upd_ne hgf]; exact t2
    · intro b hb
      obtain ⟨t1, t2, t3⟩ := I.bs b hb
      exact ⟨t1, peer_replied.2 (.inr t2), t3⟩
    · intro g
      by_cases hgf : g = fd
      · subst hgf; simp only [upd_same]
        exact .inr (peer_replied.2 (.inl ⟨rfl, rfl, (toU8_toI8 h1).symm⟩))
      · simp only [upd_ne hgf]
        exact (I.bound g).imp id fun t => peer_replied.2 (.inr t)
    · intro g
      by_cases hgf : g = fd
      · subst hgf; simp only [upd_same]; exact h2
      · simp only [upd_ne hgf]; exact I.adr g
    · intro g a sap hp
      by_cases hgf : g = fd
      · subst hgf; simp only [upd_same]
        exact .inr (peer_replied.2 (.inl ⟨rfl, rfl, (toU8_toI8 h1).symm⟩))
      · simp only [upd_ne hgf]
        rcases peer_replied.1 hp with ⟨t, -⟩ | hp
        · exact (hgf t.symm).elim
        · exact (I.cur g a sap hp).imp id fun t => peer_replied.2 (.inr t)
    · intro g
      by_cases hgf : g = fd
      · subst hgf; simp only [upd_same]; exact I.i8 g
      · simp only [upd_ne hgf]; exact I.i8 g
    · intro x
      exact (I.regI x).trans (registered_append (by simp) (by simp)).symm
    · intro e he
      exact ⟨List.mem_append_left _ (I.dirI e he).1, (I.dirI e he).2⟩
    · intro w x hw
      exact List.mem_append_left _ (I.wr w x hw)
    · exact I.hist.snoc trivial
  · simp only [ne_eq, hr, not_false_eq_true, if_true, if_false]
    exact { I.say (l := [.replied fd src ssap r data]) (by simp [Plain, hr]) (I.hist.snoc trivial) with }

theorem mgmt_ainv (I : AInv c s) {fd : Option Nat} {ok : Bool} {j : Junk} {s' : Host} (h : mgmt c s fd ok j = .ok s') : AInv c s' := by
  unfold mgmt at h
  split at h
  · rename_i fr rest hb hq
    have Iq : AInv c { s with queue := rest } := { I with qsrc := fun f hf => I.qsrc f (hq ▸ List.mem_cons_of_mem _ hf) }
    have hsrc : fr.src < 2 ^ 48 := I.qsrc fr (hq ▸ List.mem_cons_self)
    dsimp only at h
    split at h
    · cases h
    · cases h; exact Iq
    · rename_i ssap dsap r data hp
      obtain ⟨-, hp⟩ := parse_bytes hp
      exact reply_ainv Iq (hp _ _ _ _ rfl).1 hsrc h
    · rename_i ssap q dst data hp
      obtain ⟨hp, -⟩ := parse_bytes hp
      have h256 := hp _ _ _ _ rfl
      split at h
      · cases h; exact Iq
      rename_i hreg
      split at h
      · cases h; exact I
      split at h
      · cases h; exact Iq
      rename_i g
      split at h
      swap
      · cases h; exact Iq
      rename_i hfree
      cases h
      have hdead : s.live g = false := by
        simp only [freeFd, Bool.and_eq_true, Bool.not_eq_true'] at hfree
        exact hfree.2
      have hef := I.dead g hdead
      have hr : Registered s.log dst := by
        rw [← I.regI]
        simpa using hreg
      refine { tab := ?_, dead := ?_, aw := ?_, bs := ?_, bound := ?_, adr := I.adr, cur := ?_, i8 := I.i8, qsrc := Iq.qsrc, regN := I.regN, regI := ?_, dirI := ?_, wr := ?_, hist := ?_ }
      · intro sap x hx
        obtain ⟨t1, t2⟩ := I.tab sap x hx
        refine ⟨?_, t2⟩
        by_cases hxg : x = g
        · subst hxg; exact upd_same
        · simp only [upd_ne hxg]; exact t1
      · intro x hx
        have : x ≠ g := by rintro rfl; simp only [upd_same] at hx; cases hx
        simp only [upd_ne this] at hx
        exact I.dead x hx
      · intro x hx
        cases hx
        exact ⟨upd_same, by simp only [hef]; rfl⟩
      · intro b hb
        cases hb
        exact ⟨upd_same, peer_offered.2 (.inl ⟨rfl, rfl, rfl⟩), h256, hsrc⟩
      · intro x
        exact (I.bound x).imp id fun t => peer_offered.2 (.inr t)
      · intro x a sap hp
        rcases peer_offered.1 hp with ⟨t, -⟩ | hp
        · exact .inl ⟨_, rfl, t⟩
        · rcases I.cur x a sap hp with ⟨b, hb', -⟩ | t
          · rw [hb] at hb'; cases hb'
          · exact .inr (peer_offered.2 (.inr t))
      · intro x
        exact (I.regI x).trans (registered_append (by simp) (by simp)).symm
      · intro e he
        exact ⟨List.mem_append_left _ (I.dirI e he).1, (I.dirI e he).2⟩
      · intro w x hw
        exact List.mem_append_left _ (I.wr w x hw)
      · exact I.hist.snoc hr
    · rename_i hash hp
      split at h
      swap
      · cases h; exact Iq
      rename_i hc
      cases h
      have hr : Registered s.log hash := by
        rw [← I.regI]
        simp only [Bool.and_eq_true] at hc
        simpa using hc.1
      exact { Iq.say (l := [.answered fr.src hash]) (by simp [Plain]) (I.hist.snoc hr) with }
    · rename_i hash hp
      cases h
      refine { Iq.say (l := [.announced hash fr.src]) (by simp [Plain]) (I.hist.snoc trivial) with dirI := ?_ }
      have hold : ∀ e ∈ s.dir, .announced e.1 e.2 ∈ s.log ++ [.announced hash fr.src] ∧ e.2 < 2 ^ 48 :=
        fun e he => ⟨List.mem_append_left _ (I.dirI e he).1, (I.dirI e he).2⟩
      dsimp only
      intro e he
      split at he
      · exact hold e he
      · rcases List.mem_cons.1 he with rfl | he
        · exact ⟨by simp, hsrc⟩
        · exact hold e he
  · cases h; exact I

theorem store_ainv (I : AInv c s) {s' : Host} (h : step c s .mgmtStore = .ok s') : AInv c s' := by
  simp only [step] at h
  split at h
  · cases h; exact I
  rename_i b hb
  cases h
  obtain ⟨b1, b2, b3, b4⟩ := I.bs b hb
  refine { tab := ?_, dead := ?_, aw := ?_, bs := ?_, bound := ?_, adr := ?_, cur := ?_, i8 := ?_, qsrc := I.qsrc, regN := I.regN, regI := I.regI, dirI := I.dirI, wr := I.wr, hist := I.hist }
  · intro sap g hg
    obtain ⟨t1, t2⟩ := I.tab sap g hg
    refine ⟨t1, ?_⟩
    by_cases hgf : g = b.fd
    · subst hgf; simp only [upd_same]; exact t2
    · simp only [upd_ne hgf]; exact t2
  · intro g hg
    have : g ≠ b.fd := by rintro rfl; simp only [b1] at hg; cases hg
    simp only [upd_ne this]
    exact I.dead g hg
  · intro g hg
    obtain ⟨t1, t2⟩ := I.aw g hg
    refine ⟨t1, ?_⟩
    by_cases hgf : g = b.fd
    · subst hgf; simp only [upd_same]; exact t2
    · simp only [upd_ne hgf]; exact t2
  · intro x hx; cases hx
  · intro g
    by_cases hgf : g = b.fd
    · subst hgf; simp only [upd_same, toU8_toI8 b3]; exact .inr b2
    · simp only [upd_ne hgf]; exact I.bound g
  · intro g
    by_cases hgf : g = b.fd
    · subst hgf; simp only [upd_same]; exact b4
    · simp only [upd_ne hgf]; exact I.adr g
  · intro g a sap hp
    right
    by_cases hgf : g = b.fd
    · subst hgf; simp only [upd_same, toU8_toI8 b3]; exact b2
    · simp only [upd_ne hgf]
      rcases I.cur g a sap hp with ⟨b', hb', hg⟩ | t
      · rw [hb] at hb'; cases hb'; exact (hgf hg.symm).elim
      · exact t
  · intro g
    by_cases hgf : g = b.fd
    · subst hgf; simp only [upd_same]; exact I.i8 _
    · simp only [upd_ne hgf]; exact I.i8 g

/-- A flow gets or loses its SAP; the tables stay in step. -/
theorem AInv.sap (I : AInv c s) {fd : Nat} (hl : s.live fd = true) (sap : Nat) (h64 : sap < 64) (hn : (s.ef fd).sap = -1) (ha : s.await ≠ some fd) (u : Nat → Bool) :
    AInv c { s with used := u, ef := upd s.ef fd { s.ef fd with sap := sap }, efToFd := upd s.efToFd sap (some fd) } where
  tab x g hg := by
    by_cases hx : x = sap
    · subst hx
      simp only [upd_same] at hg
      cases hg
      exact ⟨hl, by simp only [upd_same]⟩
    · simp only [upd_ne hx] at hg
      obtain ⟨t1, t2⟩ := I.tab x g hg
      have hgf : g ≠ fd := by
        rintro rfl
        rw [hn] at t2
        omega
      exact ⟨t1, by simp only [upd_ne hgf]; exact t2⟩
  dead g hg := by
    have : g ≠ fd := by rintro rfl; simp only [hl] at hg; cases hg
    simp only [upd_ne this]
    exact I.dead g hg
  aw g hg := by
    have : g ≠ fd := by rintro rfl; exact ha hg
    simp only [upd_ne this]
    exact I.aw g hg
  bs := I.bs
  bound g := by
    by_cases hgf : g = fd
    · subst hgf; simp only [upd_same]; exact I.bound g
    · simp only [upd_ne hgf]; exact I.bound g
  adr g := by
    by_cases hgf : g = fd
    · subst hgf; simp only [upd_same]; exact I.adr g
    · simp only [upd_ne hgf]; exact I.adr g
  cur g a x hp := by
    by_cases hgf : g = fd
    · subst hgf; simp only [upd_same]; exact I.cur g a x hp
    · simp only [upd_ne hgf]; exact I.cur g a x hp
  i8 g := by
    by_cases hgf : g = fd
    · subst hgf; simp only [upd_same]; omega
    · simp only [upd_ne hgf]; exact I.i8 g
  qsrc := I.qsrc
  regN := I.regN
  regI := I.regI
  dirI := I.dirI
  wr := I.wr
  hist := I.hist

/-- A descriptor comes into use. -/
theorem AInv.live (I : AInv c s) (fd : Nat) : AInv c { s with live := upd s.live fd true } where
  tab x g hg := by
    obtain ⟨t1, t2⟩ := I.tab x g hg
    refine ⟨?_, t2⟩
    by_cases hgf : g = fd
    · subst hgf; exact upd_same
    · simp only [upd_ne hgf]; exact t1
  dead g hg := by
    have : g ≠ fd := by rintro rfl; simp only [upd_same] at hg; cases hg
    simp only [upd_ne this] at hg
    exact I.dead g hg
  aw g hg := by
    obtain ⟨t1, t2⟩ := I.aw g hg
    refine ⟨?_, t2⟩
    by_cases hgf : g = fd
    · subst hgf; exact upd_same
    · simp only [upd_ne hgf]; exact t1
  bs b hb := by
    obtain ⟨t1, t2⟩ := I.bs b hb
    refine ⟨?_, t2⟩
    by_cases hgf : b.fd = fd
    · simp only [hgf]; exact upd_same
    · simp only [upd_ne hgf]; exact t1
  bound := I.bound
  adr := I.adr
  cur := I.cur
  i8 := I.i8
  qsrc := I.qsrc
  regN := I.regN
  regI := I.regI
  dirI := I.dirI
  wr := I.wr
  hist := I.hist

theorem alloc_ainv (I : AInv c s) {fd : Nat} {dst : List Byte} {q : Qos} {data : List Byte} {ok : Bool} {j : Junk} {s' : Host}
    (h : alloc c s fd dst q data ok j = .ok s') : AInv c s' := by
  unfold alloc at h
  split at h
  · cases h; exact I
  rename_i hf
  push Not at hf
  have hdead : s.live fd = false := by
    have := hf.1
    simp only [ne_eq, Bool.not_eq_false, freeFd, Bool.and_eq_true, Bool.not_eq_true'] at this
    exact this.2
  have hef := I.dead fd hdead
  have haw : s.await ≠ some fd := fun hc => by rw [(I.aw fd hc).1] at hdead; cases hdead
  have I1 := I.live fd
  dsimp only at h
  split at h
  · cases h; exact I1
  rename_i e he
  split at h
  · cases h; exact I1
  rename_i sap hsap
  split at h
  · cases h
  rename_i h64
  unfold MAX_SAPS at h64
  have hmem := List.mem_of_find?_eq_some he
  have heq : e.1 = dst := by have := List.find?_some he; simpa using this
  have I2 := I1.sap (fd := fd) upd_same sap (by omega) (by simp only [hef]; rfl) haw
  split at h
  · cases h
    have hj : Just c s.log (.requested fd e.2 dst q data) := by
      have := (I.dirI e hmem).1
      rw [heq] at this
      exact this
    exact { (I2 (upd s.used sap true)).say (l := [.requested fd e.2 dst q data, .assigned fd sap]) (by simp [Plain]) (I.hist.snoc2 hj trivial) with }
  · cases h
    have e1 : upd s.ef fd { s.ef fd with sap := -1 } = s.ef := by
      funext x
      by_cases hx : x = fd
      · subst hx; simp only [upd_same, hef]; rfl
      · exact upd_ne hx
    rw [e1]
    refine { I1 with tab := ?_ }
    intro x g hg
    by_cases hx : x = sap
    · subst hx; simp only [upd_same] at hg; cases hg
    · simp only [upd_ne hx] at hg; exact I1.tab x g hg

theorem resp_ainv (I : AInv c s) {fd : Nat} {response : Int} {data : List Byte} {ok : Bool} {j : Junk} {s' : Host}
    (h : resp c s fd response data ok j = .ok s') : AInv c s' := by
  unfold resp at h
  split at h
  · split at h
    · cases h
    · cases h; exact I
  split at h
  · cases h; exact I
  rename_i hr haw
  push Not at haw
  obtain ⟨a1, a2⟩ := I.aw fd haw
  have I1 : AInv c { s with await := none } := { I with aw := fun g hg => by cases hg }
  dsimp only at h
  split at h
  · cases h; exact I1
  rename_i sap hsap
  split at h
  · cases h
  rename_i h64
  unfold MAX_SAPS at h64
  have I2 := I1.sap (fd := fd) a1 sap (by omega) a2 (by simp)
  split at h
  · cases h
    exact { (I2 (upd s.used sap true)).say (l := [.responded fd data, .assigned fd sap]) (by simp [Plain]) (I.hist.snoc2 trivial trivial) with }
  · cases h
    exact { I2 (releaseSap (upd s.used sap true) (upd s.ef fd { s.ef fd with sap := sap } fd).sap) with }

theorem dealloc_ainv (I : AInv c s) {fd : Nat} {s' : Host} (hc : Calm s (.dealloc fd)) (h : step c s (.dealloc fd) = .ok s') : AInv c s' := by
  simp only [step] at h
  split at h
  swap
  · cases h; exact I
  split at h
  · cases h
  rename_i hlive hsap
  cases h
  obtain ⟨c1, c2⟩ := hc
  refine { tab := ?_, dead := ?_, aw := ?_, bs := ?_, bound := ?_, adr := ?_, cur := ?_, i8 := ?_, qsrc := I.qsrc, regN := I.regN, regI := ?_, dirI := ?_, wr := ?_, hist := I.hist.snoc trivial }
  · intro x g hg
    by_cases hx : x = toU8 (s.ef fd).sap
    · subst hx; simp only [upd_same] at hg; cases hg
    simp only [upd_ne hx] at hg
    obtain ⟨t1, t2⟩ := I.tab x g hg
    have hgf : g ≠ fd := by
      rintro rfl
      apply hx
      rw [t2]
      unfold toU8 MAX_SAPS at *
      rw [t2] at hsap
      have := I.i8 g
      omega
    simp only [upd_ne hgf]
    exact ⟨t1, t2⟩
  · intro g hg
    by_cases hgf : g = fd
    · subst hgf; exact upd_same
    · simp only [upd_ne hgf] at hg ⊢; exact I.dead g hg
  · intro g hg
    have hgf : g ≠ fd := by rintro rfl; exact c1 hg
    simp only [upd_ne hgf]
    exact I.aw g hg
  · intro b hb
    have hgf := c2 b hb
    obtain ⟨t1, t2, t3⟩ := I.bs b hb
    simp only [upd_ne hgf]
    exact ⟨t1, (peer_closed_ne hgf.symm).2 t2, t3⟩
  · intro g
    by_cases hgf : g = fd
    · subst hgf; simp only [upd_same]; exact .inl ⟨rfl, rfl⟩
    · simp only [upd_ne hgf]
      exact (I.bound g).imp id (peer_closed_ne (Ne.symm hgf)).2
  · intro g
    by_cases hgf : g = fd
    · subst hgf; simp only [upd_same]; change 0 < 2 ^ 48; decide
    · simp only [upd_ne hgf]; exact I.adr g
  · intro g a sap hp
    by_cases hgf : g = fd
    · subst hgf; exact (peer_closed hp).elim
    · simp only [upd_ne hgf]
      exact (I.cur g a sap ((peer_closed_ne (Ne.symm hgf)).1 hp)).imp id (peer_closed_ne (Ne.symm hgf)).2
  · intro g
    by_cases hgf : g = fd
    · subst hgf; simp only [upd_same]; change -1 ≤ (-1 : Int) ∧ (-1 : Int) < 64; decide
    · simp only [upd_ne hgf]; exact I.i8 g
  · intro x
    exact (I.regI x).trans (registered_append (by simp) (by simp)).symm
  · intro e he
    exact ⟨List.mem_append_left _ (I.dirI e he).1, (I.dirI e he).2⟩
  · intro w x hw
    exact List.mem_append_left _ (I.wr w x hw)

end Ouro.EthLlc
