import Verif.Proof.EthLlcWit

namespace Ouro.EthLlc

open Ouro.FaMsg

variable {c : Cfg} {s : Host}

/-- The SAPs of peers are `int8_t`. -/
def RInv (s : Host) : Prop := ∀ fd, -128 ≤ (s.ef fd).rSap ∧ (s.ef fd).rSap < 128

theorem toI8_range {x : Nat} (h : x < 256) : -128 ≤ toI8 x ∧ toI8 x < 128 := by unfold toI8; split <;> omega

theorem rinv_upd (R : RInv s) (fd : Nat) (e : Ef) (h : -128 ≤ e.rSap ∧ e.rSap < 128) : ∀ g, -128 ≤ (upd s.ef fd e g).rSap ∧ (upd s.ef fd e g).rSap < 128 := by
  intro g
  by_cases hg : g = fd
  · subst hg; rw [upd_same]; exact h
  · rw [upd_ne hg]; exact R g

theorem step_rinv (A : AInv c s) (R : RInv s) {op : Op} {s' : Host} (h : step c s op = .ok s') : RInv s' := by
  cases op with
  | reg x =>
    simp only [step] at h
    split at h <;> (cases h; exact R)
  | unreg x => cases h; exact R
  | alloc fd dst q data ok j =>
    simp only [step, alloc] at h
    split at h
    · cases h; exact R
    split at h
    · cases h; exact R
    split at h
    · cases h; exact R
    split at h
    · cases h
    split at h
    · cases h; exact rinv_upd R _ _ (R _)
    · cases h; exact rinv_upd R _ _ (R _)
  | recv fr mem over =>
    simp only [step, recv] at h
    obtain ⟨len, -, h⟩ := bind_eq h
    split at h
    · cases h; exact R
    obtain ⟨d, -, h⟩ := bind_eq h
    obtain ⟨e, -, h⟩ := bind_eq h
    split at h
    · obtain ⟨payload, -, h⟩ := bind_eq h
      obtain ⟨src, -, h⟩ := bind_eq h
      split at h
      · cases h
      · cases h; exact R
    split at h
    · cases h
    split at h
    · cases h; exact R
    obtain ⟨src, -, h⟩ := bind_eq h
    split at h
    · cases h; exact R
    obtain ⟨payload, -, h⟩ := bind_eq h
    split at h <;> (cases h; exact R)
  | mgmt fd ok j =>
    simp only [step, mgmt] at h
    split at h
    · rename_i fr rest hb hq
      split at h
      · cases h
      · cases h; exact R
      · rename_i ssap dsap r data hp
        have hb := (parse_bytes hp).2 _ _ _ _ rfl
        unfold allocReply at h
        split at h
        · cases h
        split at h
        · cases h; exact R
        dsimp only at h
        split at h <;> rename_i hl <;> split at h <;> cases h <;> first
          | exact R
          | exact rinv_upd (s := s) R _ _ (toI8_range hb.1)
      · split at h
        · cases h; exact R
        split at h
        · cases h; exact R
        split at h
        · cases h; exact R
        split at h <;> (cases h; exact R)
      · split at h <;> (cases h; exact R)
      · cases h; exact R
    · cases h; exact R
  | mgmtStore =>
    simp only [step] at h
    split at h
    · cases h; exact R
    · rename_i b hb
      cases h
      exact rinv_upd R _ _ (toI8_range (A.bs b hb).2.2.1)
  | resp fd r data ok j =>
    simp only [step, resp] at h
    split at h
    · split at h
      · cases h
      · cases h; exact R
    split at h
    · cases h; exact R
    split at h
    · cases h; exact R
    split at h
    · cases h
    split at h
    · cases h; exact rinv_upd R _ _ (R _)
    · cases h; exact rinv_upd R _ _ (R _)
  | write w fd p =>
    simp only [step] at h
    split at h <;> (cases h; exact R)
  | send w ok =>
    simp only [step] at h
    split at h
    · cases h; exact R
    split at h <;> (cases h; exact R)
  | dealloc fd =>
    simp only [step] at h
    split at h
    · split at h
      · cases h
      · cases h; exact rinv_upd R _ _ (by decide)
    · cases h; exact R

theorem run_rinv (hm : c.mac < 2 ^ 48) : ∀ (ops : List Op) (s : Host), AInv c s → RInv s → Along c Calm s ops → ∀ s', run c s ops = .ok s' → RInv s' := by
  intro ops
  induction ops with
  | nil => intro s _ R _ s' h; cases h; exact R
  | cons op l ih =>
    intro s A R hc s' h
    simp only [run] at h
    split at h
    · cases h
    · rename_i s1 hs
      exact ih s1 (step_ainv hm A hc.1 hs) (step_rinv A R hs) (hc.2 _ hs) s' h

theorem init_rinv : RInv init := by intro fd; change -128 ≤ (-1 : Int) ∧ (-1 : Int) < 128; decide

/-- Everything that holds after an orderly history. -/
theorem reach (hm : c.mac < 2 ^ 48) {ops : List Op} (hc : Along c Calm init ops) (hf : Along c (Fair c) init ops) {s : Host} (h : run c init ops = .ok s) : AInv c s ∧ BInv c s ∧ RInv s := by
  obtain ⟨s', h', A, B⟩ := run_binv hm ops init (init_ainv c) (init_binv c) hc hf
  rw [h] at h'; cases h'
  exact ⟨A, B, run_rinv hm ops init (init_ainv c) init_rinv hc _ h⟩

/-- What the tables hold for a flow with a SAP and one peer. -/
theorem flow_row (A : AInv c s) (B : BInv c s) {fd sap a t : Nat} (hb : ∀ b, s.busy = some b → b.fd ≠ fd) (h1 : HasSap s.log fd sap) (h2 : Peer s.log fd a t)
    (h3 : ∀ a' t', Peer s.log fd a' t' → a' = a ∧ t' = t) :
    2 ≤ sap ∧ sap < 64 ∧ (s.ef fd).sap = sap ∧ s.efToFd sap = some fd ∧ (s.ef fd).addr = a ∧ toU8 (s.ef fd).rSap = t := by
  have e1 := B.has _ _ h1
  rcases B.sapv fd with hn | ⟨x, x1, x2, x3, -, x5, -⟩
  · rw [hn] at e1; omega
  have : x = sap := by rw [x3] at e1; exact_mod_cast e1
  subst this
  rcases A.cur fd a t h2 with ⟨b, hb1, hb2⟩ | hp
  · exact (hb b hb1 hb2).elim
  · exact ⟨x1, x2, x3, x5, h3 _ _ hp⟩

theorem rev_nat {x : Nat} (h : x < 256) : (reverseBits (reverseBits (BitVec.ofNat 8 x))).toNat = x := by
  rw [reverse_invol, BitVec.toNat_ofNat, Nat.mod_eq_of_lt h]

/-- A management frame is put in the queue. -/
theorem recv_mgmt {dst src : Nat} (hs : src < 2 ^ 48) {p : List Byte} (hp : p.length ≤ 1497) : recv s (frame dst src (reverseBits 1) (reverseBits 1) p) [] none = .ok { s with queue := ⟨src, p⟩ :: s.queue } := by
  have := recv_frame (s := s) (dst := dst) hs (reverseBits 1) (reverseBits 1) hp [] []
  rw [List.append_nil] at this
  rw [this, if_pos (by decide)]

/-- A packet for a flow. -/
theorem recv_data {dst src : Nat} (hs : src < 2 ^ 48) {p : List Byte} (hp : p.length ≤ 1497) {fd sap t : Nat} (h1 : sap < 64) (h0 : sap ≠ 1) (h2 : t < 128) (h3 : s.efToFd sap = some fd) (h4 : (s.ef fd).rSap = t) (h5 : (s.ef fd).addr = src)
    (h6 : s.live fd = true) (pad mem : List Byte) :
    recv s (frame dst src (reverseBits (BitVec.ofNat 8 sap)) (reverseBits (BitVec.ofNat 8 t)) p ++ pad) mem none = .ok { s with log := s.log ++ [.delivered fd src t p] } := by
  have := recv_frame (s := s) (dst := dst) hs (reverseBits (BitVec.ofNat 8 sap)) (reverseBits (BitVec.ofNat 8 t)) hp pad mem
  rw [rev_nat (by omega), rev_nat (by omega)] at this
  rw [this, if_neg (by omega), if_neg (by omega), h3]
  simp only
  rw [if_neg (by rw [h4, h5]; simp), if_pos h6]

/-- A frame from somebody else is dropped. -/
theorem recv_other {dst src : Nat} (hs : src < 2 ^ 48) {p : List Byte} (hp : p.length ≤ 1497) {fd sap t : Nat} (h1 : sap < 64) (h0 : sap ≠ 1) (h2 : t < 256) (h3 : s.efToFd sap = some fd)
    (h4 : (s.ef fd).rSap ≠ t ∨ (s.ef fd).addr ≠ src) (pad mem : List Byte) :
    recv s (frame dst src (reverseBits (BitVec.ofNat 8 sap)) (reverseBits (BitVec.ofNat 8 t)) p ++ pad) mem none = .ok s := by
  have := recv_frame (s := s) (dst := dst) hs (reverseBits (BitVec.ofNat 8 sap)) (reverseBits (BitVec.ofNat 8 t)) hp pad mem
  rw [rev_nat (by omega), rev_nat (by omega)] at this
  rw [this, if_neg (by omega), if_neg (by omega), h3]
  simp only
  rw [if_pos h4]

theorem allocSap_init : allocSap (fun _ => false) = some 2 := by decide

theorem established (a b f g w w' : Nat) (L M : Nat) (ha : a < 2 ^ 48) (hb : b < 2 ^ 48) (hf : 64 ≤ f ∧ f < 4096) (hg : 64 ≤ g ∧ g < 4096) (n : List Byte) (hn : n.length = L) (q : Qos) (hq : q.WF)
    (hM : M ≤ 1500) (d r p p' : List Byte) (hd : 36 + L + d.length + 3 ≤ M) (hr : 36 + r.length + 3 ≤ M) (hp : p.length + 3 ≤ M) (hp' : p'.length + 3 ≤ M) (ja jb j1 j2 j3 : Junk) :
    ∃ s1 s2 s3 s4 s5 f1 f2 f3 f4,
      run ⟨a, M, L⟩ init [.recv (frame a b (reverseBits 1) (reverseBits 1) (queryMsg NAME_QUERY_REPLY n j1)) [] none, .mgmt none true j1, .alloc f n q d true ja] = .ok s1 ∧ s1.out = [(b, f1)] ∧
      run ⟨b, M, L⟩ init [.reg n, .recv f1 [] none, .mgmt (some g) true j2, .mgmtStore, .resp g 0 r true jb] = .ok s2 ∧ s2.out = [(a, f2)] ∧
      run ⟨a, M, L⟩ s1 [.recv f2 [] none, .mgmt none true j3, .write w f p, .send w true] = .ok s3 ∧ .sent f f3 ∈ s3.log ∧
      run ⟨b, M, L⟩ s2 [.recv f3 [] none, .write w' g p', .send w' true] = .ok s4 ∧ .sent g f4 ∈ s4.log ∧
      run ⟨a, M, L⟩ s3 [.recv f4 [] none] = .ok s5 ∧
      s4.log = [.registered n, .offered g a 2 n q d, .responded g r, .assigned g 2, .delivered g a 2 p, .wrote g p', .sent g f4] ∧
      s5.log = [.announced n b, .requested f b n q d, .assigned f 2, .replied f b 2 0 r, .wrote f p, .sent f f3, .delivered f b 2 p'] := by
  obtain ⟨f1, f2⟩ := hf
  obtain ⟨g1, g2⟩ := hg
  have lq : (queryMsg NAME_QUERY_REPLY n j1).length ≤ 1497 := by simp [queryMsg, hn]; omega
  have la : (request 2 q n d ja).length = 36 + L + d.length := by rw [length_request, hn]
  have lr : (reply 2 2 0 r jb).length = 36 + r.length := length_reply ..
  have pq := (parse_query hn j1).2
  have pa := parse_request (e := 2) (by decide) hq hn d ja
  have pr := parse_reply (e := 2) (g := 2) (by decide) (by decide) (r := 0) (by decide) (by decide) L r jb
  have sa : sends ⟨a, M, L⟩ (request 2 q n d ja).length true = true := by simp [sends, la]; omega
  have sb : sends ⟨b, M, L⟩ (reply 2 2 0 r jb).length true = true := by simp [sends, lr]; omega
  have sp : sends ⟨a, M, L⟩ p.length true = true := by simp [sends]; omega
  have sp' : sends ⟨b, M, L⟩ p'.length true = true := by simp [sends]; omega
  have ff : ∀ h : Host, h.live f = false → freeFd h f = true := fun h hl => by simp [freeFd, hl, PROG_RES_FDS, PROG_MAX_FLOWS, *]
  have fg : ∀ h : Host, h.live g = false → freeFd h g = true := fun h hl => by simp [freeFd, hl, PROG_RES_FDS, PROG_MAX_FLOWS, *]
  have t1 : toI8 2 = 2 := by decide
  have t2 : toU8 2 = 2 := by decide
  have e1 : ∀ h : Host, recv h (frame a b (reverseBits 1) (reverseBits 1) (queryMsg NAME_QUERY_REPLY n j1)) [] none = .ok { h with queue := ⟨b, queryMsg NAME_QUERY_REPLY n j1⟩ :: h.queue } :=
    fun h => recv_mgmt hb lq
  have e2 : ∀ h : Host, recv h (frame b a (reverseBits 1) (reverseBits 1) (request 2 q n d ja)) [] none = .ok { h with queue := ⟨a, request 2 q n d ja⟩ :: h.queue } :=
    fun h => recv_mgmt ha (by omega)
  have e3 : ∀ h : Host, recv h (frame a b (reverseBits 1) (reverseBits 1) (reply 2 2 0 r jb)) [] none = .ok { h with queue := ⟨b, reply 2 2 0 r jb⟩ :: h.queue } :=
    fun h => recv_mgmt hb (by omega)
  have e4 : ∀ h : Host, h.efToFd 2 = some g → (h.ef g).rSap = 2 → (h.ef g).addr = a → h.live g = true →
      recv h (frame b a (reverseBits (BitVec.ofNat 8 2)) (reverseBits (BitVec.ofNat 8 2)) p) [] none = .ok { h with log := h.log ++ [.delivered g a 2 p] } := by
    intro h i1 i2 i3 i4
    have := recv_data (s := h) (dst := b) ha (p := p) (by omega) (t := 2) (by decide) (by decide) (by decide) i1 i2 i3 i4 [] []
    rwa [List.append_nil] at this
  have e5 : ∀ h : Host, h.efToFd 2 = some f → (h.ef f).rSap = 2 → (h.ef f).addr = b → h.live f = true →
      recv h (frame a b (reverseBits (BitVec.ofNat 8 2)) (reverseBits (BitVec.ofNat 8 2)) p') [] none = .ok { h with log := h.log ++ [.delivered f b 2 p'] } := by
    intro h i1 i2 i3 i4
    have := recv_data (s := h) (dst := a) hb (p := p') (by omega) (t := 2) (by decide) (by decide) (by decide) i1 i2 i3 i4 [] []
    rwa [List.append_nil] at this
  have k1 : ∃ s1, run ⟨a, M, L⟩ init [.recv (frame a b (reverseBits 1) (reverseBits 1) (queryMsg NAME_QUERY_REPLY n j1)) [] none, .mgmt none true j1, .alloc f n q d true ja] = .ok s1 ∧
      s1.out = [(b, frame b a (reverseBits 1) (reverseBits 1) (request 2 q n d ja))] ∧ s1.log = [.announced n b, .requested f b n q d, .assigned f 2] ∧ s1.live f = true ∧ s1.efToFd 2 = some f ∧ (s1.ef f).sap = 2 ∧
      s1.queue = [] ∧ s1.busy = none ∧ s1.wr w = none := by
    simp only [run, step, e1]
    simp [mgmt, init, pq, alloc, ff, hn, allocSap_init, sa, MAX_SAPS, upd_same]
  have k2 : ∃ s2, run ⟨b, M, L⟩ init [.reg n, .recv (frame b a (reverseBits 1) (reverseBits 1) (request 2 q n d ja)) [] none, .mgmt (some g) true j2, .mgmtStore, .resp g 0 r true jb] = .ok s2 ∧
      s2.out = [(a, frame a b (reverseBits 1) (reverseBits 1) (reply 2 2 0 r jb))] ∧ s2.log = [.registered n, .offered g a 2 n q d, .responded g r, .assigned g 2] ∧ s2.live g = true ∧ s2.opened g = true ∧
      s2.efToFd 2 = some g ∧ s2.ef g = ⟨2, 2, a⟩ ∧ s2.wr w' = none := by
    simp only [run, step, e2]
    simp [mgmt, init, pa, resp, fg, hn, allocSap_init, MAX_SAPS, upd_same, t1, t2, sb]
  obtain ⟨s1, r1, o1, l1, v1, m1, x1, q1, b1, w1⟩ := k1
  obtain ⟨s2, r2, o2, l2, v2, y2, m2, x2, w2⟩ := k2
  have k3 : ∃ s3, run ⟨a, M, L⟩ s1 [.recv (frame a b (reverseBits 1) (reverseBits 1) (reply 2 2 0 r jb)) [] none, .mgmt none true j3, .write w f p, .send w true] = .ok s3 ∧
      s3.log = [.announced n b, .requested f b n q d, .assigned f 2, .replied f b 2 0 r, .wrote f p, .sent f (frame b a (reverseBits (BitVec.ofNat 8 2)) (reverseBits (BitVec.ofNat 8 2)) p)] ∧
      s3.live f = true ∧ s3.efToFd 2 = some f ∧ s3.ef f = ⟨2, 2, b⟩ := by
    simp only [run, step, e3]
    simp [mgmt, pr, allocReply, MAX_SAPS, upd_same, t1, t2, sp, q1, b1, m1, v1, w1, l1, x1]
  obtain ⟨s3, r3, l3, v3, m3, x3⟩ := k3
  have k4 : ∃ s4, run ⟨b, M, L⟩ s2 [.recv (frame b a (reverseBits (BitVec.ofNat 8 2)) (reverseBits (BitVec.ofNat 8 2)) p) [] none, .write w' g p', .send w' true] = .ok s4 ∧
      s4.log = [.registered n, .offered g a 2 n q d, .responded g r, .assigned g 2, .delivered g a 2 p, .wrote g p', .sent g (frame a b (reverseBits (BitVec.ofNat 8 2)) (reverseBits (BitVec.ofNat 8 2)) p')] := by
    simp only [run, step]
    rw [e4 s2 m2 (by rw [x2]) (by rw [x2]) v2]
    simp [upd_same, sp', v2, y2, w2, l2, x2, t2]
  obtain ⟨s4, r4, l4⟩ := k4
  have k5 : ∃ s5, run ⟨a, M, L⟩ s3 [.recv (frame a b (reverseBits (BitVec.ofNat 8 2)) (reverseBits (BitVec.ofNat 8 2)) p') [] none] = .ok s5 ∧ s5.log = s3.log ++ [.delivered f b 2 p'] := by
    simp only [run, step]
    rw [e5 s3 m3 (by rw [x3]) (by rw [x3]) v3]
    exact ⟨_, rfl, rfl⟩
  obtain ⟨s5, r5, l5⟩ := k5
  refine ⟨s1, s2, s3, s4, s5, _, _, _, _, r1, o1, r2, o2, r3, ?_, r4, ?_, r5, l4, ?_⟩
  · rw [l3]; simp
  · rw [l4]; simp
  · rw [l5, l3]; simp

end Ouro.EthLlc
