import Verif.Proof.MbEcn

/-!
# C36 — congestion control state stays within its range
-/

namespace Ouro.MbEcn

/-- The receiver after a sequence of packets with these congestion marks. -/
def received (marks : List (BitVec 8)) : Rx := marks.foldl (fun c m => (updateRcv c m).1) rxInit

/-- C36, receiver. After any sequence of packets the 16-bit congestion level is the level over unbounded integers: it never wraps. It
never exceeds 8191. -/
theorem C36_receiver_level (marks : List (BitVec 8)) :
    (received marks).ece.toNat = Spec.Ecn.level (marks.map BitVec.toNat) ∧ (received marks).ece.toNat ≤ 8191 := by
  induction marks using List.reverseRecOn with
  | nil => exact ⟨rfl, by decide⟩
  | append_singleton ms m ih =>
    have := rcv_next (received ms) m ih.2
    unfold received Spec.Ecn.level at *
    simp only [List.foldl_append, List.map_append, List.map_cons, List.map_nil, List.foldl_cons, List.foldl_nil]
    rw [ih.1] at this
    exact this

/-- C36, receiver. The start and the end of congestion are always reported to the sender, and a report is always the current level. -/
theorem C36_receiver_reports (marks : List (BitVec 8)) (m : BitVec 8) :
    (((received marks).ece = 0 ∧ m ≠ 0 ∨ (received marks).ece ≠ 0 ∧ (received (marks ++ [m])).ece = 0) →
      (updateRcv (received marks) m).2.1 = true) ∧
    ((updateRcv (received marks) m).2.1 = true → (updateRcv (received marks) m).2.2 = some (received (marks ++ [m])).ece) := by
  have hnext : received (marks ++ [m]) = (updateRcv (received marks) m).1 := by
    simp [received, List.foldl_append]
  have hb := (C36_receiver_level marks).2
  rw [hnext]
  generalize received marks = c at hb ⊢
  have hn := (rcv_next c m hb).1
  constructor
  · rintro (⟨h1, h2⟩ | ⟨h1, h2⟩)
    · unfold updateRcv
      have : ¬ c.ece ||| BitVec.setWidth 16 m = 0 := by
        rw [h1]; intro h
        apply h2
        apply BitVec.eq_of_toNat_eq
        have := congrArg BitVec.toNat h
        simpa [Nat.mod_eq_of_lt (show m.toNat < 65536 by have := m.isLt; omega)] using this
      rw [if_neg this, if_neg h2, if_pos h1]
    · rw [h2] at hn
      have hpos : 0 < c.ece.toNat := by
        rcases Nat.eq_zero_or_pos c.ece.toNat with h | h
        · exact absurd (BitVec.eq_of_toNat_eq (by simpa using h)) h1
        · exact h
      have hm : m = 0 := by
        by_contra hm
        have : m.toNat ≠ 0 := fun h => hm (BitVec.eq_of_toNat_eq (by simpa using h))
        unfold Spec.Ecn.next at hn
        rw [if_neg this] at hn
        have hz : (0 : BitVec 16).toNat = 0 := rfl
        omega
      subst hm
      unfold updateRcv at h2 ⊢
      have : ¬ c.ece ||| BitVec.setWidth 16 0#8 = 0 := by
        simpa using h1
      have h0 : (0 : BitVec 8) = 0#8 := rfl
      simp only [h0, this, if_false, if_true] at h2 ⊢
      simp [h2]
  · unfold updateRcv
    split
    · intro h; cases h
    · split
      · intro _; rfl
      · split
        · intro _; rfl
        · intro _; rfl

/-- The sending of packets is at least 16 ns apart, starting after `T`, before time `2 ^ 59` ns (18 years). -/
def Spaced (T : Nat) : List Op → Prop
  | [] => True
  | .send t _ :: ops => T + 16 ≤ t ∧ t < 2 ^ 59 ∧ Spaced t ops
  | .report _ :: ops => Spaced T ops

/-- The time of the last packet. -/
def lastTime (T : Nat) : List Op → Nat
  | [] => T
  | .send t _ :: ops => lastTime t ops
  | .report _ :: ops => lastTime T ops

theorem inv_report {c : Tx} {T : Nat} (e : BitVec 16) (I : Inv c T) : Inv (updateEce c e) T :=
  ⟨I.lo, I.hi, I.inc, I.cnt, I.open_, I.cur, I.wbl⟩

theorem inv_create (t0 : Nat) : Inv (create t0) t0 := by
  refine ⟨show 8 ≤ 24 by decide, show 24 ≤ 61 by decide, show 2 ^ 16 = 2 ^ (24 - 8) by decide, ?_, Or.inl rfl, ?_,
    show 2 ^ 16 < 2 ^ 64 by decide⟩
  · simp only [create]; omega
  · simp only [create]; omega

theorem run_inv : ∀ (ops : List Op) (c : Tx) (T : Nat), Inv c T → Spaced T ops →
    ∃ c' ws, run c ops = .ok (c', ws) ∧ Inv c' (lastTime T ops) ∧ ∀ p ∈ ws, p.2 ≤ 2 * p.1
  | [], c, T, I, _ => ⟨c, [], rfl, I, by simp⟩
  | .report e :: ops, c, T, I, h => run_inv ops (updateEce c e) T (inv_report e I) h
  | .send t len :: ops, c, T, I, ⟨h1, h2, h3⟩ => by
    obtain ⟨c1, w, e1, I1, hw, _⟩ := snd_spec len I h1 h2
    obtain ⟨c2, ws, e2, I2, hws⟩ := run_inv ops c1 t I1 h3
    refine ⟨c2, (2 ^ c1.mul, w) :: ws, ?_, I2, ?_⟩
    · rw [run, e1, bind_ok', e2, bind_ok', Outcome.pure_eq]
    · intro p hp
      rcases List.mem_cons.1 hp with rfl | hp
      · exact hw
      · exact hws p hp

/-- C36, sender. For packets of any size at least 16 ns apart and any congestion reports, every call returns (the scaling loops end and
no shift is out of range), the slot size stays between `2 ^ 8` and `2 ^ 61` ns, the additive increase stays proportional to it, and no
packet is held up for more than two slots (no wait wraps around). -/
theorem C36_sender_partial (t0 : Nat) (ops : List Op) (h : Spaced t0 ops) :
    ∃ c ws, run (create t0) ops = .ok (c, ws) ∧ 8 ≤ c.mul ∧ c.mul ≤ 61 ∧ c.inc = 2 ^ (c.mul - 8) ∧ ∀ p ∈ ws, p.2 ≤ 2 * p.1 := by
  obtain ⟨c, ws, e, I, hw⟩ := run_inv ops (create t0) t0 (inv_create t0) h
  exact ⟨c, ws, e, I.lo, I.hi, I.inc, hw⟩

/-- C36, sender. After a report of congestion at a level a receiver can have (`C36_receiver_level`), the next packet does not raise the
rate (window limit per slot size): the decrease of the window does not wrap below zero. -/
theorem C36_report_lowers_rate (t0 : Nat) (ops : List Op) (h : Spaced t0 ops) (e : BitVec 16) (he0 : e ≠ 0) (he : e.toNat ≤ 8191)
    (t len : Nat) (ht : lastTime t0 ops + 16 ≤ t) (ht2 : t < 2 ^ 59) :
    ∃ c ws c' w, run (create t0) ops = .ok (c, ws) ∧ updateSnd (updateEce c e) t len = .ok (c', w) ∧
      c'.wbl * 2 ^ c.mul ≤ c.wbl * 2 ^ c'.mul := by
  obtain ⟨c, ws, e1, I, _⟩ := run_inv ops (create t0) t0 (inv_create t0) h
  obtain ⟨c', w, e2, _, _, hr⟩ := snd_spec len (inv_report e I) ht ht2
  refine ⟨c, ws, c', w, e1, e2, ?_⟩
  refine hr rfl ?_ he (show 0 < 32 by decide)
  intro hz
  have hz' : e.toNat = 0 := hz
  exact he0 (BitVec.eq_of_toNat_eq (by simpa using hz'))

/-- C36. Marks made along the path are never lost, and a queue of 16 to 4095 packets always leaves one. -/
theorem C36_marks (q : Nat) (e : BitVec 8) :
    calcEcn q e ||| e = calcEcn q e ∧ (16 ≤ q → q < 4096 → calcEcn q e ≠ 0) := by
  constructor
  · unfold calcEcn; rw [BitVec.or_comm, ← BitVec.or_assoc, BitVec.or_self]
  · intro h1 h2 h
    have := congrArg BitVec.toNat h
    unfold calcEcn at this
    rw [BitVec.toNat_or] at this
    have h3 := (Nat.or_eq_zero_iff.1 this).2
    rw [BitVec.toNat_ofNat] at h3
    omega

/-- C36 fails for reports that no correct receiver makes but a peer can send: the window wraps below zero to almost `2 ^ 64` bytes. -/
theorem C36_large_report_violated :
    ∃ c ws, run (create 0) [.report 65535, .send (2 ^ 24) 100] = .ok (c, ws) ∧ 2 ^ 63 < c.wbl := by
  refine ⟨⟨65535, 1, 100, 1, 2 ^ 64 - 3669952, true, 27, 2 ^ 19, 1⟩, [(2 ^ 27, 0)], by decide +kernel, by decide⟩

theorem run_append (c : Tx) (ops ops' : List Op) :
    run c (ops ++ ops') = (run c ops >>= fun p => run p.1 ops' >>= fun q => .ok (q.1, p.2 ++ q.2)) := by
  induction ops generalizing c with
  | nil =>
    rw [List.nil_append, run, bind_ok']
    cases run c ops' with
    | ok a => rfl
    | ub => rfl
  | cons op ops ih =>
    cases op with
    | report e => rw [List.cons_append, run, run, ih]
    | send t len =>
      rw [List.cons_append, run, run]
      cases updateSnd c t len with
      | ub => rfl
      | ok a =>
        rw [bind_ok', bind_ok', ih]
        cases run a.1 ops with
        | ub => rfl
        | ok b =>
          rw [bind_ok', bind_ok', Outcome.pure_eq, bind_ok']
          cases run b.1 ops' with
          | ub => rfl
          | ok d => rfl

/-- The sender after `k` empty packets at time 0. -/
def counted (k : Nat) : Tx :=
  { ece := 0, ctr := k, wbc := 0, wpc := k, wbl := 2 ^ 16, cav := false, mul := 24, inc := 2 ^ 16, slot := 0 }

theorem burst (n : Nat) : ∀ k, k + n < 2 ^ 63 →
    ∃ ws, run (counted k) (List.replicate n (.send 0 0)) = .ok (counted (k + n), ws) := by
  induction n with
  | zero => intro k _; exact ⟨[], rfl⟩
  | succ n ih =>
    intro k hk
    obtain ⟨ws, h⟩ := ih (k + 1) (by omega)
    have h1 : updateSnd (counted k) 0 0 = .ok (counted (k + 1), 0) := by
      unfold updateSnd
      have hs : shr 0 (counted k).mul = .ok 0 := show shr 0 24 = .ok 0 by decide
      have hc : count (counted k) 0 = counted (k + 1) := by
        unfold count counted
        dsimp only
        rw [u64_of_lt (show k + 1 < 2 ^ 64 by omega), ite_self]
        rfl
      have ha : advance (counted (k + 1)) 0 = .ok (counted (k + 1)) := by
        unfold advance
        exact if_neg (show ¬ slotAfter 0 0 = true by decide)
      have hw : waitFor (counted (k + 1)) 0 = .ok 0 := by
        unfold waitFor
        exact if_neg (show ¬ 2 ^ 16 < 0 by decide)
      rw [hs, bind_ok', hc, ha, bind_ok', hw, bind_ok', Outcome.pure_eq]
    rw [List.replicate_succ, run, h1, bind_ok', h, bind_ok']
    rw [Outcome.pure_eq, show k + 1 + n = k + (n + 1) by omega]
    exact ⟨_, rfl⟩

/-- C36 fails without a bound on the packet rate: after 2^32 packets in one slot the slot size wraps below zero, and the next packet
shifts by an undefined amount. -/
theorem C36_packet_rate_violated :
    run (create 0) (List.replicate (2 ^ 32) (.send 0 0) ++ [.send (2 ^ 24) 0, .send (2 ^ 25) 0]) = .ub := by
  obtain ⟨ws, h⟩ := burst (2 ^ 32) 0 (by decide)
  have h0 : counted 0 = create 0 := by decide
  rw [h0] at h
  rw [run_append, h, bind_ok']
  have : run (counted (0 + 2 ^ 32)) [.send (2 ^ 24) 0, .send (2 ^ 25) 0] = .ub := by decide +kernel
  rw [this]
  rfl

/-- Non-vacuity: a history with packets and reports. -/
example : Spaced 1000 [.send 2000 100, .report 300, .send 3000 1000, .send 200000000 50] := by
  refine ⟨by decide, by decide, by decide, by decide, by decide, by decide, trivial⟩

/-- Non-vacuity: a receiver that sees three marks and then none. -/
example : (received [16, 16, 16]).ece = 47 ∧ (received [16, 16, 16, 0, 0, 0]).ece = 0 := by decide

end Ouro.MbEcn
