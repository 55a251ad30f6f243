import Verif.Proof.Operf

/-!
# C86: operf, and C87: the mask of ovpn
-/

namespace Ouro.Operf

/-- The client counts the packets of its size that come before a time-out. -/
theorem C86_received (size : Int) (a b : List (Option Int)) (ha : none ∉ a) : reader size (a ++ none :: b) = a.count (some size) ∧ reader size a = a.count (some size) := by
  induction a with
  | nil => exact ⟨rfl, rfl⟩
  | cons x a ih =>
    rw [List.mem_cons, not_or] at ha
    obtain ⟨i1, i2⟩ := ih ha.2
    cases x with
    | none => exact absurd rfl ha.1
    | some n =>
      rw [List.cons_append]
      unfold reader
      rw [i1, i2, List.count_cons]
      by_cases h : n = size
      · simp [h]
      · simp [h]

/-- The client sends packets numbered from 0 without gaps until a write fails, and counts those that were written. -/
theorem C86_sent (outs : List Bool) : (writer outs 0).1 = List.range (writer outs 0).2 ∧ (writer outs 0).2 = (outs.takeWhile id).length := by
  rw [writer_eq]
  simp [List.range_eq_range']

/-- The loss that is printed is the loss rounded up, if no more came back than were sent; 0 only if nothing was lost. -/
theorem C86_loss_partial (sent rcvd : Nat) (hs : 0 < sent) (h : rcvd ≤ sent) : (loss sent rcvd = 0 ↔ rcvd = sent) ∧ 0 ≤ loss sent rcvd ∧ loss sent rcvd ≤ 100 ∧
    100 * ((sent : Int) - rcvd) ≤ loss sent rcvd * sent ∧ loss sent rcvd * sent < 100 * ((sent : Int) - rcvd) + sent := by
  unfold loss
  rw [if_neg (by omega), Int.tdiv_eq_ediv_of_nonneg (by omega)]
  generalize hq : (100 * (rcvd : Int)) / sent = q
  have hs' : (0 : Int) < sent := by omega
  have h1 : q * sent ≤ 100 * (rcvd : Int) := by
    rw [← hq]
    exact Int.ediv_mul_le _ (by omega)
  have h2 : 100 * (rcvd : Int) < q * sent + sent := by
    have := Int.lt_ediv_add_one_mul_self (100 * (rcvd : Int)) hs'
    rw [hq] at this
    linarith
  have hr : (rcvd : Int) ≤ sent := by exact_mod_cast h
  have hq0 : 0 ≤ q := by
    rw [← hq]
    exact Int.ediv_nonneg (by omega) (by omega)
  have hq100 : q ≤ 100 := by
    by_contra hc
    have : (101 : Int) * sent ≤ q * sent := Int.mul_le_mul_of_nonneg_right (by omega) (by omega)
    linarith
  refine ⟨?_, by omega, by omega, by linarith, by linarith⟩
  constructor
  · intro hz
    have : q = 100 := by omega
    rw [this] at h1
    omega
  · rintro rfl
    have : (100 * (rcvd : Int)) / rcvd = 100 := Int.mul_ediv_cancel _ (by omega)
    omega

/-- Replies that the network doubles are counted twice, and the loss is negative. -/
theorem C86_loss_violated (sent : Nat) (hs : 0 < sent) : reader 64 (List.replicate (2 * sent) (some 64)) = 2 * sent ∧ loss sent (2 * sent) = -100 := by
  constructor
  · rw [(C86_received 64 _ [] (by simp)).2, List.count_replicate_self]
  · unfold loss
    rw [if_neg (by omega)]
    push_cast
    rw [show (100 : Int) * (2 * sent) = 200 * sent by ring, Int.mul_tdiv_cancel _ (by omega)]
    rfl

/-- A server whose clients all send a word, and then anything, on descriptors below 256, serves them all, and each as it asked if they have different descriptors. -/
theorem C86_served_partial (l : List (Nat × Client)) (hf : ∀ x ∈ l, x.1 < 256) (hn : (l.map Prod.fst).Nodup) (hc : ∀ x ∈ l, ∃ r, x.2.msgs = 4 :: r) :
    ∃ s, serve l .init = .ok s ∧ s.accepting = true ∧ (∀ fd, fd ∈ s.flows ↔ ∃ c, (fd, c) ∈ l) ∧ ∀ x ∈ l, s.conf[x.1]? = some x.2.type := by
  have key : ∀ (l : List (Nat × Client)) (s : St), (∀ x ∈ l, x.1 < 256) → (l.map Prod.fst).Nodup → (∀ x ∈ l, ∃ r, x.2.msgs = 4 :: r) → s.conf.length = 256 → s.accepting = true →
      ∃ t, serve l s = .ok t ∧ t.accepting = true ∧ (∀ fd, fd ∈ t.flows ↔ fd ∈ s.flows ∨ ∃ y, (fd, y) ∈ l) ∧
      (∀ x ∈ l, t.conf[x.1]? = some x.2.type) ∧ ∀ fd, (∀ x ∈ l, x.1 ≠ fd) → t.conf[fd]? = s.conf[fd]? := by
    intro l
    induction l with
    | nil =>
      intro s _ _ _ _ ha
      exact ⟨s, rfl, ha, by simp, by simp, by simp⟩
    | cons x l ih =>
      intro s hf hn hc hlen ha
      have hx := hf x (by simp)
      rw [List.map_cons, List.nodup_cons] at hn
      obtain ⟨t, t1, t2, t3, t4, t5⟩ := ih { s with conf := s.conf.set x.1 x.2.type, flows := x.1 :: s.flows } (fun y hy => hf y (by simp [hy])) hn.2
        (fun y hy => hc y (by simp [hy])) (by simpa using hlen) ha
      refine ⟨t, ?_, t2, ?_, ?_, ?_⟩
      · obtain ⟨r, hr⟩ := hc x (by simp)
        unfold serve
        rw [if_pos ha, accept_good hlen hx x.2 ⟨4, r, hr, Or.inl (le_refl _)⟩]
        exact t1
      · intro fd
        rw [t3]
        simp only [List.mem_cons]
        constructor
        · rintro ((rfl | h) | ⟨y, h⟩)
          · exact Or.inr ⟨x.2, Or.inl rfl⟩
          · exact Or.inl h
          · exact Or.inr ⟨y, Or.inr h⟩
        · rintro (h | ⟨y, h | h⟩)
          · exact Or.inl (Or.inr h)
          · exact Or.inl (Or.inl (by rw [← h]))
          · exact Or.inr ⟨y, h⟩
      · intro y hy
        rcases List.mem_cons.1 hy with rfl | hy
        · rw [t5 y.1 (fun z hz hzy => hn.1 (hzy ▸ List.mem_map_of_mem hz))]
          simp [hlen, hx]
        · exact t4 y hy
      · intro fd hfd
        rw [t5 fd (fun z hz => hfd z (by simp [hz]))]
        rw [List.getElem?_set_ne (hfd x (by simp))]
  obtain ⟨s, s1, s2, s3, s4, -⟩ := key l .init hf hn hc List.length_replicate rfl
  exact ⟨s, s1, s2, fun fd => (s3 fd).trans ⟨fun h => h.resolve_left (fun h' => by cases h'), Or.inr⟩, s4⟩

/-- One client that sends nothing, or too little, ends the server for all that come after it. -/
theorem C86_served_violated (l l' : List (Nat × Client)) (s : St) (h : serve l .init = .ok s) (fd : Nat) (c : Client) (hfd : fd < 256)
    (hc : c.msgs = [] ∨ ∃ n < 4, c.msgs = [n]) : ∃ s', serve (l ++ (fd, c) :: l') .init = .ok s' ∧ s'.flows = s.flows := by
  have key : ∀ (l : List (Nat × Client)) (u s : St), u.conf.length = 256 → serve l u = .ok s → ∃ s', serve (l ++ (fd, c) :: l') u = .ok s' ∧ s'.flows = s.flows := by
    intro l
    induction l with
    | nil =>
      intro u s hu h
      have hus : u = s := by
        cases h
        rfl
      subst hus
      rw [List.nil_append]
      unfold serve
      split
      · obtain ⟨conf, -, e⟩ := accept_bad hu hfd c hc
        rw [e]
        refine ⟨{ u with conf := conf, accepting := false }, ?_, rfl⟩
        cases l' with
        | nil => rfl
        | cons x l' => rfl
      · exact ⟨u, rfl, rfl⟩
    | cons x l ih =>
      intro u s hu h
      rw [List.cons_append]
      unfold serve at h ⊢
      split at h
      · rename_i ha
        rw [if_pos ha]
        cases hv : accept u x.1 x.2 with
        | ub => rw [hv] at h; cases h
        | ok v =>
          rw [hv] at h
          exact ih v s (accept_length hu hv) h
      · rename_i ha
        rw [if_neg ha]
        cases h
        exact ⟨u, rfl, rfl⟩
  exact key l .init s List.length_replicate h

/-- The length of the message is not checked: one that is too long is served, and so is one that is too short once another follows. -/
theorem C86_length_violated (s : St) (h : s.conf.length = 256) (fd : Nat) (hfd : fd < 256) (c : Client) (n : Nat) (l : List Nat) (hc : c.msgs = n :: l) (hn : 4 < n ∨ l ≠ []) :
    ∃ t, accept s fd c = .ok t ∧ fd ∈ t.flows ∧ t.accepting = s.accepting := by
  refine ⟨_, accept_good h hfd c ⟨n, l, hc, ?_⟩, by simp, rfl⟩
  rcases hn with hn | hn
  · exact Or.inl (by omega)
  · exact Or.inr hn

/-- The configuration of a client with a descriptor from 256 on is written outside the array. -/
theorem C86_flows_violated (s : St) (h : s.conf.length = 256) (fd : Nat) (hfd : 256 ≤ fd) (c : Client) (hc : c.msgs ≠ []) : accept s fd c = .ub :=
  accept_oob h hfd c hc

/-- ovpn takes a mask exactly if it is a prefix of ones that is not all of it. -/
theorem C87_mask_partial (m : BitVec 32) : maskOk m = true ↔ ∃ n < 32, Mask n m := by
  have h32 : m = BitVec.allOnes 32 ↔ (~~~m).toNat = 0 := by
    constructor
    · rintro rfl
      decide
    · intro h
      have h' : ~~~m = 0#32 := BitVec.eq_of_toNat_eq (by rw [h]; rfl)
      rw [← BitVec.not_not (b := m), h']
      rfl
  have hb : maskOk m = true ↔ badMask m = false ∧ ¬ (~~~m).toNat = 0 := by
    unfold maskOk
    rw [← h32]
    simp
  rw [hb, badMask_iff]
  constructor
  · rintro ⟨⟨k, hk, e⟩, hne⟩
    have hk0 : k ≠ 0 := by
      rintro rfl
      simp at e
      exact hne (by simpa using e)
    refine ⟨32 - k, by omega, (mask_iff (32 - k) (by omega) m).2 ?_⟩
    rw [e, show 32 - (32 - k) = k by omega]
  · rintro ⟨n, hn, hm⟩
    have e := (mask_iff n (by omega) m).1 hm
    refine ⟨⟨32 - n, by omega, e⟩, ?_⟩
    intro h0
    rw [h0] at e
    have : 2 ^ 1 ≤ 2 ^ (32 - n) := Nat.pow_le_pow_right (by decide) (by omega)
    omega

/-- The mask of a single address is refused: it stands for no mask. -/
theorem C87_mask_violated : Mask 32 (BitVec.allOnes 32) ∧ badMask (BitVec.allOnes 32) = false ∧ maskOk (BitVec.allOnes 32) = false := by
  refine ⟨(mask_iff 32 (le_refl _) _).2 (by decide), by decide, by decide⟩

example : maskOk 0xffffff00#32 = true ∧ maskOk 0xffff00ff#32 = false ∧ maskOk 0#32 = true ∧ Mask 24 0xffffff00#32 :=
  ⟨by decide, by decide, by decide, (mask_iff 24 (by decide) _).2 (by decide)⟩

example : reader 64 [some 64, some (-11), some 65, some 64, none, some 64] = 2 ∧ writer [true, true, false, true] 0 = ([0, 1], 2) ∧ loss 4 3 = 25 := by decide

set_option maxRecDepth 4000 in
example : ∃ s, serve [(64, ⟨1, [4, 64, 64]⟩), (65, ⟨0, [4]⟩)] .init = .ok s ∧ s.flows = [65, 64] ∧ s.conf[64]? = some 1 := ⟨_, by rfl, by decide +kernel⟩

set_option maxRecDepth 4000 in
example : ∃ s, serve [(64, ⟨1, [4]⟩), (65, ⟨0, []⟩), (66, ⟨0, [4]⟩)] .init = .ok s ∧ s.flows = [64] := ⟨_, by rfl, by decide +kernel⟩

set_option maxRecDepth 4000 in
example : ∃ s, serve [(64, ⟨1, [9]⟩), (65, ⟨7, [2, 100]⟩), (66, ⟨0, [2]⟩), (67, ⟨0, [4]⟩)] .init = .ok s ∧ s.flows = [65, 64] := ⟨_, by rfl, by decide +kernel⟩

end Ouro.Operf
