import Verif.Proof.TimerWheel

namespace Ouro.TimerWheel

open Ouro Ouro.Frct Spec.TimerHistory

theorem afold_eq (now k : Nat) (xs : List Ack) : ∀ s : ASt, xs.foldl (aexam now k) s =
    { s with
      map := fun k' fd' => if k' = k ∧ ∃ a ∈ xs, a.fd = fd' then false else s.map k' fd'
      tried := s.tried ++ xs.map fun a => ⟨a.flowId, now, s.last, decide (s.flows a.fd = some a.flowId)⟩ } := by
  induction xs with
  | nil => intro s; simp
  | cons x xs ih =>
    intro s
    rw [List.foldl_cons, ih]
    unfold aexam
    dsimp only
    congr 1
    · funext k' fd'
      by_cases hk : k' = k
      · subst hk
        by_cases hx : x.fd = fd'
        · subst hx; simp
        · have : fd' ≠ x.fd := fun h => hx h.symm
          simp [hx, this]
      · simp [hk]
    · simp

structure AMid (now p : Nat) (q : List (Nat × Nat)) (s : ASt) : Prop where
  slots : ∀ k a, a ∈ s.acks k → k = adue a.at_ % 256 ∧ p < adue a.at_ ∧ adue a.at_ ≤ p + 256
  lo : s.last / ares ≤ p
  map : ∀ k fd, s.map k fd = true → ∃ a ∈ s.acks k, a.fd = fd
  ids : ∀ k a fid, a ∈ s.acks k → s.flows a.fd = some fid → a.flowId = fid
  req : ∀ r ∈ q, Awaiting s r.1 r.2 ∨ Answered s r.1 r.2
  pend : ∀ k a, a ∈ s.acks k → (a.flowId, a.at_) ∈ q
  just : ∀ y ∈ s.tried, ∃ t, (y.flowId, t) ∈ q ∧ y.prev < adue t * ares ∧ adue t * ares ≤ y.now

theorem ares_pos : 0 < ares := by decide

theorem amid_visit {now p j : Nat} {q : List (Nat × Nat)} {s : ASt} (h : AMid now p q s) (hj : j % 256 = (p + 1) % 256) (hlt : p + 1 ≤ now / ares) :
    AMid now (p + 1) q (avisit now s j) := by
  unfold avisit SLOTS
  dsimp only
  rw [afold_eq]
  dsimp only
  have hdue : ∀ a ∈ s.acks (j % 256), adue a.at_ = p + 1 := by
    intro a ha
    obtain ⟨b, c, d⟩ := h.slots _ _ ha
    omega
  have hlo := h.lo
  have hwin : ∀ a ∈ s.acks (j % 256), s.last < adue a.at_ * ares ∧ adue a.at_ * ares ≤ now := by
    intro a ha
    rw [hdue a ha]
    exact ⟨(Nat.div_lt_iff_lt_mul ares_pos).mp (by omega), (Nat.le_div_iff_mul_le ares_pos).mp hlt⟩
  refine ⟨?_, ?_, ?_, ?_, ?_, ?_, ?_⟩
  · intro k a ha
    dsimp only at ha
    split at ha
    · cases ha
    · rename_i hk
      obtain ⟨b, c, d⟩ := h.slots _ _ ha
      refine ⟨b, ?_, by omega⟩
      have : adue a.at_ ≠ p + 1 := by
        intro hd
        apply hk
        rw [b, hd, hj]
      omega
  · have := h.lo
    show s.last / ares ≤ _
    omega
  · intro k fd hm
    dsimp only at hm ⊢
    split at hm
    · cases hm
    · rename_i hc
      obtain ⟨a, ha, hf⟩ := h.map k fd hm
      refine ⟨a, ?_, hf⟩
      rw [if_neg]
      · exact ha
      · intro hk
        subst hk
        exact hc ⟨rfl, a, ha, hf⟩
  · intro k a fid ha hf
    dsimp only at ha hf
    split at ha
    · cases ha
    · exact h.ids k a fid ha hf
  · intro r hr
    rcases h.req r hr with ⟨k, a, ha, h1, h2⟩ | ⟨y, hy, h1, h2, h3⟩
    · by_cases hk : k = j % 256
      · right
        subst hk
        have := hdue a ha
        refine ⟨⟨a.flowId, now, s.last, decide (s.flows a.fd = some a.flowId)⟩, ?_, h1, ?_, ?_⟩
        · apply List.mem_append_right
          exact List.mem_map.mpr ⟨a, ha, rfl⟩
        · show s.last < _
          rw [← h2, this]
          have := h.lo
          exact (Nat.div_lt_iff_lt_mul ares_pos).mp (by omega)
        · show _ ≤ now
          rw [← h2, this]
          exact (Nat.le_div_iff_mul_le ares_pos).mp hlt
      · left
        refine ⟨k, a, ?_, h1, h2⟩
        dsimp only
        rw [if_neg hk]
        exact ha
    · right
      exact ⟨y, List.mem_append_left _ hy, h1, h2, h3⟩
  · intro k a ha
    dsimp only at ha
    split at ha
    · cases ha
    · exact h.pend k a ha
  · intro y hy
    rcases List.mem_append.mp hy with hy | hy
    · exact h.just y hy
    · obtain ⟨a, ha, rfl⟩ := List.mem_map.mp hy
      exact ⟨a.at_, h.pend _ a ha, hwin a ha⟩

theorem avisit_last (now : Nat) (s : ASt) (j : Nat) : (avisit now s j).last = s.last ∧ (avisit now s j).flows = s.flows := by
  unfold avisit
  dsimp only
  rw [afold_eq]
  exact ⟨rfl, rfl⟩

theorem amid_visits {now : Nat} {q : List (Nat × Nat)} (c : Nat) : ∀ {j p : Nat} {s : ASt}, AMid now p q s → j % 256 = p % 256 →
    p + c ≤ now / ares → AMid now (p + c) q ((List.range' (j + 1) c).foldl (avisit now) s) := by
  induction c with
  | zero => intro j p s h _ _; exact h
  | succ c ih =>
    intro j p s h hj hle
    rw [List.range'_succ, List.foldl_cons]
    have := ih (j := j + 1) (p := p + 1) (amid_visit (j := j + 1) h (by omega) (by omega)) (by omega) (by omega)
    rw [show p + (c + 1) = p + 1 + c by omega]
    exact this

structure AInv (q : List (Nat × Nat)) (s : ASt) : Prop where
  mid : AMid s.last (s.last / ares) q s
  prv : s.prv = s.last / ares % 256

theorem adue_bounds (now : Nat) : now / ares < adue now ∧ adue now ≤ now / ares + 40 := by
  unfold adue ares
  omega

theorem ainv_step {q : List (Nat × Nat)} {s : ASt} {op : AOp} (h : AInv q s) (hok : AOk s op) : AInv (q ++ asked s op) (astep s op) := by
  obtain ⟨m, hp⟩ := h
  cases op with
  | ask fd now =>
    obtain ⟨hn, hg⟩ := hok
    unfold astep asked delayedAck SLOTS
    dsimp only
    cases hf : s.flows fd with
    | none => rw [List.append_nil]; exact ⟨m, hp⟩
    | some fid =>
      dsimp only
      obtain ⟨d1, d2⟩ := adue_bounds now
      have hle : s.last / ares ≤ now / ares := Nat.div_le_div_right hn
      cases hm : s.map (adue now % 256) fd
      · simp only [Bool.false_eq_true, if_false]
        refine ⟨⟨?_, m.lo, ?_, ?_, ?_, ?_, ?_⟩, hp⟩
        · intro k a ha
          dsimp only at ha
          split at ha
          · rename_i hk
            rcases List.mem_append.mp ha with ha | ha
            · subst hk; exact m.slots _ a ha
            · rw [List.mem_singleton] at ha
              subst ha
              dsimp only
              exact ⟨hk, by omega, by omega⟩
          · exact m.slots _ a ha
        · intro k fd' hk
          dsimp only at hk ⊢
          split at hk
          · rename_i hc
            exact ⟨⟨fd, fid, now⟩, by rw [if_pos hc.1]; simp, hc.2.symm⟩
          · obtain ⟨a, ha, h1⟩ := m.map k fd' hk
            refine ⟨a, ?_, h1⟩
            split
            · rename_i hk'; subst hk'; exact List.mem_append_left _ ha
            · exact ha
        · intro k a fid' ha hf'
          dsimp only at ha hf'
          split at ha
          · rcases List.mem_append.mp ha with ha | ha
            · exact m.ids _ a fid' ha hf'
            · rw [List.mem_singleton] at ha
              subst ha
              dsimp only at hf'
              rw [hf] at hf'
              cases hf'
              rfl
          · exact m.ids _ a fid' ha hf'
        · intro r hr
          rcases List.mem_append.mp hr with hr | hr
          · rcases m.req r hr with ⟨k, a, ha, h1, h2⟩ | h1
            · left
              refine ⟨k, a, ?_, h1, h2⟩
              dsimp only
              split
              · rename_i hk; subst hk; exact List.mem_append_left _ ha
              · exact ha
            · exact Or.inr h1
          · rw [List.mem_singleton] at hr
            subst hr
            left
            exact ⟨adue now % 256, ⟨fd, fid, now⟩, by simp, rfl, rfl⟩
        · intro k a ha
          dsimp only at ha
          split at ha
          · rcases List.mem_append.mp ha with ha | ha
            · exact List.mem_append_left _ (m.pend _ a ha)
            · rw [List.mem_singleton] at ha
              subst ha
              exact List.mem_append_right _ (List.mem_singleton.mpr rfl)
          · exact List.mem_append_left _ (m.pend _ a ha)
        · intro y hy
          obtain ⟨t, h1, h2⟩ := m.just y hy
          exact ⟨t, List.mem_append_left _ h1, h2⟩
      · simp only [if_true]
        refine ⟨⟨m.slots, m.lo, m.map, m.ids, ?_, fun k a ha => List.mem_append_left _ (m.pend k a ha), fun y hy => (m.just y hy).imp fun t h => ⟨List.mem_append_left _ h.1, h.2⟩⟩, hp⟩
        intro r hr
        rcases List.mem_append.mp hr with hr | hr
        · exact m.req r hr
        · rw [List.mem_singleton] at hr
          subst hr
          left
          obtain ⟨a, ha, h1⟩ := m.map _ _ hm
          obtain ⟨b, c, d⟩ := m.slots _ _ ha
          refine ⟨_, a, ha, m.ids _ a fid ha (by rw [h1]; exact hf), ?_⟩
          dsimp only
          omega
  | flows f =>
    have hok : ∀ fd fid k a, f fd = some fid → a ∈ s.acks k → a.fd = fd → a.flowId = fid := hok
    unfold astep asked
    rw [List.append_nil]
    exact ⟨⟨m.slots, m.lo, m.map, fun k a fid ha hf => hok a.fd fid k a hf ha rfl, m.req, m.pend, m.just⟩, hp⟩
  | turn now =>
    obtain ⟨hn, hg⟩ := hok
    have hle : s.last / ares ≤ now / ares := Nat.div_le_div_right hn
    unfold astep asked aturn SLOTS
    rw [List.append_nil]
    dsimp only
    have hc : s.last / ares + ((if now / ares % 256 < s.prv then now / ares % 256 + 256 else now / ares % 256) - s.prv) = now / ares := by
      rw [hp]
      split <;> omega
    have m0 : AMid now (s.last / ares) q s := ⟨m.slots, m.lo, m.map, m.ids, m.req, m.pend, m.just⟩
    have hm := amid_visits _ (j := s.prv) m0 (by rw [hp]; omega) (le_of_eq hc)
    rw [hc] at hm
    refine ⟨⟨hm.slots, le_refl _, hm.map, hm.ids, hm.req, hm.pend, hm.just⟩, ?_⟩
    show (if now / ares % 256 < s.prv then now / ares % 256 + 256 else now / ares % 256) % 256 = now / ares % 256
    split <;> omega

theorem ainv_reach {q : List (Nat × Nat)} {s : ASt} (h : AReach s q) : AInv q s := by
  induction h with
  | init now flows =>
    refine ⟨⟨(by intro k a ha; cases ha), le_refl _, (by intro k fd h; cases h), (by intro k a fid ha; cases ha), (by intro r hr; cases hr), (by intro k a ha; cases ha), (by intro y hy; cases hy)⟩, ?_⟩
    show (now / ares - 1) % SLOTS = (now / ares - 1) * ares / ares % 256
    rw [Nat.mul_div_cancel _ ares_pos]
    rfl
  | step _ hok ih => exact ainv_step ih hok

end Ouro.TimerWheel
