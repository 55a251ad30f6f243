import Verif.Spec.RbuffLl
import Verif.Proof.Tac

/-!
# Lemmas for C81: the lockless ring
-/

namespace Ouro.RbuffLl

theorem mod_add (n b d : Nat) (hd : d < n) : (b + d) % n = if b % n + d < n then b % n + d else b % n + d - n := by
  have hb := Nat.mod_lt b (show 0 < n by omega)
  rw [Nat.add_mod, Nat.mod_eq_of_lt hd]
  split
  · rename_i h
    exact Nat.mod_eq_of_lt h
  · rename_i h
    rw [Nat.mod_eq_sub_mod (by omega), Nat.mod_eq_of_lt (by omega)]

theorem used_eq (n a b : Nat) (h1 : b ≤ a) (h2 : a < b + n) : (a % n + n - b % n) % n = a - b := by
  obtain ⟨d, rfl⟩ := Nat.exists_eq_add_of_le h1
  have hb := Nat.mod_lt b (show 0 < n by omega)
  rw [mod_add n b d (by omega)]
  split
  · rw [show b % n + d + n - b % n = d + n by omega, Nat.add_mod_right, Nat.mod_eq_of_lt (by omega)]
    omega
  · rw [show b % n + d - n + n - b % n = d by omega, Nat.mod_eq_of_lt (by omega)]
    omega

theorem mod_ne (n a b : Nat) (h1 : b < a) (h2 : a < b + n) : b % n ≠ a % n := by
  obtain ⟨d, rfl⟩ := Nat.exists_eq_add_of_le (Nat.le_of_lt h1)
  have hb := Nat.mod_lt b (show 0 < n by omega)
  rw [mod_add n b d (by omega)]
  split <;> omega

theorem mod_succ (n a : Nat) : (a % n + 1) % n = (a + 1) % n := by rw [Nat.add_mod a 1, Nat.add_mod (a % n) 1, Nat.mod_mod]

@[simp] theorem written_append (l : List Ev) (e : Ev) : written (l ++ [e]) = written l ++ (match e with | .wrote v => [v] | _ => []) := by
  cases e <;> simp [written]

@[simp] theorem gotten_append (l : List Ev) (e : Ev) : gotten (l ++ [e]) = gotten l ++ (match e with | .got v => [v] | _ => []) := by
  cases e <;> simp [gotten]

/-- The number of values taken from the ring, one of which the reader may hold. -/
def taken (s : St) : Nat := (gotten s.log).length + (match s.pc 1 with | .rGet _ => 1 | _ => 0)

/-- What is known of the writer. -/
def WInv (n : Nat) (s : St) : Prop := match s.pc 0 with
  | .idle => True
  | .wHead _ => True
  | .wTail _ h => h = s.head
  | .wEmptyH _ => (written s.log).length + 2 ≤ taken s + n
  | .wEmptyT _ _ => (written s.log).length + 2 ≤ taken s + n
  | .wLoad _ _ => (written s.log).length + 2 ≤ taken s + n
  | .wStore _ k _ => k = s.head ∧ (written s.log).length + 2 ≤ taken s + n
  | .wCas v o _ => o = s.head ∧ (written s.log).length + 2 ≤ taken s + n ∧ s.cells s.head = v
  | .wWake _ => True
  | _ => False

/-- What is known of the reader. -/
def RInv (n : Nat) (s : St) : Prop := match s.pc 1 with
  | .idle => True
  | .rHead _ => True
  | .rTail _ h => ∃ k, taken s ≤ k ∧ k ≤ (written s.log).length ∧ h = k % n
  | .rLoad => taken s < (written s.log).length
  | .rCas t => t = s.tail ∧ taken s < (written s.log).length
  | .rGet t => t = (gotten s.log).length % n
  | .rLockH => True
  | .rLockT h => ∃ k, taken s ≤ k ∧ k ≤ (written s.log).length ∧ h = k % n
  | .waiting => True
  | _ => False

/-- The invariant with one writer and one reader. -/
structure Inv (n : Nat) (s : St) : Prop where
  head : s.head = (written s.log).length % n
  tail : s.tail = taken s % n
  le : taken s ≤ (written s.log).length
  cap : (written s.log).length < taken s + n
  cells : ∀ i, (gotten s.log).length ≤ i → ∀ h : i < (written s.log).length, s.cells (i % n) = (written s.log)[i]
  pre : gotten s.log <+: written s.log
  w : WInv n s
  r : RInv n s

theorem inv_init (n : Nat) (hn : 2 ≤ n) : Inv n init := by
  refine ⟨?_, ?_, ?_, ?_, ?_, ?_, ?_, ?_⟩ <;> simp [init, written, gotten, taken, WInv, RInv]
  omega

theorem at_same (s : St) (i : Nat) (p : Pc) : (s.at i p).pc i = p := by simp [St.at]

theorem at_other (s : St) (i j : Nat) (p : Pc) (h : j ≠ i) : (s.at i p).pc j = s.pc j := by simp [St.at, h]

/-- The writer moves and changes nothing else. -/
theorem inv_w (n : Nat) (s : St) (hs : Inv n s) (p : Pc) (hw : WInv n (s.at 0 p)) : Inv n (s.at 0 p) := by
  have ht : taken (s.at 0 p) = taken s := by unfold taken; rw [at_other _ _ _ _ (by decide)]; rfl
  refine ⟨hs.head, by rw [ht]; exact hs.tail, by rw [ht]; exact hs.le, by rw [ht]; exact hs.cap, hs.cells, hs.pre, hw, ?_⟩
  have hr := hs.r
  unfold RInv at *
  rw [ht, at_other _ _ _ _ (by decide)]
  exact hr

theorem taken_w (s : St) (p : Pc) : taken (s.at 0 p) = taken s := by unfold taken; rw [at_other _ _ _ _ (by decide)]; rfl

theorem taken_r (s : St) (p : Pc) (h : ∀ t, s.pc 1 ≠ .rGet t) (h' : ∀ t, p ≠ .rGet t) : taken (s.at 1 p) = taken s := by
  unfold taken
  rw [at_same]
  have e1 : (match p with | .rGet _ => 1 | _ => 0) = 0 := by
    cases p <;> first | rfl | exact absurd rfl (h' _)
  have e2 : (match s.pc 1 with | .rGet _ => 1 | _ => 0) = 0 := by
    cases hp : s.pc 1 <;> first | rfl | exact absurd hp (h _)
  rw [e1, e2]
  rfl

/-- The writer does not care for what the reader does, as long as no more than before is in the ring. -/
theorem w_mono (n : Nat) (s s' : St) (hs : WInv n s) (hp : s'.pc 0 = s.pc 0) (hh : s'.head = s.head) (hc : s'.cells = s.cells)
    (hw : (written s'.log).length = (written s.log).length) (ht : taken s ≤ taken s') : WInv n s' := by
  unfold WInv at *
  rw [hp, hh, hc, hw]
  cases hx : s.pc 0 <;> rw [hx] at hs <;> simp only at hs ⊢
  all_goals first | exact hs | omega | exact ⟨hs.1, by omega⟩ | exact ⟨hs.1, by omega, hs.2.2⟩

/-- The reader moves and changes nothing else. -/
theorem inv_r (n : Nat) (s : St) (hs : Inv n s) (p : Pc) (h : ∀ t, s.pc 1 ≠ .rGet t) (h' : ∀ t, p ≠ .rGet t) (hr : RInv n (s.at 1 p)) :
    Inv n (s.at 1 p) := by
  have ht := taken_r s p h h'
  refine ⟨hs.head, by rw [ht]; exact hs.tail, by rw [ht]; exact hs.le, by rw [ht]; exact hs.cap, hs.cells, hs.pre, ?_, hr⟩
  exact w_mono n s _ hs.w (at_other _ _ _ _ (by decide)) rfl rfl rfl (by rw [ht])

theorem inv_wake (n : Nat) (s : St) (hs : Inv n s) (h0 : s.pc 0 ≠ .waiting) : Inv n s.wake := by
  have hp0 : s.wake.pc 0 = s.pc 0 := by simp [St.wake, h0]
  by_cases hp : s.pc 1 = .waiting
  · have hp1 : s.wake.pc 1 = .rLockH := by simp [St.wake, hp]
    have hta : taken s.wake = taken s := by unfold taken; rw [hp1, hp]; rfl
    refine ⟨hs.head, by rw [hta]; exact hs.tail, by rw [hta]; exact hs.le, by rw [hta]; exact hs.cap, hs.cells, hs.pre, ?_, ?_⟩
    · exact w_mono n s _ hs.w hp0 rfl rfl rfl (by rw [hta])
    · unfold RInv
      rw [hp1]
      trivial
  · have hp1 : s.wake.pc 1 = s.pc 1 := by simp [St.wake, hp]
    have hta : taken s.wake = taken s := by unfold taken; rw [hp1]; rfl
    refine ⟨hs.head, by rw [hta]; exact hs.tail, by rw [hta]; exact hs.le, by rw [hta]; exact hs.cap, hs.cells, hs.pre, ?_, ?_⟩
    · exact w_mono n s _ hs.w hp0 rfl rfl rfl (by rw [hta])
    · have hr := hs.r
      unfold RInv at *
      rw [hta, hp1]
      exact hr

theorem inv_go0 (n : Nat) (hn : 2 ≤ n) (s : St) (hs : Inv n s) : Inv n (go n s 0) := by
  have hw := hs.w
  unfold WInv at hw
  unfold go
  cases hp : s.pc 0 with
  | idle => exact hs
  | wHead v => exact inv_w n s hs _ (by simp [WInv, at_same, St.at])
  | wTail v h =>
    rw [hp] at hw
    simp only at hw ⊢
    subst hw
    split
    · rename_i hf
      refine inv_w n s hs _ ?_
      unfold WInv
      rw [at_same, taken_w]
      have hu := used_eq n _ _ hs.le hs.cap
      rw [← hs.head, ← hs.tail] at hu
      rw [hu] at hf
      have := hs.le
      show (written s.log).length + 2 ≤ _
      omega
    · have h0 := inv_w n s hs .idle (by simp [WInv, at_same])
      have hwr : written (s.ret 0 (.full v)).log = written s.log := by simp [St.ret]
      have hgo : gotten (s.ret 0 (.full v)).log = gotten s.log := by simp [St.ret]
      have hta : taken (s.ret 0 (.full v)) = taken (s.at 0 .idle) := by unfold taken; rw [hgo]; rfl
      refine ⟨by rw [hwr]; exact h0.head, by rw [hta]; exact h0.tail, by rw [hta, hwr]; exact h0.le, by rw [hta, hwr]; exact h0.cap, ?_, ?_, ?_, ?_⟩
      · intro i hi hlt
        rw [hgo] at hi
        simp only [hwr] at hlt ⊢
        exact h0.cells i hi hlt
      · rw [hwr, hgo]; exact h0.pre
      · simp [WInv, St.ret, St.at]
      · have hr := h0.r
        unfold RInv at *
        rw [hta, hwr, hgo]
        exact hr
  | wEmptyH v =>
    rw [hp] at hw
    exact inv_w n s hs _ (by unfold WInv; rw [at_same, taken_w]; exact hw)
  | wEmptyT v h =>
    rw [hp] at hw
    exact inv_w n s hs _ (by unfold WInv; rw [at_same, taken_w]; exact hw)
  | wLoad v we =>
    rw [hp] at hw
    exact inv_w n s hs _ (by unfold WInv; rw [at_same, taken_w]; exact ⟨rfl, hw⟩)
  | wStore v k we =>
    rw [hp] at hw
    simp only at hw ⊢
    obtain ⟨rfl, hw⟩ := hw
    have hc : Inv n { s with cells := fun j => if j = s.head then v else s.cells j } := by
      refine ⟨hs.head, hs.tail, hs.le, hs.cap, ?_, hs.pre, ?_, hs.r⟩
      · intro i hi hlt
        change (gotten s.log).length ≤ i at hi
        change i < (written s.log).length at hlt
        have hg : taken s ≤ (gotten s.log).length + 1 := by unfold taken; split <;> omega
        have hne : i % n ≠ s.head := by
          rw [hs.head]
          exact mod_ne n _ _ hlt (by
            have : (written s.log).length + 2 ≤ taken s + n := hw
            omega)
        show (if i % n = s.head then v else s.cells (i % n)) = _
        rw [if_neg hne]
        exact hs.cells i hi hlt
      · unfold WInv
        simp only [hp]
        exact ⟨trivial, hw⟩
    refine inv_w n _ hc _ ?_
    unfold WInv
    rw [at_same, taken_w]
    exact ⟨rfl, hw, by simp [St.at]⟩
  | wCas v o we =>
    rw [hp] at hw
    simp only at hw ⊢
    obtain ⟨rfl, hw, hv⟩ := hw
    rw [if_pos rfl]
    set s' : St := { { s with head := (s.head + 1) % n }.at 0 (.wWake we) with log := s.log ++ [.wrote v] } with hs'
    have hwr : written s'.log = written s.log ++ [v] := by simp [hs']
    have hgo : gotten s'.log = gotten s.log := by simp [hs']
    have hp1 : s'.pc 1 = s.pc 1 := by simp [hs', St.at]
    have hta : taken s' = taken s := by unfold taken; rw [hgo, hp1]
    have hle := hs.le
    refine ⟨?_, by rw [hta]; exact hs.tail, by rw [hta, hwr]; simp; omega, by rw [hta, hwr]; simp; omega, ?_, ?_, ?_, ?_⟩
    · show (s.head + 1) % n = _
      rw [hwr, hs.head, mod_succ]
      simp
    · intro i hi hlt
      rw [hgo] at hi
      simp only [hwr] at hlt ⊢
      show s.cells (i % n) = _
      by_cases hi2 : i < (written s.log).length
      · rw [List.getElem_append_left hi2]
        exact hs.cells i hi hi2
      · simp at hlt
        have : i = (written s.log).length := by omega
        subst this
        rw [← hs.head, hv]
        simp
    · rw [hgo, hwr]
      exact hs.pre.trans (List.prefix_append _ _)
    · simp [WInv, hs', St.at]
    · have hr := hs.r
      unfold RInv at *
      rw [hta, hp1, hwr, hgo]
      cases hx : s.pc 1 <;> rw [hx] at hr <;> simp only at hr ⊢
      all_goals first
        | exact hr
        | (obtain ⟨k, h1, h2, h3⟩ := hr; exact ⟨k, h1, by simp; omega, h3⟩)
        | (simp; omega)
        | exact ⟨hr.1, by have := hr.2; simp; omega⟩
  | wWake we =>
    have h0 : Inv n (if we then s.wake else s) := by
      cases we with
      | false => exact hs
      | true => exact inv_wake n s hs (by simp [hp])
    exact inv_w n _ h0 _ (by simp [WInv, at_same])
  | _ => rw [hp] at hw; exact absurd hw (by simp)

theorem inv_go1 (n : Nat) (hn : 2 ≤ n) (s : St) (hs : Inv n s) : Inv n (go n s 1) := by
  have hr := hs.r
  unfold RInv at hr
  unfold go
  cases hp : s.pc 1 with
  | idle => exact hs
  | waiting => exact hs
  | rHead b =>
    refine inv_r n s hs _ (by simp [hp]) (by simp) ?_
    unfold RInv
    rw [at_same, taken_r _ _ (by simp [hp]) (by simp)]
    exact ⟨_, hs.le, Nat.le_refl _, hs.head⟩
  | rLockH =>
    refine inv_r n s hs _ (by simp [hp]) (by simp) ?_
    unfold RInv
    rw [at_same, taken_r _ _ (by simp [hp]) (by simp)]
    exact ⟨_, hs.le, Nat.le_refl _, hs.head⟩
  | rTail b h =>
    rw [hp] at hr
    obtain ⟨k, h1, h2, h3⟩ := hr
    simp only
    split
    · cases b with
      | true => exact inv_r n s hs _ (by simp [hp]) (by simp) (by simp [RInv, at_same])
      | false =>
        change Inv n (s.ret 1 .empty)
        have h0 := inv_r n s hs .idle (by simp [hp]) (by simp) (by simp [RInv, at_same])
        have hwr : written (s.ret 1 .empty).log = written s.log := by simp [St.ret]
        have hgo : gotten (s.ret 1 .empty).log = gotten s.log := by simp [St.ret]
        have hta : taken (s.ret 1 .empty) = taken (s.at 1 .idle) := by unfold taken; rw [hgo]; rfl
        refine ⟨by rw [hwr]; exact h0.head, by rw [hta]; exact h0.tail, by rw [hta, hwr]; exact h0.le, by rw [hta, hwr]; exact h0.cap, ?_, ?_, ?_, ?_⟩
        · intro i hi hlt
          rw [hgo] at hi
          simp only [hwr] at hlt ⊢
          exact h0.cells i hi hlt
        · rw [hwr, hgo]; exact h0.pre
        · exact w_mono n _ _ h0.w rfl rfl rfl (by rw [hwr]; first | done | rfl) (by rw [hta])
        · simp [RInv, St.ret, St.at]
    · rename_i hne
      refine inv_r n s hs _ (by simp [hp]) (by simp) ?_
      unfold RInv
      rw [at_same, taken_r _ _ (by simp [hp]) (by simp)]
      have : taken s ≠ k := fun e => hne (by rw [h3, hs.tail, e])
      show taken s < (written s.log).length
      omega
  | rLockT h =>
    simp only
    split
    · exact inv_r n s hs _ (by simp [hp]) (by simp) (by simp [RInv, at_same])
    · exact inv_r n s hs _ (by simp [hp]) (by simp) (by simp [RInv, at_same])
  | rLoad =>
    rw [hp] at hr
    refine inv_r n s hs _ (by simp [hp]) (by simp) ?_
    unfold RInv
    rw [at_same, taken_r _ _ (by simp [hp]) (by simp)]
    exact ⟨rfl, hr⟩
  | rCas t =>
    rw [hp] at hr
    simp only at hr ⊢
    obtain ⟨rfl, hlt⟩ := hr
    rw [if_pos rfl]
    have htk : taken s = (gotten s.log).length := by unfold taken; rw [hp]; rfl
    have hta : taken ({ s with tail := (s.tail + 1) % n }.at 1 (.rGet s.tail)) = taken s + 1 := by
      unfold taken
      rw [at_same, hp]
      rfl
    refine ⟨hs.head, ?_, by rw [hta]; exact hlt, by rw [hta]; have := hs.cap; show (written s.log).length < _; omega, hs.cells, hs.pre, ?_, ?_⟩
    · rw [hta]
      show (s.tail + 1) % n = _
      rw [hs.tail, mod_succ]
    · exact w_mono n s _ hs.w (by simp [St.at]) rfl rfl rfl (by rw [hta]; omega)
    · unfold RInv
      rw [at_same]
      show s.tail = (gotten s.log).length % n
      rw [hs.tail, htk]
  | rGet t =>
    rw [hp] at hr
    simp only at hr ⊢
    have htk : taken s = (gotten s.log).length + 1 := by unfold taken; rw [hp]
    have hlt : (gotten s.log).length < (written s.log).length := by have := hs.le; omega
    have hv := hs.cells _ (Nat.le_refl _) hlt
    rw [← hr] at hv
    have hwr : written (s.ret 1 (.got (s.cells t))).log = written s.log := by simp [St.ret]
    have hgo : gotten (s.ret 1 (.got (s.cells t))).log = gotten s.log ++ [s.cells t] := by simp [St.ret]
    have hta : taken (s.ret 1 (.got (s.cells t))) = taken s := by
      rw [htk]
      unfold taken
      rw [hgo]
      simp [St.ret, St.at]
    refine ⟨by rw [hwr]; exact hs.head, by rw [hta]; exact hs.tail, by rw [hta, hwr]; exact hs.le, by rw [hta, hwr]; exact hs.cap, ?_, ?_, ?_, ?_⟩
    · intro i hi hl
      rw [hgo] at hi
      simp only [hwr] at hl ⊢
      exact hs.cells i (by simp at hi; omega) hl
    · rw [hwr, hgo, hv]
      obtain ⟨rest, hrest⟩ := hs.pre
      have hne : rest ≠ [] := by rintro rfl; rw [List.append_nil] at hrest; rw [hrest] at hlt; omega
      obtain ⟨x, rest', rfl⟩ := List.exists_cons_of_ne_nil hne
      have hx : (written s.log)[(gotten s.log).length] = x := by
        simp only [← hrest]
        simp
      rw [hx]
      exact ⟨rest', by rw [List.append_assoc]; exact hrest⟩
    · exact w_mono n s _ hs.w (by simp [St.ret, St.at]) rfl rfl (by rw [hwr]) (by rw [hta])
    · simp [RInv, St.ret, St.at]
  | _ => rw [hp] at hr; exact absurd hr (by simp)

theorem inv_step (n : Nat) (hn : 2 ≤ n) (s : St) (hs : Inv n s) (x : Nat × Act)
    (hx : x.1 = 0 ∧ (x.2 = .go ∨ ∃ v, x.2 = .write v) ∨ x.1 = 1 ∧ (x.2 = .go ∨ x.2 = .read ∨ x.2 = .readB)) : Inv n (step n s x) := by
  obtain ⟨i, a⟩ := x
  simp only at hx
  rcases hx with ⟨rfl, rfl | ⟨v, rfl⟩⟩ | ⟨rfl, rfl | rfl | rfl⟩
  · exact inv_go0 n hn s hs
  · simp only [step]
    split
    · exact inv_w n s hs _ (by simp [WInv, at_same])
    · exact hs
  · exact inv_go1 n hn s hs
  · simp only [step]
    split
    · rename_i h
      exact inv_r n s hs _ (by simp [h]) (by simp) (by simp [RInv, at_same])
    · exact hs
  · simp only [step]
    split
    · rename_i h
      exact inv_r n s hs _ (by simp [h]) (by simp) (by simp [RInv, at_same])
    · exact hs

theorem inv_run (n : Nat) (hn : 2 ≤ n) (l : List (Nat × Act)) (h : Two l) : Inv n (run n l) := by
  unfold run
  have : ∀ (l : List (Nat × Act)) (s : St), Two l → Inv n s → Inv n (l.foldl (step n) s) := by
    intro l
    induction l with
    | nil => intro s _ hs; exact hs
    | cons x l ih =>
      intro s hl hs
      exact ih _ (fun y hy => hl y (by simp [hy])) (inv_step n hn s hs x (hl x (by simp)))
  exact this l init h (inv_init n hn)

/-- A step of the writer takes nothing, and leaves the reader where it is unless it wakes it. -/
theorem go0_facts (n : Nat) (hn : 2 ≤ n) (s : St) (hs : Inv n s) : taken (go n s 0) = taken s ∧ (written s.log).length ≤ (written (go n s 0).log).length ∧
    ((go n s 0).pc 1 = s.pc 1 ∨ (go n s 0).pc 1 = .rLockH) := by
  have hw := hs.w
  unfold WInv at hw
  have ht : ∀ s' : St, gotten s'.log = gotten s.log → s'.pc 1 = s.pc 1 → taken s' = taken s := by
    intro s' h1 h2
    unfold taken
    rw [h1, h2]
  unfold go
  cases hp : s.pc 0 with
  | wTail v h =>
    simp only
    split
    · exact ⟨taken_w _ _, Nat.le_refl _, .inl (at_other _ _ _ _ (by decide))⟩
    · exact ⟨ht _ (by simp [St.ret]) (by simp [St.ret, St.at]), by simp [St.ret], .inl (by simp [St.ret, St.at])⟩
  | wCas v o we =>
    simp only
    split
    · exact ⟨ht _ (by simp) (by simp [St.at]), by simp, .inl (by simp [St.at])⟩
    · exact ⟨taken_w _ _, Nat.le_refl _, .inl (at_other _ _ _ _ (by decide))⟩
  | wWake we =>
    cases we with
    | false => exact ⟨taken_w _ _, Nat.le_refl _, .inl (at_other _ _ _ _ (by decide))⟩
    | true =>
      by_cases h1 : s.pc 1 = .waiting
      · refine ⟨?_, Nat.le_refl _, .inr (by simp [St.at, St.wake, h1])⟩
        unfold taken
        simp [St.at, St.wake, h1]
      · refine ⟨?_, Nat.le_refl _, .inl (by simp [St.at, St.wake, h1])⟩
        unfold taken
        simp [St.at, St.wake, h1]
  | wStore v k we => exact ⟨ht _ rfl (at_other _ _ _ _ (by decide)), Nat.le_refl _, .inl (at_other _ _ _ _ (by decide))⟩
  | idle => exact ⟨rfl, Nat.le_refl _, .inl rfl⟩
  | wHead v => exact ⟨taken_w _ _, Nat.le_refl _, .inl (at_other _ _ _ _ (by decide))⟩
  | wEmptyH v => exact ⟨taken_w _ _, Nat.le_refl _, .inl (at_other _ _ _ _ (by decide))⟩
  | wEmptyT v h => exact ⟨taken_w _ _, Nat.le_refl _, .inl (at_other _ _ _ _ (by decide))⟩
  | wLoad v we => exact ⟨taken_w _ _, Nat.le_refl _, .inl (at_other _ _ _ _ (by decide))⟩
  | _ => rw [hp] at hw; exact absurd hw (by simp)

/-- At least `m` values were written, and a read that looks for values has seen all of these. -/
def Saw (n m : Nat) (s : St) : Prop := m ≤ (written s.log).length ∧ match s.pc 1 with
  | .rTail _ h => ∃ k, m ≤ k ∧ taken s ≤ k ∧ k ≤ (written s.log).length ∧ h = k % n
  | _ => True

theorem saw_of_ne (n m : Nat) (s : St) (h : m ≤ (written s.log).length) (hp : ∀ b k, s.pc 1 ≠ .rTail b k) : Saw n m s := by
  refine ⟨h, ?_⟩
  cases hx : s.pc 1 <;> first | trivial | exact absurd hx (hp _ _)

theorem saw_go1 (n m : Nat) (s : St) (hs : Inv n s) (hm : Saw n m s) : Saw n m (go n s 1) := by
  have hr := hs.r
  unfold RInv at hr
  have hm1 := hm.1
  unfold go
  cases hp : s.pc 1 with
  | rHead b =>
    refine ⟨hm1, ?_⟩
    rw [at_same, taken_r _ _ (by simp [hp]) (by simp)]
    exact ⟨_, hm1, hs.le, Nat.le_refl _, hs.head⟩
  | rTail b h =>
    simp only
    split
    · cases b
      · exact saw_of_ne _ _ _ (by simpa [St.ret] using hm1) (by simp [St.ret, St.at])
      · exact saw_of_ne _ _ _ hm1 (by simp [St.at])
    · exact saw_of_ne _ _ _ hm1 (by simp [St.at])
  | rLockT h =>
    simp only
    split <;> exact saw_of_ne _ _ _ hm1 (by simp [St.at])
  | rCas t =>
    simp only
    split <;> exact saw_of_ne _ _ _ hm1 (by simp [St.at])
  | rGet t => exact saw_of_ne _ _ _ (by simpa [St.ret] using hm1) (by simp [St.ret, St.at])
  | idle => exact hm
  | waiting => exact hm
  | rLoad => exact saw_of_ne _ _ _ hm1 (by simp [St.at])
  | rLockH => exact saw_of_ne _ _ _ hm1 (by simp [St.at])
  | _ => rw [hp] at hr; exact absurd hr (by simp)

theorem saw_go0 (n m : Nat) (hn : 2 ≤ n) (s : St) (hs : Inv n s) (hm : Saw n m s) : Saw n m (go n s 0) := by
  obtain ⟨h1, h2, h3⟩ := go0_facts n hn s hs
  refine ⟨Nat.le_trans hm.1 h2, ?_⟩
  have hm2 := hm.2
  rw [h1]
  rcases h3 with h3 | h3 <;> rw [h3]
  · cases hx : s.pc 1 <;> rw [hx] at hm2 <;> simp only at hm2 ⊢
    obtain ⟨k, a, b, c, d⟩ := hm2
    exact ⟨k, a, b, Nat.le_trans c h2, d⟩
  · trivial

theorem saw_step (n m : Nat) (hn : 2 ≤ n) (s : St) (hs : Inv n s) (hm : Saw n m s) (x : Nat × Act)
    (hx : x.1 = 0 ∧ (x.2 = .go ∨ ∃ v, x.2 = .write v) ∨ x.1 = 1 ∧ (x.2 = .go ∨ x.2 = .read ∨ x.2 = .readB)) : Saw n m (step n s x) := by
  obtain ⟨i, a⟩ := x
  simp only at hx
  rcases hx with ⟨rfl, rfl | ⟨v, rfl⟩⟩ | ⟨rfl, rfl | rfl | rfl⟩
  · exact saw_go0 n m hn s hs hm
  · simp only [step]
    split
    · refine ⟨hm.1, ?_⟩
      rw [at_other _ _ _ _ (by decide), taken_w]
      exact hm.2
    · exact hm
  · exact saw_go1 n m s hs hm
  · simp only [step]
    split
    · exact saw_of_ne _ _ _ hm.1 (by simp [St.at])
    · exact hm
  · simp only [step]
    split
    · exact saw_of_ne _ _ _ hm.1 (by simp [St.at])
    · exact hm

theorem saw_run (n m : Nat) (hn : 2 ≤ n) (l : List (Nat × Act)) : ∀ s, Two l → Inv n s → Saw n m s → Inv n (l.foldl (step n) s) ∧ Saw n m (l.foldl (step n) s) := by
  induction l with
  | nil => intro s _ h1 h2; exact ⟨h1, h2⟩
  | cons x l ih =>
    intro s hl h1 h2
    have hx := hl x (by simp)
    exact ih _ (fun y hy => hl y (by simp [hy])) (inv_step n hn s h1 x hx) (saw_step n m hn s h1 h2 x hx)

/-- The reader sleeps, the ring has values, and the writer will not wake it. -/
def Stuck (n : Nat) (s : St) : Prop := s.pc 1 = .waiting ∧ (gotten s.log).length < (written s.log).length ∧ match s.pc 0 with
  | .wEmptyT _ h => h = s.head
  | .wLoad _ we => we = false
  | .wStore _ _ we => we = false
  | .wCas _ _ we => we = false
  | .wWake we => we = false
  | _ => True

theorem stuck_step (n : Nat) (hn : 2 ≤ n) (s : St) (hs : Inv n s) (hk : Stuck n s) (x : Nat × Act)
    (hx : x.1 = 0 ∧ (x.2 = .go ∨ ∃ v, x.2 = .write v) ∨ x.1 = 1 ∧ (x.2 = .go ∨ x.2 = .read ∨ x.2 = .readB)) : Stuck n (step n s x) := by
  obtain ⟨k1, k2, k3⟩ := hk
  have hw := hs.w
  unfold WInv at hw
  obtain ⟨i, a⟩ := x
  simp only at hx
  rcases hx with ⟨rfl, rfl | ⟨v, rfl⟩⟩ | ⟨rfl, rfl | rfl | rfl⟩
  · show Stuck n (go n s 0)
    unfold go
    cases hp : s.pc 0 with
    | idle => simp only; exact ⟨k1, k2, by rw [hp]; trivial⟩
    | wHead v => exact ⟨by simp [St.at, k1], k2, by simp [St.at]⟩
    | wTail v h =>
      simp only
      split
      · exact ⟨by simp [St.at, k1], k2, by simp [St.at]⟩
      · exact ⟨by simp [St.ret, St.at, k1], by simpa [St.ret] using k2, by simp [St.ret, St.at]⟩
    | wEmptyH v => exact ⟨by simp [St.at, k1], k2, by simp [St.at]⟩
    | wEmptyT v h =>
      rw [hp] at k3
      simp only at k3 ⊢
      subst k3
      refine ⟨by simp [St.at, k1], k2, ?_⟩
      rw [at_same]
      have htk : taken s = (gotten s.log).length := by unfold taken; rw [k1]; rfl
      have hc := hs.cap
      have : s.head ≠ s.tail := by
        rw [hs.head, hs.tail]
        exact (mod_ne n _ _ (by omega) (by omega)).symm
      simp [this]
    | wLoad v we =>
      rw [hp] at k3
      exact ⟨by simp [St.at, k1], k2, by rw [at_same]; exact k3⟩
    | wStore v k we =>
      rw [hp] at k3
      exact ⟨by simp [St.at, k1], k2, by rw [at_same]; exact k3⟩
    | wCas v o we =>
      rw [hp] at k3
      simp only
      split
      · exact ⟨by simp [St.at, k1], by simp; omega, by simp only [at_same]; exact k3⟩
      · exact ⟨by simp [St.at, k1], k2, by rw [at_same]; exact k3⟩
    | wWake we =>
      rw [hp] at k3
      simp only at k3
      subst k3
      exact ⟨by simp [St.at, k1], k2, by simp [St.at]⟩
    | _ => rw [hp] at hw; exact absurd hw (by simp)
  · simp only [step]
    split
    · exact ⟨by simp [St.at, k1], k2, by simp [St.at]⟩
    · exact ⟨k1, k2, k3⟩
  · show Stuck n (go n s 1)
    unfold go
    rw [k1]
    exact ⟨k1, k2, k3⟩
  · simp only [step]
    rw [if_neg (by rw [k1]; simp)]
    exact ⟨k1, k2, k3⟩
  · simp only [step]
    rw [if_neg (by rw [k1]; simp)]
    exact ⟨k1, k2, k3⟩

theorem stuck_run (n : Nat) (hn : 2 ≤ n) (l : List (Nat × Act)) : ∀ s, Two l → Inv n s → Stuck n s → Stuck n (l.foldl (step n) s) := by
  induction l with
  | nil => intro s _ _ h; exact h
  | cons x l ih =>
    intro s hl h1 h2
    have hx := hl x (by simp)
    exact ih _ (fun y hy => hl y (by simp [hy])) (inv_step n hn s h1 x hx) (stuck_step n hn s h1 h2 x hx)

theorem go_log (n : Nat) (s : St) (i : Nat) : s.log <+: (go n s i).log := by
  unfold go
  cases s.pc i <;> simp only
  all_goals first | exact List.prefix_refl _ | (split <;> first | exact List.prefix_refl _ | exact List.prefix_append _ _ | (split <;> first | exact List.prefix_refl _ | exact List.prefix_append _ _)) | exact List.prefix_append _ _

theorem step_log (n : Nat) (s : St) (x : Nat × Act) : s.log <+: (step n s x).log := by
  unfold step
  split
  · exact go_log n s x.1
  all_goals (split <;> exact List.prefix_refl _)

theorem written_mono (n : Nat) (l l' : List (Nat × Act)) : written (run n l).log <+: written (run n (l ++ l')).log := by
  have : ∀ (l' : List (Nat × Act)) (s : St), s.log <+: (l'.foldl (step n) s).log := by
    intro l'
    induction l' with
    | nil => intro s; exact List.prefix_refl _
    | cons x l' ih => intro s; exact (step_log n s x).trans (ih _)
  have h := this l' (run n l)
  have e : run n (l ++ l') = l'.foldl (step n) (run n l) := by unfold run; rw [List.foldl_append]
  rw [e]
  exact h.filterMap _

end Ouro.RbuffLl
