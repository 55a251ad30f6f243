import Verif.Spec.Oping
import Verif.Proof.Tac
import Mathlib.Tactic.FieldSimp

/-!
# Lemmas for C83
-/

namespace Ouro.Oping

/-- The statistics after replies. -/
def stats (xs : List (Nat × ℚ)) (s : Stats) : Stats := xs.foldl (fun s x => s.reply x.1 x.2) s

theorem reader_eq (count : Nat) (l : List In) : ∀ s, s.rcvd ≤ count → reader count l s = stats ((valid count l).take (count - s.rcvd)) s := by
  induction l with
  | nil => intro s _; simp [reader, valid, stats]
  | cons x l ih =>
    intro s hs
    simp only [reader]
    split
    · rename_i h
      simp [h, stats]
    · rename_i h
      cases x with
      | timeout => simp [valid, stats]
      | err => simp only [valid]; exact ih s hs
      | msg m now =>
        simp only [valid]
        by_cases h1 : m.type = 1
        · by_cases h2 : count ≤ m.id
          · rw [if_neg (by simp [h1]), if_pos h2, if_neg (by omega)]
            exact ih s hs
          · rw [if_neg (by simp [h1]), if_neg h2, if_pos ⟨h1, by omega⟩, ih _ (by show s.rcvd + 1 ≤ count; omega)]
            obtain ⟨k, hk⟩ : ∃ k, count - s.rcvd = k + 1 := ⟨count - s.rcvd - 1, by omega⟩
            rw [hk, List.take_succ_cons, show count - (s.reply m.id ((diffUs m.sent now : ℚ) / 1000)).rcvd = k by show count - (s.rcvd + 1) = k; omega]
            rfl
        · rw [if_pos h1, if_neg (by tauto)]
          exact ih s hs

theorem stats_snoc (xs : List (Nat × ℚ)) (x : Nat × ℚ) (s : Stats) : stats (xs ++ [x]) s = (stats xs s).reply x.1 x.2 := by
  simp [stats]

theorem late_snoc (ids : List Nat) (x : Nat) : late (ids ++ [x]) = late ids + if (∃ y ∈ ids, x ≤ y) then 1 else 0 := by
  unfold late
  rw [List.length_append, List.length_singleton, List.range_succ, List.countP_append]
  congr 1
  · apply List.countP_congr
    intro i hi
    have hi := List.mem_range.1 hi
    simp only [decide_eq_true_eq]
    constructor
    · rintro ⟨j, hj, h⟩
      refine ⟨j, hj, ?_⟩
      rwa [List.getD_append _ _ _ _ hi, List.getD_append _ _ _ _ (by omega)] at h
    · rintro ⟨j, hj, h⟩
      refine ⟨j, hj, ?_⟩
      rwa [List.getD_append _ _ _ _ hi, List.getD_append _ _ _ _ (by omega)]
  · simp only [List.countP_cons, List.countP_nil, decide_eq_true_eq, Nat.zero_add]
    have hx : (ids ++ [x]).getD ids.length 0 = x := by simp
    have : (∃ j < ids.length, (ids ++ [x]).getD ids.length 0 ≤ (ids ++ [x]).getD j 0) ↔ ∃ y ∈ ids, x ≤ y := by
      rw [hx]
      constructor
      · rintro ⟨j, hj, h⟩
        rw [List.getD_append _ _ _ _ hj, List.getD_eq_getElem _ _ hj] at h
        exact ⟨_, List.getElem_mem hj, h⟩
      · rintro ⟨y, hy, h⟩
        obtain ⟨j, hj, rfl⟩ := List.getElem_of_mem hy
        exact ⟨j, hj, by rwa [List.getD_append _ _ _ _ hj, List.getD_eq_getElem _ _ hj]⟩
    simp only [this]

theorem stats_counts (xs : List (Nat × ℚ)) : (stats xs .init).rcvd = xs.length ∧ (stats xs .init).ooo = late (xs.map Prod.fst) ∧
    (∀ y ∈ xs, y.1 < (stats xs .init).exp) ∧ ((stats xs .init).exp = 0 ∨ ∃ y ∈ xs, y.1 + 1 = (stats xs .init).exp) := by
  induction xs using List.reverseRecOn with
  | nil => simp [stats, Stats.init, late]
  | append_singleton xs x ih =>
    obtain ⟨h1, h2, h3, h4⟩ := ih
    rw [stats_snoc, List.map_append, List.map_singleton, late_snoc]
    generalize stats xs .init = s at *
    refine ⟨by simp [Stats.reply, h1], ?_, ?_, ?_⟩
    · have hiff : (∃ y ∈ xs.map Prod.fst, x.1 ≤ y) ↔ x.1 < s.exp := by
        constructor
        · rintro ⟨y, hy, h⟩
          obtain ⟨z, hz, rfl⟩ := List.mem_map.1 hy
          have := h3 z hz
          omega
        · intro h
          rcases h4 with h4 | ⟨y, hy, h4⟩
          · omega
          · exact ⟨y.1, List.mem_map.2 ⟨y, hy, rfl⟩, by omega⟩
      simp only [Stats.reply, hiff, ← h2]
      split <;> simp
    · intro y hy
      simp only [Stats.reply]
      rcases List.mem_append.1 hy with hy | hy
      · have := h3 y hy
        split <;> omega
      · simp at hy
        subst hy
        split <;> omega
    · simp only [Stats.reply]
      split
      · exact .inr ⟨x, by simp, rfl⟩
      · rcases h4 with h4 | ⟨y, hy, h4⟩
        · exact .inl h4
        · exact .inr ⟨y, by simp [hy], h4⟩

theorem stats_extremes (xs : List (Nat × ℚ)) : (∀ y ∈ xs, (stats xs .init).min ≤ y.2) ∧ ((stats xs .init).min = fltMax ∨ ∃ y ∈ xs, y.2 = (stats xs .init).min) ∧
    (stats xs .init).min ≤ fltMax ∧
    (∀ y ∈ xs, y.2 ≤ (stats xs .init).max) ∧ ((stats xs .init).max = 0 ∨ ∃ y ∈ xs, y.2 = (stats xs .init).max) ∧ 0 ≤ (stats xs .init).max := by
  induction xs using List.reverseRecOn with
  | nil => simp [stats, Stats.init]
  | append_singleton xs x ih =>
    obtain ⟨h1, h2, h3, h4, h5, h6⟩ := ih
    rw [stats_snoc]
    generalize stats xs .init = s at *
    refine ⟨?_, ?_, ?_, ?_, ?_, ?_⟩
    · intro y hy
      simp only [Stats.reply]
      rcases List.mem_append.1 hy with hy | hy
      · have := h1 y hy
        split <;> linarith
      · simp at hy
        subst hy
        split <;> linarith
    · simp only [Stats.reply]
      split
      · exact .inr ⟨x, by simp, rfl⟩
      · rcases h2 with h2 | ⟨y, hy, h2⟩
        · exact .inl h2
        · exact .inr ⟨y, by simp [hy], h2⟩
    · simp only [Stats.reply]
      split <;> linarith
    · intro y hy
      simp only [Stats.reply]
      rcases List.mem_append.1 hy with hy | hy
      · have := h4 y hy
        split <;> linarith
      · simp at hy
        subst hy
        split <;> linarith
    · simp only [Stats.reply]
      split
      · exact .inr ⟨x, by simp, rfl⟩
      · rcases h5 with h5 | ⟨y, hy, h5⟩
        · exact .inl h5
        · exact .inr ⟨y, by simp [hy], h5⟩
    · simp only [Stats.reply]
      split <;> linarith

theorem stats_moments (xs : List (Nat × ℚ)) : (stats xs .init).avg * xs.length = (xs.map Prod.snd).sum ∧
    (stats xs .init).m2 = ((xs.map Prod.snd).map fun x => x ^ 2).sum - (stats xs .init).avg * (xs.map Prod.snd).sum := by
  induction xs using List.reverseRecOn with
  | nil => simp [stats, Stats.init]
  | append_singleton xs x ih =>
    obtain ⟨h1, h2⟩ := ih
    have hr := (stats_counts xs).1
    rw [stats_snoc]
    generalize stats xs .init = s at *
    simp only [Stats.reply, List.map_append, List.map_cons, List.map_nil, List.sum_append, List.sum_cons, List.sum_nil, List.length_append, List.length_cons, List.length_nil]
    generalize (List.map (fun x => x ^ 2) (List.map Prod.snd xs)).sum = Q at *
    generalize (List.map Prod.snd xs).sum = S at *
    rw [hr]
    push_cast
    have hn : ((xs.length : ℚ) + 1) ≠ 0 := by positivity
    generalize (xs.length : ℚ) = n at *
    constructor
    · rw [← h1]
      field_simp
      ring
    · rw [h2, ← h1]
      field_simp
      ring

theorem squares_eq (xs : List ℚ) (a : ℚ) : (xs.map fun x => (x - a) ^ 2).sum = (xs.map fun x => x ^ 2).sum - 2 * a * xs.sum + xs.length * a ^ 2 := by
  induction xs with
  | nil => simp
  | cons x xs ih =>
    simp only [List.map_cons, List.sum_cons, List.length_cons, ih]
    push_cast
    ring

theorem writer_facts (count : Nat) (l : List (Bool × Time)) : ∀ k, k ≤ count → (writer count l k).1.map Msg.id = List.range' k (writer count l k).1.length ∧
    (∀ m ∈ (writer count l k).1, m.type = 0) ∧ k + (writer count l k).1.length ≤ (writer count l k).2 ∧ (writer count l k).2 ≤ k + (writer count l k).1.length + 1 ∧
    (writer count l k).2 ≤ count ∧ ((∀ x ∈ l, x.1 = true) → (writer count l k).2 = k + (writer count l k).1.length) := by
  induction l with
  | nil => intro k hk; simp [writer, hk]
  | cons x l ih =>
    intro k hk
    obtain ⟨ok, now⟩ := x
    simp only [writer]
    split
    · rename_i h
      cases ok with
      | false => simp; omega
      | true =>
        obtain ⟨h1, h2, h3, h4, h5, h6⟩ := ih (k + 1) (by omega)
        simp only [if_true, List.map_cons, List.length_cons, h1]
        refine ⟨by rw [List.range'_succ], ?_, by omega, by omega, h5, ?_⟩
        · intro m hm
          rcases List.mem_cons.1 hm with rfl | hm
          · rfl
          · exact h2 m hm
        · intro hall
          rw [h6 (fun y hy => hall y (by simp [hy]))]
          omega
    · simp; exact hk

end Ouro.Oping
