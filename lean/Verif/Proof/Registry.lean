import Verif.Model.Registry
import Verif.Spec.Registry
import Verif.Proof.Bitmap
import Verif.Proof.Tac
import Mathlib.Data.List.Nodup
import Mathlib.Data.List.Perm.Basic

/-!
# Lists of the registry: insertion, lookup, updates in place
-/

namespace Ouro.Registry

@[simp] theorem assert_true : assert true = .ok () := rfl
@[simp] theorem assert_false : assert false = .ub := rfl

theorem assert_bind {β : Type} {b : Bool} {f : Unit → Outcome β} {x : β} :
    (assert b >>= f) = .ok x ↔ b = true ∧ f () = .ok x := by
  cases b <;> simp

theorem bind_eq_ok {α β : Type} {a : Outcome α} {f : α → Outcome β} {x : β} :
    (a >>= f) = .ok x ↔ ∃ y, a = .ok y ∧ f y = .ok x := by
  cases a <;> simp

theorem addAfter_perm {α : Type} (gt : α → Bool) (x : α) (l : List α) : (addAfter gt x l).Perm (x :: l) := by
  unfold addAfter
  split
  · have h : l = l.takeWhile (fun e => !gt e) ++ ((l.dropWhile (fun e => !gt e)).take 1 ++
        (l.dropWhile (fun e => !gt e)).drop 1) := by
      rw [List.take_append_drop, List.takeWhile_append_dropWhile]
    have h2 : (l.takeWhile (fun e => !gt e) ++ (l.dropWhile (fun e => !gt e)).take 1 ++ [x] ++
        (l.dropWhile (fun e => !gt e)).drop 1).Perm (x :: (l.takeWhile (fun e => !gt e) ++
        ((l.dropWhile (fun e => !gt e)).take 1 ++ (l.dropWhile (fun e => !gt e)).drop 1))) := by
      rw [← List.append_assoc (l.takeWhile (fun e => !gt e)), List.append_assoc _ [x]]
      exact List.perm_middle
    rwa [← h] at h2
  · exact List.Perm.refl _

theorem mem_addAfter {α : Type} {gt : α → Bool} {x y : α} {l : List α} : y ∈ addAfter gt x l ↔ y = x ∨ y ∈ l := by
  rw [(addAfter_perm gt x l).mem_iff, List.mem_cons]

/-- A list whose entries have different keys, with its counter. -/
structure Keyed {α κ : Type} (key : α → κ) (l : List α) (n : Nat) : Prop where
  nodup : (l.map key).Nodup
  len : n = l.length

section keyed
variable {α κ : Type} {key : α → κ} {l : List α} {n : Nat}

theorem Keyed.inj (h : Keyed key l n) {a b : α} (ha : a ∈ l) (hb : b ∈ l) (hk : key a = key b) : a = b :=
  List.inj_on_of_nodup_map h.nodup ha hb hk

theorem find_iff [BEq κ] [LawfulBEq κ] (h : (l.map key).Nodup) {k : κ} {e : α} :
    l.find? (fun a => key a == k) = some e ↔ e ∈ l ∧ key e = k := by
  constructor
  · intro hf
    exact ⟨List.mem_of_find?_eq_some hf, by simpa using List.find?_some hf⟩
  · rintro ⟨hm, hk⟩
    cases hf : l.find? (fun a => key a == k) with
    | none =>
      have := List.find?_eq_none.mp hf e hm
      simp [hk] at this
    | some e' =>
      have h1 := List.mem_of_find?_eq_some hf
      have h2 : key e' = k := by simpa using List.find?_some hf
      rw [List.inj_on_of_nodup_map h h1 hm (by rw [h2, hk])]

theorem find_none_iff [BEq κ] [LawfulBEq κ] {k : κ} :
    l.find? (fun a => key a == k) = none ↔ ∀ e ∈ l, key e ≠ k := by
  rw [List.find?_eq_none]
  simp

theorem Keyed.add (h : Keyed key l n) {x : α} {gt : α → Bool} (hx : ∀ e ∈ l, key e ≠ key x) :
    Keyed key (addAfter gt x l) (n + 1) := by
  have hp := addAfter_perm gt x l
  refine ⟨?_, ?_⟩
  · rw [(hp.map key).nodup_iff]
    simp only [List.map_cons, List.nodup_cons]
    refine ⟨?_, h.nodup⟩
    intro hm
    obtain ⟨e, he, hk⟩ := List.mem_map.mp hm
    exact hx e he hk
  · rw [hp.length_eq, List.length_cons, h.len]

theorem Keyed.map (h : Keyed key l n) {f : α → α} (hf : ∀ a ∈ l, key (f a) = key a) : Keyed key (l.map f) n := by
  refine ⟨?_, by rw [List.length_map]; exact h.len⟩
  rw [List.map_map]
  have : l.map (key ∘ f) = l.map key := List.map_congr_left hf
  rw [this]
  exact h.nodup

theorem length_filter_key [BEq κ] [LawfulBEq κ] (h : (l.map key).Nodup) {e : α} (he : e ∈ l) :
    (l.filter (fun a => key a != key e)).length = l.length - 1 := by
  induction l with
  | nil => cases he
  | cons a l ih =>
    simp only [List.map_cons, List.nodup_cons] at h
    rcases List.mem_cons.mp he with rfl | hm
    · have : l.filter (fun a => key a != key e) = l := by
        rw [List.filter_eq_self]
        intro b hb
        have : key b ≠ key e := fun hk => h.1 (hk ▸ List.mem_map_of_mem hb)
        simp [this]
      rw [List.filter_cons]
      simp [this]
    · have hne : key a ≠ key e := fun hk => h.1 (hk ▸ List.mem_map_of_mem hm)
      rw [List.filter_cons]
      simp only [bne_iff_ne, ne_eq, hne, not_false_eq_true, if_true, List.length_cons]
      rw [ih h.2 hm]
      have := List.length_pos_of_mem hm
      omega

theorem Keyed.remove [BEq κ] [LawfulBEq κ] (h : Keyed key l n) {e : α} (he : e ∈ l) :
    Keyed key (l.filter (fun a => key a != key e)) (n - 1) := by
  refine ⟨h.nodup.sublist (List.Sublist.map _ List.filter_sublist), ?_⟩
  rw [length_filter_key h.nodup he, h.len]

end keyed

/-! ## Loops over a list -/

theorem mapM'_ok {α : Type} {f : α → Outcome α} {g : α → α} (hfg : ∀ a b, f a = .ok b → b = g a) {l m : List α}
    (h : mapM' f l = .ok m) : m = l.map g := by
  induction l generalizing m with
  | nil => cases Outcome.ok.inj h; rfl
  | cons a l ih =>
    unfold mapM' at h
    obtain ⟨b, hb, h⟩ := bind_eq_ok.mp h
    obtain ⟨m', hm, h⟩ := bind_eq_ok.mp h
    cases Outcome.ok.inj h
    rw [hfg a b hb, ih hm]; rfl

theorem mapM'_total {α : Type} {f : α → Outcome α} {g : α → α} {l : List α} (hfg : ∀ a ∈ l, f a = .ok (g a)) :
    mapM' f l = .ok (l.map g) := by
  induction l with
  | nil => rfl
  | cons a l ih =>
    unfold mapM'
    rw [hfg a (List.mem_cons_self), ih (fun b hb => hfg b (List.mem_cons_of_mem _ hb))]
    rfl

end Ouro.Registry
