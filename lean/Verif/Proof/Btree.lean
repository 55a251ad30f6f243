import Verif.Spec.KeyedStore
import Verif.Proof.Tac

namespace Ouro.Btree

open Ouro

/-! ## Lists -/

abbrev Sorted (l : List KV) : Prop := l.Pairwise (fun a b => a.key < b.key)

theorem set_mid {α : Type} (a : List α) (x y : α) (b : List α) : (a ++ x :: b).set a.length y = a ++ y :: b := by
  rw [List.set_append_right _ _ (le_refl _), Nat.sub_self, List.set_cons_zero]

theorem set_mid' {α : Type} {n : Nat} (a : List α) (x y : α) (b : List α) (h : n = a.length) : (a ++ x :: b).set n y = a ++ y :: b := by
  subst h; exact set_mid a x y b

theorem get_mid {α : Type} {n : Nat} (a : List α) (x : α) (b : List α) (h : n = a.length) : (a ++ x :: b)[n]? = some x := by
  subst h; simp

theorem get_mid1 {α : Type} {n : Nat} (a : List α) (x y : α) (b : List α) (h : n = a.length) : (a ++ x :: y :: b)[n + 1]? = some y := by
  subst h
  rw [List.getElem?_append_right (by omega)]
  simp

theorem get_none {α : Type} {n : Nat} (a : List α) (h : n = a.length) : a[n]? = none := by
  subst h; simp

theorem insertIdx_mid {α : Type} {n : Nat} (a b : List α) (x : α) (h : n = a.length) : (a ++ b).insertIdx n x = a ++ x :: b := by
  subst h
  induction a with
  | nil => simp
  | cons y a ih => simp only [List.cons_append, List.length_cons, List.insertIdx_succ_cons, ih]

theorem eraseIdx_mid {α : Type} {n : Nat} (a b : List α) (x : α) (h : n = a.length) : (a ++ x :: b).eraseIdx n = a ++ b := by
  subst h
  induction a with
  | nil => simp
  | cons y a ih => simp only [List.cons_append, List.length_cons, List.eraseIdx_cons_succ, ih]

theorem split_at {α : Type} (l : List α) (n : Nat) (h : n < l.length) : ∃ a x b, l = a ++ x :: b ∧ a.length = n := by
  refine ⟨l.take n, l[n], l.drop (n + 1), ?_, by rw [List.length_take]; omega⟩
  rw [← List.drop_eq_getElem_cons h, List.take_append_drop]

theorem sorted_split {l : List KV} (key : Nat) (h : Sorted l) : ∃ a b, l = a ++ b ∧ (∀ x ∈ a, x.key < key) ∧ (∀ x ∈ b, key ≤ x.key) ∧
    (∀ x ∈ b.tail, key < x.key) := by
  induction l with
  | nil => exact ⟨[], [], rfl, by simp, by simp, by simp⟩
  | cons x l ih =>
    obtain ⟨h1, h2⟩ := List.pairwise_cons.mp h
    by_cases hx : x.key < key
    · obtain ⟨a, b, rfl, ha, hb, hc⟩ := ih h2
      exact ⟨x :: a, b, rfl, by simpa using ⟨hx, ha⟩, hb, hc⟩
    · refine ⟨[], x :: l, rfl, by simp, ?_, ?_⟩
      · intro y hy
        rcases List.mem_cons.mp hy with rfl | hy
        · omega
        · have := h1 y hy; omega
      · intro y hy
        have := h1 y hy
        omega

theorem searchLoop_eq {a b : List KV} {key : Nat} (ha : ∀ x ∈ a, x.key < key) (hb : ∀ x ∈ b, key ≤ x.key) (hc : ∀ x ∈ b.tail, key < x.key) :
    ∀ d lo rgt, rgt - lo ≤ d → lo ≤ a.length → a.length ≤ rgt → rgt ≤ (a ++ b).length → searchLoop (a ++ b) key lo rgt = a.length := by
  intro d
  induction d with
  | zero =>
    intro lo rgt hd h1 h2 h3
    unfold searchLoop
    rw [dif_neg (by omega)]
    omega
  | succ d ih =>
    intro lo rgt hd h1 h2 h3
    unfold searchLoop
    by_cases hlt : lo < rgt
    · rw [dif_pos hlt]
      have hm : (lo + rgt - 1) / 2 < (a ++ b).length := by omega
      dsimp only
      rw [List.getElem?_eq_getElem hm]
      dsimp only
      have hlo : (lo + rgt - 1) / 2 < a.length → (a ++ b)[(lo + rgt - 1) / 2].key < key := by
        intro h
        rw [List.getElem_append_left h]
        exact ha _ (List.getElem_mem _)
      have hge : a.length ≤ (lo + rgt - 1) / 2 → key ≤ (a ++ b)[(lo + rgt - 1) / 2].key := by
        intro h
        rw [List.getElem_append_right h]
        exact hb _ (List.getElem_mem _)
      have hgt : a.length < (lo + rgt - 1) / 2 → key < (a ++ b)[(lo + rgt - 1) / 2].key := by
        intro h
        rw [List.getElem_append_right (by omega)]
        apply hc
        rw [List.length_append] at hm
        cases b with
        | nil => simp at hm; omega
        | cons y b =>
          rw [List.tail_cons]
          obtain ⟨j, hj⟩ : ∃ j, (lo + rgt - 1) / 2 - a.length = j + 1 := ⟨(lo + rgt - 1) / 2 - a.length - 1, by omega⟩
          simp only [hj, List.getElem_cons_succ]
          exact List.getElem_mem _
      generalize (a ++ b)[(lo + rgt - 1) / 2].key = q at hlo hge hgt
      split
      · omega
      · split
        · refine ih _ _ ?_ ?_ h2 h3 <;> omega
        · refine ih _ _ ?_ h1 ?_ ?_ <;> omega
    · rw [dif_neg hlt]
      omega

theorem searchKey_eq {a b : List KV} {key : Nat} (ha : ∀ x ∈ a, x.key < key) (hb : ∀ x ∈ b, key ≤ x.key) (hc : ∀ x ∈ b.tail, key < x.key) :
    searchKey (a ++ b) key = a.length :=
  searchLoop_eq ha hb hc _ _ _ (le_refl _) (Nat.zero_le _) (by rw [List.length_append]; omega) (le_refl _)

/-! ## The contents of a tree -/

/-- Children before a position, each followed by its key. -/
def pre (cs : List (List KV)) (ks : List KV) : List KV := (cs.zip ks).flatMap fun ck => ck.1 ++ [ck.2]
/-- Keys after a position, each followed by its child. -/
def post (ks : List KV) (cs : List (List KV)) : List KV := (ks.zip cs).flatMap fun kc => kc.1 :: kc.2

def inter : List (List KV) → List KV → List KV
  | [], _ => []
  | c :: cs, ks => c ++ post ks cs

@[simp] theorem pre_nil (ks : List KV) : pre [] ks = [] := rfl
@[simp] theorem post_nil (cs : List (List KV)) : post [] cs = [] := rfl
@[simp] theorem pre_cons (c : List KV) (cs : List (List KV)) (k : KV) (ks : List KV) : pre (c :: cs) (k :: ks) = c ++ k :: pre cs ks := by
  unfold pre; simp
@[simp] theorem post_cons (c : List KV) (cs : List (List KV)) (k : KV) (ks : List KV) : post (k :: ks) (c :: cs) = k :: (c ++ post ks cs) := by
  unfold post; simp

theorem inter_mid (c : List KV) (cs2 : List (List KV)) (ks2 : List KV) : ∀ (cs1 : List (List KV)) (ks1 : List KV), cs1.length = ks1.length →
    inter (cs1 ++ c :: cs2) (ks1 ++ ks2) = pre cs1 ks1 ++ (c ++ post ks2 cs2) := by
  intro cs1
  induction cs1 with
  | nil =>
    intro ks1 h
    rw [List.length_eq_zero_iff.mp h.symm]
    rfl
  | cons d cs1 ih =>
    intro ks1 h
    cases ks1 with
    | nil => simp at h
    | cons k ks1 =>
      have := ih ks1 (by simpa using h)
      cases hcs : cs1 ++ c :: cs2 with
      | nil => simp at hcs
      | cons e es =>
        rw [hcs] at this
        simp only [List.cons_append, hcs, inter, pre_cons, post_cons, List.append_assoc]
        rw [show e ++ post (ks1 ++ ks2) es = _ from this]

theorem pre_append (cs2 : List (List KV)) (ks2 : List KV) : ∀ (cs1 : List (List KV)) (ks1 : List KV), cs1.length = ks1.length →
    pre (cs1 ++ cs2) (ks1 ++ ks2) = pre cs1 ks1 ++ pre cs2 ks2 := by
  intro cs1
  induction cs1 with
  | nil => intro ks1 h; rw [List.length_eq_zero_iff.mp h.symm]; rfl
  | cons d cs1 ih =>
    intro ks1 h
    cases ks1 with
    | nil => simp at h
    | cons k ks1 =>
      simp only [List.cons_append, pre_cons, ih ks1 (by simpa using h), List.append_assoc]

/-- In-order contents of a node of height `h`. -/
def toL : Nat → Node → List KV
  | 0, n => n.kvs
  | h + 1, n => inter (n.ch.map (toL h)) n.kvs

@[simp] theorem kvs_mk (l : Bool) (a b : List KV) (c : List Node) : (Node.mk l a b c).kvs = a := rfl
@[simp] theorem stale_mk (l : Bool) (a b : List KV) (c : List Node) : (Node.mk l a b c).stale = b := rfl
@[simp] theorem ch_mk (l : Bool) (a b : List KV) (c : List Node) : (Node.mk l a b c).ch = c := rfl
@[simp] theorem leaf_mk (l : Bool) (a b : List KV) (c : List Node) : (Node.mk l a b c).leaf = l := rfl

theorem toL_succ (h : Nat) (n : Node) : toL (h + 1) n = inter (n.ch.map (toL h)) n.kvs := rfl

theorem inter_one (c : List KV) : inter [c] [] = c := by simp [inter]

theorem pre_lt {key : Nat} : ∀ (cs : List (List KV)) (ks : List KV), Sorted (pre cs ks) → (∀ x ∈ ks, x.key < key) → ∀ x ∈ pre cs ks, x.key < key := by
  intro cs
  induction cs with
  | nil => intro ks _ _ x hx; cases hx
  | cons c cs ih =>
    intro ks hs hk x hx
    cases ks with
    | nil => unfold pre at hx; simp at hx
    | cons k ks =>
      rw [pre_cons] at hs hx
      have hkk := hk k List.mem_cons_self
      obtain ⟨h1, h2, h3⟩ := List.pairwise_append.mp hs
      rcases List.mem_append.mp hx with hx | hx
      · have := h3 x hx k List.mem_cons_self
        omega
      · rcases List.mem_cons.mp hx with rfl | hx
        · exact hkk
        · exact ih ks (List.pairwise_cons.mp h2).2 (fun y hy => hk y (List.mem_cons_of_mem _ hy)) x hx

theorem post_gt {key : Nat} : ∀ (ks : List KV) (cs : List (List KV)), Sorted (post ks cs) → (∀ x ∈ ks, key < x.key) → ∀ x ∈ post ks cs, key < x.key := by
  intro ks
  induction ks with
  | nil => intro cs _ _ x hx; cases hx
  | cons k ks ih =>
    intro cs hs hk x hx
    cases cs with
    | nil => unfold post at hx; simp at hx
    | cons c cs =>
      rw [post_cons] at hs hx
      have hkk := hk k List.mem_cons_self
      obtain ⟨h1, h2⟩ := List.pairwise_cons.mp hs
      rcases List.mem_cons.mp hx with rfl | hx
      · exact hkk
      · rcases List.mem_append.mp hx with hy | hy
        · have := h1 x hx; omega
        · exact ih cs (List.pairwise_append.mp h2).2.1 (fun y hy => hk y (List.mem_cons_of_mem _ hy)) x hy

theorem kvs_sub_post : ∀ (ks : List KV) (cs : List (List KV)), ks.length = cs.length → ks.Sublist (post ks cs) := by
  intro ks
  induction ks with
  | nil => intro cs _; exact List.nil_sublist _
  | cons k ks ih =>
    intro cs h
    cases cs with
    | nil => simp at h
    | cons c cs =>
      rw [post_cons]
      exact ((ih cs (by simpa using h)).trans (List.sublist_append_right _ _)).cons_cons k

/-! ## The shape of a tree -/

/-- The array of a node of order `k` with at least `m` keys; every cell satisfies `P`. -/
structure Arr (P : KV → Prop) (k m : Nat) (n : Node) : Prop where
  len : n.kvs.length + n.stale.length = k
  lo : m ≤ n.kvs.length
  hi : n.kvs.length < k
  cells : ∀ x ∈ n.kvs, P x
  old : ∀ x ∈ n.stale, P x

/-- A node of height `h` with at least `m` keys whose descendants have at least `k / 2 - 1`. -/
def Sh (P : KV → Prop) (k : Nat) : Nat → Nat → Node → Prop
  | 0, m, n => n.leaf = true ∧ n.ch = [] ∧ Arr P k m n
  | h + 1, m, n => n.leaf = false ∧ n.ch.length = n.kvs.length + 1 ∧ Arr P k m n ∧ ∀ c ∈ n.ch, Sh P k h (k / 2 - 1) c

theorem Sh.arr {P : KV → Prop} {k h m : Nat} {n : Node} (hs : Sh P k h m n) : Arr P k m n := by
  cases h with
  | zero => exact hs.2.2
  | succ h => exact hs.2.2.1

theorem Sh.leaf {P : KV → Prop} {k h m : Nat} {n : Node} (hs : Sh P k h m n) : n.leaf = decide (h = 0) := by
  cases h with
  | zero => rw [hs.1]; rfl
  | succ h => rw [hs.1]; rfl

theorem Sh.weaken {P : KV → Prop} {k h m m' : Nat} {n : Node} (hs : Sh P k h m n) (hm : m' ≤ n.kvs.length) : Sh P k h m' n := by
  cases h with
  | zero => exact ⟨hs.1, hs.2.1, hs.2.2.len, hm, hs.2.2.hi, hs.2.2.cells, hs.2.2.old⟩
  | succ h => exact ⟨hs.1, hs.2.1, ⟨hs.2.2.1.len, hm, hs.2.2.1.hi, hs.2.2.1.cells, hs.2.2.1.old⟩, hs.2.2.2⟩

theorem Sh.depth {P : KV → Prop} {k : Nat} : ∀ {h m : Nat} {n : Node}, Sh P k h m n → n.depth = h := by
  intro h
  induction h with
  | zero =>
    intro m n hs
    obtain ⟨l, a, b, c⟩ := n
    have : c = [] := hs.2.1
    subst this
    rw [Node.depth]
  | succ h ih =>
    intro m n hs
    obtain ⟨l, a, b, c⟩ := n
    have h1 : c.length = a.length + 1 := hs.2.1
    cases c with
    | nil => simp at h1
    | cons d c =>
      rw [Node.depth, ih (hs.2.2.2 d List.mem_cons_self)]

theorem kvs_sub {P : KV → Prop} {k h m : Nat} {n : Node} (hs : Sh P k h m n) : n.kvs.Sublist (toL h n) := by
  cases h with
  | zero => exact List.Sublist.refl _
  | succ h =>
    unfold toL
    have h1 := hs.2.1
    cases hc : n.ch with
    | nil => rw [hc] at h1; simp at h1
    | cons c cs =>
      rw [hc] at h1
      simp only [List.map_cons, inter]
      exact (kvs_sub_post _ _ (by simp at h1 ⊢; omega)).trans (List.sublist_append_right _ _)

theorem toL_P {P : KV → Prop} {k : Nat} : ∀ {h m : Nat} {n : Node}, Sh P k h m n → ∀ x ∈ toL h n, P x := by
  intro h
  induction h with
  | zero => intro m n hs x hx; exact hs.2.2.cells x hx
  | succ h ih =>
    intro m n hs x hx
    unfold toL at hx
    have h1 := hs.2.2.2
    have h2 := hs.arr.cells
    have hpost : ∀ (ks : List KV) (cs : List Node), (∀ c ∈ cs, Sh P k h (k / 2 - 1) c) → (∀ x ∈ ks, P x) → ∀ x ∈ post ks (cs.map (toL h)), P x := by
      intro ks
      induction ks with
      | nil => intro cs _ _ x hx; cases hx
      | cons a ks ihk =>
        intro cs hcs hks x hx
        cases cs with
        | nil => unfold post at hx; simp at hx
        | cons c cs =>
          rw [List.map_cons, post_cons] at hx
          rcases List.mem_cons.mp hx with rfl | hx
          · exact hks _ List.mem_cons_self
          · rcases List.mem_append.mp hx with hx | hx
            · exact ih (hcs c List.mem_cons_self) x hx
            · exact ihk cs (fun d hd => hcs d (List.mem_cons_of_mem _ hd)) (fun y hy => hks y (List.mem_cons_of_mem _ hy)) x hx
    cases hc : n.ch with
    | nil => rw [hc] at hx; cases hx
    | cons c cs =>
      rw [hc] at hx h1
      simp only [List.map_cons, inter] at hx
      rcases List.mem_append.mp hx with hx | hx
      · exact ih (h1 c List.mem_cons_self) x hx
      · exact hpost _ cs (fun d hd => h1 d (List.mem_cons_of_mem _ hd)) h2 x hx

end Ouro.Btree
