import Verif.Proof.BtreeDelete

namespace Ouro.Btree

open Ouro

/-- The list without `key`. -/
def del (key : Nat) (l : List KV) : List KV := l.filter (fun x => x.key ≠ key)

theorem del_mid {key : Nat} {a b c : List KV} (ha : ∀ x ∈ a, x.key < key) (hb : ∀ x ∈ b, key < x.key) :
    del key (a ++ (c ++ b)) = a ++ (del key c ++ b) := by
  unfold del
  rw [List.filter_append, List.filter_append]
  congr 1
  · rw [List.filter_eq_self]; intro x hx; have := ha x hx; simp; omega
  · congr 1
    rw [List.filter_eq_self]; intro x hx; have := hb x hx; simp; omega

theorem del_snoc {l : List KV} {y : KV} (h : Sorted (l ++ [y])) : del y.key (l ++ [y]) = l := by
  have := del_mid (key := y.key) (a := l) (b := []) (c := [y]) (fun x hx => (List.pairwise_append.mp h).2.2 x hx y (by simp)) (by simp)
  rw [List.append_nil] at this
  rw [this]
  simp [del]

theorem del_cons {l : List KV} {y : KV} (h : Sorted (y :: l)) : del y.key (y :: l) = l := by
  have := del_mid (key := y.key) (a := []) (b := l) (c := [y]) (by simp) (fun x hx => (List.pairwise_cons.mp h).1 x hx)
  simp only [List.nil_append] at this
  rw [show y :: l = [y] ++ l from rfl, this]
  simp [del]

/-- Filling child `i` of an inner node. -/
theorem fill_spec {P : KV → Prop} {k h m i : Nat} {n c : Node} {cs1 cs2 : List Node} {ks1 ks2 : List KV} (hk : 4 ≤ k)
    (hs : Sh P k (h + 1) m n) (hat : At n i cs1 c cs2 ks1 ks2) (hc : c.used < k / 2) (hne : n.kvs ≠ []) :
    ∃ n' j cs1' c' cs2' ks1' ks2' a b, fill k n i = .ok n' ∧ At n' j cs1' c' cs2' ks1' ks2' ∧ Sh P k (h + 1) (m - 1) n' ∧ k / 2 ≤ c'.used ∧
      (if i = n.used ∧ n'.used < i then i - 1 else i) = j ∧
      pre (cs1.map (toL h)) ks1 = pre (cs1'.map (toL h)) ks1' ++ a ∧
      post ks2 (cs2.map (toL h)) = b ++ post ks2' (cs2'.map (toL h)) ∧
      toL h c' = a ++ (toL h c ++ b) ∧ (n'.kvs = [] → ∃ s ∈ n.kvs, ∃ r, n'.stale = s :: r) := by
  have hcs : ∀ e ∈ cs1 ++ c :: cs2, Sh P k h (k / 2 - 1) e := by rw [← hat.ch]; exact hs.2.2.2
  have hused : n.used = i + ks2.length := by unfold Node.used; rw [hat.kvs, List.length_append, hat.lk]
  have hc1 : c.used + 1 = k / 2 := by
    have := (hcs c (by simp)).arr.lo
    unfold Node.used at hc ⊢
    omega
  have small : ∀ e ∈ cs1 ++ c :: cs2, ¬ k / 2 ≤ e.used → e.used + 1 = k / 2 := by
    intro e he hlt
    have := (hcs e he).arr.lo
    unfold Node.used at hlt ⊢
    omega
  -- the next child, once the previous one cannot help
  have next : ∀ (d : Node) (cs2' : List Node), cs2 = d :: cs2' →
      ∃ n' j cs1' c' cs2' ks1' ks2' a b, (if k / 2 ≤ d.used then feedNext n i c d else merge k n i) = .ok n' ∧ At n' j cs1' c' cs2' ks1' ks2' ∧
      Sh P k (h + 1) (m - 1) n' ∧ k / 2 ≤ c'.used ∧
      (if i = n.used ∧ n'.used < i then i - 1 else i) = j ∧
      pre (cs1.map (toL h)) ks1 = pre (cs1'.map (toL h)) ks1' ++ a ∧
      post ks2 (cs2.map (toL h)) = b ++ post ks2' (cs2'.map (toL h)) ∧
      toL h c' = a ++ (toL h c ++ b) ∧ (n'.kvs = [] → ∃ s ∈ n.kvs, ∃ r, n'.stale = s :: r) := by
    intro d cs2' hd
    subst hd
    cases ks2 with
    | nil => have := hat.eq; simp at this
    | cons x ks2 =>
      have hiu : ¬ (i = n.used) := by rw [hused, List.length_cons]; omega
      by_cases hdu : k / 2 ≤ d.used
      · rw [if_pos hdu]
        obtain ⟨n', d', c', y, e, h1, h2, h3, h4, h5, h6, h7⟩ := feedNext_spec hk hs hat hc1 hdu
        refine ⟨n', i, cs1, c', d' :: cs2', ks1, y :: ks2, [], x :: e, h1, h2, h3.weaken (by have := h3.arr.lo; omega), h5, ?_, ?_, ?_, ?_, ?_⟩
        · rw [if_neg (fun h => hiu h.1)]
        · rw [List.append_nil]
        · simp only [List.map_cons, post_cons, h7, List.cons_append, List.append_assoc]
        · rw [h6, List.nil_append]
        · intro h0
          rw [h0] at h4
          exact absurd (List.length_eq_zero_iff.mp h4.symm) hne
      · rw [if_neg hdu]
        obtain ⟨n', mm, h1, h2, h3, h4, h5, l, h6, h7⟩ := merge_spec hs hat hc1 (small d (by simp) hdu)
        refine ⟨n', i, cs1, mm, cs2', ks1, ks2, [], x :: toL h d, h1, h2, h3, h5, ?_, ?_, ?_, ?_, ?_⟩
        · rw [if_neg (fun h => hiu h.1)]
        · rw [List.append_nil]
        · simp only [List.map_cons, post_cons, List.cons_append]
        · rw [h4, List.nil_append]
        · intro _; exact ⟨l, h6, _, h7⟩
  unfold fill
  rw [hat.ch, get_mid _ _ _ hat.lc.symm]
  dsimp only
  have hnext : (if i ≠ n.used then (cs1 ++ c :: cs2)[i + 1]? else none) = cs2.head? := by
    cases cs2 with
    | nil =>
      have := hat.eq
      simp only [List.length_nil] at this
      rw [if_neg (by rw [hused]; omega)]
      rfl
    | cons d cs2 =>
      have := hat.eq
      simp only [List.length_cons] at this
      rw [if_pos (by rw [hused]; omega), get_mid1 _ _ _ _ hat.lc.symm]
      rfl
  rw [hnext]
  rcases List.eq_nil_or_concat cs1 with h0 | ⟨cs1a, p, h0⟩
  · have hi : i = 0 := by rw [← hat.lc, h0]; rfl
    rw [if_neg (by omega)]
    dsimp only
    cases cs2 with
    | nil =>
      exfalso
      have := hat.eq
      apply hne
      apply List.length_eq_zero_iff.mp
      have h1 : n.kvs.length = i + ks2.length := hused
      simp at this
      omega
    | cons d cs2 => exact next d cs2 rfl
  · rw [List.concat_eq_append] at h0
    subst h0
    have hlc := hat.lc
    rw [List.length_append, List.length_singleton] at hlc
    have hlk := hat.lk
    obtain ⟨ks1a, x, h0⟩ := snoc_of_ne (l := ks1) (by intro h; rw [h] at hlk; simp at hlk; omega)
    subst h0
    rw [List.length_append, List.length_singleton] at hlk
    obtain ⟨i', rfl⟩ : ∃ i', i = i' + 1 := ⟨i - 1, by omega⟩
    have hat2 : At n i' cs1a p (c :: cs2) ks1a (x :: ks2) :=
      ⟨by rw [hat.ch]; simp, by rw [hat.kvs]; simp, by omega, by omega, by have := hat.eq; simpa using this⟩
    have hpre : pre ((cs1a ++ [p]).map (toL h)) (ks1a ++ [x]) = pre (cs1a.map (toL h)) ks1a ++ (toL h p ++ [x]) := by
      rw [List.map_append, pre_append _ _ _ _ (by rw [List.length_map]; omega)]
      simp
    rw [if_pos (by omega), Nat.add_sub_cancel, show cs1a ++ [p] ++ c :: cs2 = cs1a ++ p :: (c :: cs2) by simp, get_mid _ _ _ hat2.lc.symm]
    dsimp only
    by_cases hpu : k / 2 ≤ p.used
    · rw [if_pos hpu]
      obtain ⟨n', p', c', y, e, h1, h2, h3, h4, h5, h6, h7⟩ := feedPrev_spec hk hs hat2 hc1 hpu
      refine ⟨n', i' + 1, cs1a ++ [p'], c', cs2, ks1a ++ [y], ks2, e ++ [x], [], h1, h2, h3.weaken (by have := h3.arr.lo; omega), h5, ?_, ?_, ?_, ?_, ?_⟩
      · rw [if_neg]
        rintro ⟨h8, h9⟩
        unfold Node.used at h8 h9
        omega
      · rw [hpre, List.map_append, pre_append _ _ _ _ (by rw [List.length_map]; omega)]
        simp [h7]
      · rfl
      · rw [h6]; simp
      · intro h0
        rw [h0] at h4
        exact absurd (List.length_eq_zero_iff.mp h4.symm) hne
    · rw [if_neg hpu]
      cases cs2 with
      | cons d cs2 => exact next d cs2 rfl
      | nil =>
        dsimp only [List.head?_nil]
        obtain ⟨n', mm, h1, h2, h3, h4, h5, l, h6, h7⟩ := merge_spec hs hat2 (small p (by simp) hpu) hc1
        have hk2 : ks2 = [] := by have := hat.eq; exact List.length_eq_zero_iff.mp (by simpa using this.symm)
        refine ⟨n', i', cs1a, mm, [], ks1a, ks2, toL h p ++ [x], [], h1, h2, h3, h5, ?_, ?_, ?_, ?_, ?_⟩
        · rw [if_pos]
          refine ⟨by rw [hused, hk2]; rfl, ?_⟩
          unfold Node.used
          rw [h2.kvs, List.length_append, h2.lk, hk2]
          simp
        · exact hpre
        · rfl
        · rw [h4]; simp
        · intro _; exact ⟨l, h6, _, h7⟩

/-! ## Predecessor and successor -/

theorem pred_spec {P : KV → Prop} {k : Nat} (hk : 4 ≤ k) : ∀ h m n fuel, Sh P k h m n → 0 < m → h < fuel →
    ∃ y l, predNode fuel n = .ok y ∧ toL h n = l ++ [y] := by
  intro h
  induction h with
  | zero =>
    intro m n fuel hs hm hf
    obtain ⟨f, rfl⟩ : ∃ f, fuel = f + 1 := ⟨fuel - 1, by omega⟩
    obtain ⟨l, y, e⟩ := snoc_of_ne (l := n.kvs) (by have := hs.arr.lo; intro h; rw [h] at this; simp at this; omega)
    refine ⟨y, l, ?_, e⟩
    unfold predNode
    rw [if_pos hs.1, e, List.getLast?_concat]
  | succ h ih =>
    intro m n fuel hs hm hf
    obtain ⟨f, rfl⟩ : ∃ f, fuel = f + 1 := ⟨fuel - 1, by omega⟩
    obtain ⟨C, c, e⟩ := snoc_of_ne (l := n.ch) (by have := hs.2.1; intro h; rw [h] at this; simp at this)
    obtain ⟨y, l, h1, h2⟩ := ih (k / 2 - 1) c f (hs.2.2.2 c (by rw [e]; simp)) (by omega) (by omega)
    have hl := hs.2.1
    rw [e, List.length_append, List.length_singleton] at hl
    have hat : At n C.length C c [] n.kvs [] := ⟨e, by simp, rfl, by omega, rfl⟩
    refine ⟨y, pre (C.map (toL h)) n.kvs ++ l, ?_, ?_⟩
    · unfold predNode
      rw [if_neg (by rw [hs.1]; decide), e, List.getLast?_concat]
      exact h1
    · rw [hat.toL, h2]; simp

theorem succ_spec {P : KV → Prop} {k : Nat} (hk : 4 ≤ k) : ∀ h m n fuel, Sh P k h m n → 0 < m → h < fuel →
    ∃ y l, succNode fuel n = .ok y ∧ toL h n = y :: l := by
  intro h
  induction h with
  | zero =>
    intro m n fuel hs hm hf
    obtain ⟨f, rfl⟩ : ∃ f, fuel = f + 1 := ⟨fuel - 1, by omega⟩
    cases e : n.kvs with
    | nil => have := hs.arr.lo; rw [e] at this; simp at this; omega
    | cons y l =>
      refine ⟨y, l, ?_, e⟩
      unfold succNode
      rw [if_pos hs.1, e]
      rfl
  | succ h ih =>
    intro m n fuel hs hm hf
    obtain ⟨f, rfl⟩ : ∃ f, fuel = f + 1 := ⟨fuel - 1, by omega⟩
    have hl := hs.2.1
    cases e : n.ch with
    | nil => rw [e] at hl; simp at hl
    | cons c C =>
      rw [e, List.length_cons] at hl
      obtain ⟨y, l, h1, h2⟩ := ih (k / 2 - 1) c f (hs.2.2.2 c (by rw [e]; simp)) (by omega) (by omega)
      have hat : At n 0 [] c C [] n.kvs := ⟨e, rfl, rfl, rfl, by omega⟩
      refine ⟨y, l ++ post n.kvs (C.map (toL h)), ?_, ?_⟩
      · unfold succNode
        rw [if_neg (by rw [hs.1]; decide), e]
        exact h1
      · rw [hat.toL, h2]; simp

/-! ## Deleting -/

theorem mkSh {P : KV → Prop} {k h m : Nat} {n : Node} {ks : List KV} {cs : List Node} (hs : Sh P k (h + 1) m n) (h1 : ks.length = n.kvs.length)
    (h2 : ∀ x ∈ ks, P x) (h3 : cs.length = n.ch.length) (h4 : ∀ c ∈ cs, Sh P k h (k / 2 - 1) c) : Sh P k (h + 1) m (Node.mk false ks n.stale cs) := by
  have har := hs.arr
  refine ⟨rfl, ?_, ⟨?_, ?_, ?_, h2, har.old⟩, h4⟩
  · have := hs.2.1; simp only [ch_mk, kvs_mk]; omega
  · have := har.len; simp only [kvs_mk, stale_mk]; omega
  · have := har.lo; simp only [kvs_mk]; omega
  · have := har.hi; simp only [kvs_mk]; omega

/-- What deleting in a node must do. -/
def DelSpec (P : KV → Prop) (k h m : Nat) (key : Nat) (n : Node) (o : Outcome (Node × Bool)) : Prop :=
  ∃ n' r, o = .ok (n', r) ∧ Sh P k h (m - 1) n' ∧ toL h n' = del key (toL h n) ∧ (r = true ↔ ∃ x ∈ toL h n, x.key = key) ∧
    (n'.kvs = [] → h ≠ 0 → (n.kvs = [] ∧ n'.stale = n.stale) ∨ ∃ s ∈ n.kvs, ∃ rest, n'.stale = s :: rest)

/-- A child is replaced by what deleting makes of it. -/
theorem put_child {P : KV → Prop} {k h m i key : Nat} {n c c' : Node} {cs1 cs2 : List Node} {ks1 ks2 : List KV}
    (hs : Sh P k (h + 1) m n) (hat : At n i cs1 c cs2 ks1 ks2) (hpre : ∀ x ∈ pre (cs1.map (toL h)) ks1, x.key < key)
    (hpost : ∀ x ∈ post ks2 (cs2.map (toL h)), key < x.key) {r : Bool} (hc : Sh P k h (k / 2 - 1) c') (ht : toL h c' = del key (toL h c))
    (hr : r = true ↔ ∃ x ∈ toL h c, x.key = key) :
    Sh P k (h + 1) m (Node.mk n.leaf n.kvs n.stale (n.ch.set i c')) ∧
    toL (h + 1) (Node.mk n.leaf n.kvs n.stale (n.ch.set i c')) = del key (toL (h + 1) n) ∧
    (r = true ↔ ∃ x ∈ toL (h + 1) n, x.key = key) := by
  have hcs : ∀ e ∈ cs1 ++ c :: cs2, Sh P k h (k / 2 - 1) e := by rw [← hat.ch]; exact hs.2.2.2
  have hset : n.ch.set i c' = cs1 ++ c' :: cs2 := by rw [hat.ch, set_mid' _ _ _ _ hat.lc.symm]
  rw [hset]
  have hat' : At (Node.mk n.leaf n.kvs n.stale (cs1 ++ c' :: cs2)) i cs1 c' cs2 ks1 ks2 := ⟨rfl, hat.kvs, hat.lc, hat.lk, hat.eq⟩
  refine ⟨?_, ?_, ?_⟩
  · rw [hs.1]
    refine mkSh hs rfl hs.arr.cells (by rw [hat.ch]; simp) ?_
    intro e he
    simp only [List.mem_append, List.mem_cons] at he
    rcases he with he | rfl | he
    · exact hcs e (by simp [he])
    · exact hc
    · exact hcs e (by simp [he])
  · rw [hat'.toL, hat.toL, del_mid hpre hpost, ht]
  · rw [hr, hat.toL]
    constructor
    · rintro ⟨x, hx, e⟩
      exact ⟨x, by simp [hx], e⟩
    · rintro ⟨x, hx, e⟩
      rcases List.mem_append.mp hx with hx | hx
      · have := hpre x hx; omega
      · rcases List.mem_append.mp hx with hx | hx
        · exact ⟨x, hx, e⟩
        · have := hpost x hx; omega

/-- Going down into a child with enough keys. -/
theorem down_spec {P : KV → Prop} {k h m f key : Nat} {n c : Node} {cs1 cs2 : List Node} {ks1 ks2 : List KV}
    (ih : ∀ m n, Sh P k h m n → Sorted (toL h n) → k / 2 ≤ n.used → DelSpec P k h (k / 2) key n (deleteNode k f key n))
    (hs : Sh P k (h + 1) m n) (hsort : Sorted (toL (h + 1) n)) (hat : At n ks1.length cs1 c cs2 ks1 ks2) (h1 : ∀ x ∈ ks1, x.key < key)
    (h2 : ∀ x ∈ ks2, key < x.key) (hc : k / 2 ≤ c.used) :
    ∃ n' r, deleteNode k (f + 1) key n = .ok (n', r) ∧ Sh P k (h + 1) m n' ∧ toL (h + 1) n' = del key (toL (h + 1) n) ∧
      (r = true ↔ ∃ x ∈ toL (h + 1) n, x.key = key) ∧ n'.kvs = n.kvs ∧ n'.stale = n.stale := by
  have hpos : searchKey n.kvs key = ks1.length := by
    rw [hat.kvs]
    exact searchKey_eq h1 (fun x hx => le_of_lt (h2 x hx)) (fun x hx => h2 x (List.mem_of_mem_tail hx))
  have hnf : ¬ ∃ x t, ks2 = x :: t ∧ x.key = key := by
    rintro ⟨x, t, rfl, hx⟩
    have := h2 x (by simp)
    omega
  rw [hat.toL] at hsort
  obtain ⟨sp, sq, _⟩ := List.pairwise_append.mp hsort
  obtain ⟨sc, spo, _⟩ := List.pairwise_append.mp sq
  have hpre := pre_lt _ _ sp h1
  have hpost := post_gt _ _ spo h2
  have hcs : ∀ e ∈ cs1 ++ c :: cs2, Sh P k h (k / 2 - 1) e := by rw [← hat.ch]; exact hs.2.2.2
  obtain ⟨c', r, e1, e2, e3, e4, _⟩ := ih (k / 2 - 1) c (hcs c (by simp)) sc hc
  obtain ⟨q1, q2, q3⟩ := put_child hs hat hpre hpost e2 e3 e4
  refine ⟨_, r, ?_, q1, q2, q3, rfl, rfl⟩
  unfold deleteNode
  dsimp only
  rw [hpos, show n.kvs[ks1.length]? = (ks1 ++ ks2)[ks1.length]? by rw [hat.kvs], if_neg (mt found_iff.mp hnf), if_neg (by rw [hs.1]; decide)]
  rw [show n.ch[ks1.length]? = some c by rw [hat.ch, get_mid _ _ _ hat.lc.symm]]
  dsimp only
  rw [if_neg (by omega)]
  simp only [Outcome.bind_ok]
  rw [if_neg (by omega), show n.ch[ks1.length]? = some c by rw [hat.ch, get_mid _ _ _ hat.lc.symm]]
  dsimp only
  rw [e1]
  rfl

theorem delete_spec {P : KV → Prop} {k : Nat} (hk : 4 ≤ k) : ∀ h m key n fuel, Sh P k h m n → Sorted (toL h n) → 2 * h + 1 ≤ fuel →
    (n.kvs = [] → h ≠ 0 → ∀ c ∈ n.ch, k / 2 ≤ c.used) → DelSpec P k h m key n (deleteNode k fuel key n) := by
  intro h
  induction h with
  | zero =>
    intro m key n fuel hs hsort hf _
    obtain ⟨f, rfl⟩ : ∃ f, fuel = f + 1 := ⟨fuel - 1, by omega⟩
    obtain ⟨ks1, ks2, hkv, h1, h2, h3, h4⟩ := pos_key hs hsort key
    have har := hs.arr
    have htl : toL 0 n = ks1 ++ ks2 := hkv
    unfold deleteNode
    dsimp only
    rw [h4, hkv]
    by_cases hnf : ∃ x t, ks2 = x :: t ∧ x.key = key
    · rw [if_pos (found_iff.mpr hnf), if_pos hs.1]
      obtain ⟨x, t, rfl, rfl⟩ := hnf
      obtain ⟨l, hl⟩ : ∃ l, (ks1 ++ x :: t).getLast? = some l := by
        rw [List.getLast?_eq_some_getLast (by simp)]
        exact ⟨_, rfl⟩
      rw [hl, eraseIdx_mid _ _ _ rfl]
      have hll : l ∈ n.kvs := by rw [hkv]; exact List.mem_of_getLast? hl
      have hlo := har.lo
      have hlen := har.len
      have hhi := har.hi
      rw [hkv] at hlo hlen hhi
      simp only [List.length_append, List.length_cons] at hlo hlen hhi
      refine ⟨_, true, rfl, ⟨rfl, hs.2.1, ?_, ?_, ?_, ?_, ?_⟩, ?_, ?_, fun _ h => absurd rfl h⟩
      · simp only [kvs_mk, stale_mk, List.length_append, List.length_cons]; omega
      · simp only [kvs_mk, List.length_append]; omega
      · simp only [kvs_mk, List.length_append]; omega
      · intro y hy
        apply har.cells
        rw [hkv]
        simp only [kvs_mk, List.mem_append] at hy
        rcases hy with hy | hy <;> simp [hy]
      · intro y hy
        rcases List.mem_cons.mp hy with rfl | hy
        · exact har.cells _ hll
        · exact har.old _ hy
      · rw [htl]
        have := del_mid (key := x.key) (a := ks1) (b := t) (c := [x]) h1 h3
        rw [show ks1 ++ x :: t = ks1 ++ ([x] ++ t) by simp, this]
        simp [del, toL]
      · rw [htl]
        simp only [true_iff]
        exact ⟨x, by simp, rfl⟩
    · rw [if_neg (mt found_iff.mp hnf), if_pos hs.1]
      have hgt := gt_of_not_found h2 h3 hnf
      refine ⟨n, false, rfl, hs.weaken (by have := har.lo; omega), ?_, ?_, fun _ h => absurd rfl h⟩
      · rw [htl]
        have := del_mid (key := key) (a := ks1) (b := ks2) (c := []) h1 hgt
        simpa [del] using this.symm
      · rw [htl]
        simp only [Bool.false_eq_true, false_iff]
        rintro ⟨x, hx, e⟩
        rcases List.mem_append.mp hx with hx | hx
        · have := h1 x hx; omega
        · have := hgt x hx; omega
  | succ h ih =>
    intro m key n fuel hs hsort hf hdeg
    obtain ⟨f, rfl⟩ : ∃ f, fuel = f + 1 := ⟨fuel - 1, by omega⟩
    have ihd : ∀ f' key, 2 * h + 1 ≤ f' → ∀ m n, Sh P k h m n → Sorted (toL h n) → k / 2 ≤ n.used → DelSpec P k h (k / 2) key n (deleteNode k f' key n) := by
      intro f' key hf' m n hs' hs2 hu
      refine ih (k / 2) key n f' (hs'.weaken hu) hs2 hf' ?_
      intro h0
      unfold Node.used at hu
      rw [h0] at hu
      simp at hu
      omega
    obtain ⟨ks1, ks2, hkv, h1, h2, h3, h4⟩ := pos_key hs hsort key
    obtain ⟨cs1, c, cs2, hat⟩ := pos_node hs hkv
    have har := hs.arr
    have htoL := hat.toL (h := h)
    have hsort' := hsort
    rw [htoL] at hsort'
    obtain ⟨sp, sq, _⟩ := List.pairwise_append.mp hsort'
    obtain ⟨sc, spo, scp⟩ := List.pairwise_append.mp sq
    have hpre := pre_lt _ _ sp h1
    have hcs : ∀ d ∈ cs1 ++ c :: cs2, Sh P k h (k / 2 - 1) d := by
      rw [← hat.ch]; exact hs.2.2.2
    by_cases hnf : ∃ x t, ks2 = x :: t ∧ x.key = key
    · obtain ⟨x, t, rfl, rfl⟩ := hnf
      cases cs2 with
      | nil => have := hat.eq; simp at this
      | cons d cs2 =>
      rw [List.map_cons, post_cons] at spo htoL scp
      obtain ⟨sx, spo'⟩ := List.pairwise_cons.mp spo
      obtain ⟨sd, sp2, _⟩ := List.pairwise_append.mp spo'
      have hpost : ∀ y ∈ toL h d ++ post t (cs2.map (toL h)), x.key < y.key := sx
      have hc_lt : ∀ y ∈ toL h c, y.key < x.key := fun y hy => scp y hy x (by simp)
      have hdel : del x.key (toL (h + 1) n) = pre (cs1.map (toL h)) ks1 ++ (toL h c ++ (toL h d ++ post t (cs2.map (toL h)))) := by
        rw [htoL]
        have := del_mid (key := x.key) (a := pre (cs1.map (toL h)) ks1 ++ toL h c) (b := toL h d ++ post t (cs2.map (toL h))) (c := [x])
          (by intro y hy; rcases List.mem_append.mp hy with hy | hy
              · exact hpre y hy
              · exact hc_lt y hy) hpost
        simp only [List.append_assoc, List.cons_append, List.nil_append] at this
        rw [this]
        simp [del]
      have hin : ∃ y ∈ toL (h + 1) n, y.key = x.key := ⟨x, by rw [htoL]; simp, rfl⟩
      have g1 : n.kvs[ks1.length]?.map (·.key) = some x.key := by rw [hkv]; exact found_iff.mpr ⟨x, t, rfl, rfl⟩
      have g2 : n.ch[ks1.length]? = some c := by rw [hat.ch, get_mid _ _ _ hat.lc.symm]
      have g3 : n.ch[ks1.length + 1]? = some d := by rw [hat.ch, get_mid1 _ _ _ _ hat.lc.symm]
      have dlen : n.ch.length = cs1.length + 1 + 1 + cs2.length := by rw [hat.ch]; simp; omega
      unfold deleteNode
      dsimp only
      rw [h4, if_pos g1, if_neg (by rw [hs.1]; decide), g2, g3]
      dsimp only
      by_cases hcu : k / 2 ≤ c.used
      · rw [if_pos hcu]
        obtain ⟨y, l, p1, p2⟩ := pred_spec hk h (k / 2 - 1) c (c.depth + 1) (hcs c (by simp)) (by omega) (by rw [(hcs c (by simp)).depth]; omega)
        obtain ⟨c', r, e1, e2, e3, e4, _⟩ := ihd f y.key (by omega) _ c (hcs c (by simp)) sc hcu
        rw [p2] at sc
        rw [p2, del_snoc sc] at e3
        rw [p1]
        simp only [Outcome.bind_ok, e1]
        have hr : r = true := e4.mpr ⟨y, by rw [p2]; simp, rfl⟩
        rw [hkv, set_mid' _ _ _ _ rfl, hat.ch, set_mid' _ _ _ _ hat.lc.symm]
        have hat' : At (Node.mk false (ks1 ++ y :: t) n.stale (cs1 ++ c' :: d :: cs2)) ks1.length cs1 c' (d :: cs2) ks1 (y :: t) :=
          ⟨rfl, rfl, hat.lc, rfl, hat.eq⟩
        refine ⟨_, r, rfl, ?_, ?_, ⟨fun _ => hin, fun _ => hr⟩, ?_⟩
        · refine Sh.weaken (m := m) (mkSh hs ?_ ?_ ?_ ?_) ?_
          · rw [hkv]; simp
          · intro z hz
            simp only [List.mem_append, List.mem_cons] at hz
            rcases hz with hz | rfl | hz
            · exact har.cells z (by rw [hkv]; simp [hz])
            · exact toL_P (hcs c (by simp)) z (by rw [p2]; simp)
            · exact har.cells z (by rw [hkv]; simp [hz])
          · rw [dlen]; simp; omega
          · intro z hz
            simp only [List.mem_append, List.mem_cons] at hz
            rcases hz with hz | rfl | rfl | hz
            · exact hcs z (by simp [hz])
            · exact e2
            · exact hcs z (by simp)
            · exact hcs z (by simp [hz])
          · have := har.lo
            rw [hkv] at this
            simp only [kvs_mk, List.length_append, List.length_cons] at this ⊢
            omega
        · rw [hat'.toL, hdel, List.map_cons, post_cons, e3, p2]
          simp
        · intro h0; exact absurd h0 (by simp)
      · rw [if_neg hcu]
        by_cases hdu : k / 2 ≤ d.used
        · rw [if_pos hdu]
          obtain ⟨y, l, p1, p2⟩ := succ_spec hk h (k / 2 - 1) d (d.depth + 1) (hcs d (by simp)) (by omega) (by rw [(hcs d (by simp)).depth]; omega)
          obtain ⟨d', r, e1, e2, e3, e4, _⟩ := ihd f y.key (by omega) _ d (hcs d (by simp)) sd hdu
          rw [p2] at sd
          rw [p2, del_cons sd] at e3
          rw [p1]
          simp only [Outcome.bind_ok, e1]
          have hr : r = true := e4.mpr ⟨y, by rw [p2]; simp, rfl⟩
          rw [hkv, set_mid' _ _ _ _ rfl, hat.ch, show cs1 ++ c :: d :: cs2 = (cs1 ++ [c]) ++ d :: cs2 by simp,
            set_mid' _ _ _ _ (show ks1.length + 1 = (cs1 ++ [c]).length by rw [List.length_append, hat.lc]; rfl),
            show cs1 ++ [c] ++ d' :: cs2 = cs1 ++ c :: d' :: cs2 by simp]
          have hat' : At (Node.mk false (ks1 ++ y :: t) n.stale (cs1 ++ c :: d' :: cs2)) ks1.length cs1 c (d' :: cs2) ks1 (y :: t) :=
            ⟨rfl, rfl, hat.lc, rfl, by simpa using hat.eq⟩
          refine ⟨_, r, rfl, ?_, ?_, ⟨fun _ => hin, fun _ => hr⟩, ?_⟩
          · refine Sh.weaken (m := m) (mkSh hs ?_ ?_ ?_ ?_) ?_
            · rw [hkv]; simp
            · intro z hz
              simp only [List.mem_append, List.mem_cons] at hz
              rcases hz with hz | rfl | hz
              · exact har.cells z (by rw [hkv]; simp [hz])
              · exact toL_P (hcs d (by simp)) z (by rw [p2]; simp)
              · exact har.cells z (by rw [hkv]; simp [hz])
            · rw [dlen]; simp; omega
            · intro z hz
              simp only [List.mem_append, List.mem_cons] at hz
              rcases hz with hz | rfl | rfl | hz
              · exact hcs z (by simp [hz])
              · exact hcs z (by simp)
              · exact e2
              · exact hcs z (by simp [hz])
            · have := har.lo
              rw [hkv] at this
              simp only [kvs_mk, List.length_append, List.length_cons] at this ⊢
              omega
          · rw [hat'.toL, hdel, List.map_cons, post_cons, e3, p2]
            simp
          · intro h0; exact absurd h0 (by simp)
        · rw [if_neg hdu]
          have small : ∀ e ∈ cs1 ++ c :: d :: cs2, ¬ k / 2 ≤ e.used → e.used + 1 = k / 2 := by
            intro e he hlt
            have := (hcs e he).arr.lo
            unfold Node.used at hlt ⊢
            omega
          obtain ⟨n', mm, m1, m2, m3, m4, m5, l, m6, m7⟩ := merge_spec hs hat (small c (by simp) hcu) (small d (by simp) hdu)
          rw [m1]
          simp only [Outcome.bind_ok]
          have hte : toL (h + 1) n' = toL (h + 1) n := by
            rw [m2.toL, htoL, m4]; simp
          obtain ⟨f', rfl⟩ : ∃ f', f = f' + 1 := ⟨f - 1, by omega⟩
          obtain ⟨n'', r, q1, q2, q3, q4, q5, q6⟩ := down_spec (ihd f' x.key (by omega)) m3 (by rw [hte]; exact hsort) m2 h1 h3 m5
          rw [hte] at q3 q4
          exact ⟨n'', r, q1, q2, q3, q4, fun _ _ => Or.inr ⟨l, m6, _, by rw [q6, m7]⟩⟩
    · have hgt := gt_of_not_found h2 h3 hnf
      have hpost := post_gt _ _ spo hgt
      by_cases hcu : k / 2 ≤ c.used
      · obtain ⟨n', r, q1, q2, q3, q4, q5, q6⟩ := down_spec (ihd f key (by omega)) hs hsort hat h1 hgt hcu
        exact ⟨n', r, q1, q2.weaken (by have := q2.arr.lo; omega), q3, q4, fun h0 _ => Or.inl ⟨by rw [← q5]; exact h0, q6⟩⟩
      · have hne : n.kvs ≠ [] := fun h0 => hcu (hdeg h0 (by omega) c (by rw [hat.ch]; simp))
        obtain ⟨n', j, cs1', c', cs2', ks1', ks2', a, b, f1, f2, f3, f4, f5, f6, f7, f8, f9⟩ := fill_spec hk hs hat (by omega) hne
        have hte : toL (h + 1) n' = toL (h + 1) n := by
          rw [f2.toL, htoL, f6, f7, f8]; simp
        have hs' := hsort
        rw [← hte, f2.toL] at hs'
        obtain ⟨_, sq', _⟩ := List.pairwise_append.mp hs'
        obtain ⟨sc', _, _⟩ := List.pairwise_append.mp sq'
        have hcs' : ∀ e ∈ cs1' ++ c' :: cs2', Sh P k h (k / 2 - 1) e := by rw [← f2.ch]; exact f3.2.2.2
        obtain ⟨c'', r, e1, e2, e3, e4, _⟩ := ihd f key (by omega) _ c' (hcs' c' (by simp)) sc' f4
        obtain ⟨q1, q2, q3⟩ := put_child f3 f2 (fun x hx => hpre x (by rw [f6]; simp [hx])) (fun x hx => hpost x (by rw [f7]; simp [hx])) e2 e3 e4
        rw [hte] at q2 q3
        refine ⟨_, r, ?_, q1, q2, q3, ?_⟩
        · unfold deleteNode
          dsimp only
          rw [h4, show n.kvs[ks1.length]? = (ks1 ++ ks2)[ks1.length]? by rw [hkv], if_neg (mt found_iff.mp hnf), if_neg (by rw [hs.1]; decide)]
          rw [show n.ch[ks1.length]? = some c by rw [hat.ch, get_mid _ _ _ hat.lc.symm]]
          dsimp only
          rw [if_pos (by omega), f1]
          simp only [Outcome.bind_ok]
          rw [f5, show n'.ch[j]? = some c' by rw [f2.ch, get_mid _ _ _ f2.lc.symm]]
          dsimp only
          rw [e1]
          rfl
        · intro h0 _
          obtain ⟨s, h5, rr, h6⟩ := f9 h0
          exact Or.inr ⟨s, h5, rr, h6⟩

end Ouro.Btree
