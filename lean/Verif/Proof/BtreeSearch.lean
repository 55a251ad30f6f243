import Verif.Proof.BtreeRemove

namespace Ouro.Btree

open Ouro Spec.FiniteMap Spec.KeyedStore

theorem search_spec {P Q : KV → Prop} {k key : Nat} (hPQ : ∀ x, P x → x = ⟨0, 0⟩ ∨ Q x) (hk : 4 ≤ k) : ∀ h m n fuel, Sh P k h m n →
    Sorted (toL h n) → h < fuel → (n.kvs = [] → ∃ s r, n.stale = s :: r ∧ Q s) →
    ∃ v, searchNode fuel key n = .ok v ∧ ((∃ x ∈ toL h n, x.key = key ∧ x.val = v) ∨ (∃ y, Q y ∧ y.key = key ∧ y.val = v) ∨
      (v = 0 ∧ ∀ x ∈ toL h n, x.key ≠ key)) := by
  intro h
  induction h with
  | zero =>
    intro m n fuel hs hsort hf hst
    obtain ⟨f, rfl⟩ : ∃ f, fuel = f + 1 := ⟨fuel - 1, by omega⟩
    obtain ⟨ks1, ks2, hkv, h1, h2, h3, h4⟩ := pos_key hs hsort key
    have har := hs.arr
    have htl : toL 0 n = ks1 ++ ks2 := hkv
    unfold searchNode
    dsimp only
    rw [h4]
    cases ks2 with
    | cons x t =>
      rw [hkv, List.append_assoc, List.cons_append, get_mid _ _ _ rfl]
      dsimp only
      by_cases hx : x.key = key
      · rw [if_pos hx]
        exact ⟨x.val, rfl, Or.inl ⟨x, by rw [htl]; simp, hx, rfl⟩⟩
      · rw [if_neg hx, hs.2.1]
        refine ⟨0, rfl, Or.inr (Or.inr ⟨rfl, ?_⟩)⟩
        have hgt := gt_of_not_found h2 h3 (by rintro ⟨y, t', e, h5⟩; cases e; exact hx h5)
        intro y hy e
        rw [htl] at hy
        rcases List.mem_append.mp hy with hy | hy
        · have := h1 y hy; omega
        · have := hgt y hy; omega
    | nil =>
      rw [List.append_nil] at hkv htl
      cases hs0 : n.stale with
      | nil => have a := har.len; have b := har.hi; rw [hs0] at a; simp at a; omega
      | cons s r =>
      rw [hkv, get_mid _ _ _ rfl]
      dsimp only
      by_cases hx : s.key = key
      · rw [if_pos hx]
        refine ⟨s.val, rfl, Or.inr (Or.inl ⟨s, ?_, hx, rfl⟩)⟩
        rcases hPQ s (har.old s (by rw [hs0]; simp)) with h0 | h0
        · cases hks : n.kvs with
          | nil =>
            obtain ⟨s', r', e, q⟩ := hst hks
            rw [hs0] at e
            cases e
            exact q
          | cons y t =>
            have := h1 y (by rw [← hkv, hks]; simp)
            rw [h0] at hx
            simp at hx
            omega
        · exact h0
      · rw [if_neg hx, hs.2.1]
        refine ⟨0, rfl, Or.inr (Or.inr ⟨rfl, ?_⟩)⟩
        intro y hy e
        rw [htl] at hy
        have := h1 y hy
        omega
  | succ h ih =>
    intro m n fuel hs hsort hf hst
    obtain ⟨f, rfl⟩ : ∃ f, fuel = f + 1 := ⟨fuel - 1, by omega⟩
    obtain ⟨ks1, ks2, hkv, h1, h2, h3, h4⟩ := pos_key hs hsort key
    obtain ⟨cs1, c, cs2, hat⟩ := pos_node hs hkv
    have har := hs.arr
    have htoL := hat.toL (h := h)
    have hsort' := hsort
    rw [htoL] at hsort'
    obtain ⟨sp, sq, _⟩ := List.pairwise_append.mp hsort'
    obtain ⟨sc, spo, _⟩ := List.pairwise_append.mp sq
    have hpre := pre_lt _ _ sp h1
    have hc : Sh P k h (k / 2 - 1) c := hs.2.2.2 c (by rw [hat.ch]; simp)
    obtain ⟨v, e1, e2⟩ := ih (k / 2 - 1) c f hc sc (by omega) (by
      intro h0
      have := hc.arr.lo
      rw [h0] at this
      simp at this
      omega)
    have down : (∀ x ∈ ks2, key < x.key) → (∃ x ∈ toL (h + 1) n, x.key = key ∧ x.val = v) ∨ (∃ y, Q y ∧ y.key = key ∧ y.val = v) ∨
        (v = 0 ∧ ∀ x ∈ toL (h + 1) n, x.key ≠ key) := by
      intro hgt
      have hpost := post_gt _ _ spo hgt
      rcases e2 with ⟨x, hx, e⟩ | e | ⟨e, hx⟩
      · exact Or.inl ⟨x, by rw [htoL]; simp [hx], e⟩
      · exact Or.inr (Or.inl e)
      · refine Or.inr (Or.inr ⟨e, ?_⟩)
        intro y hy e
        rw [htoL] at hy
        rcases List.mem_append.mp hy with hy | hy
        · have := hpre y hy; omega
        · rcases List.mem_append.mp hy with hy | hy
          · exact hx y hy e
          · have := hpost y hy; omega
    have gc : n.ch[ks1.length]? = some c := by rw [hat.ch, get_mid _ _ _ hat.lc.symm]
    unfold searchNode
    dsimp only
    rw [h4]
    cases ks2 with
    | cons x t =>
      rw [hkv, List.append_assoc, List.cons_append, get_mid _ _ _ rfl]
      dsimp only
      by_cases hx : x.key = key
      · rw [if_pos hx]
        exact ⟨x.val, rfl, Or.inl ⟨x, (kvs_sub hs).subset (by rw [hkv]; simp), hx, rfl⟩⟩
      · rw [if_neg hx, gc]
        exact ⟨v, e1, down (gt_of_not_found h2 h3 (by rintro ⟨y, t', e, h5⟩; cases e; exact hx h5))⟩
    | nil =>
      rw [List.append_nil] at hkv
      cases hs0 : n.stale with
      | nil => have a := har.len; have b := har.hi; rw [hs0] at a; simp at a; omega
      | cons s r =>
      rw [hkv, get_mid _ _ _ rfl]
      dsimp only
      by_cases hx : s.key = key
      · rw [if_pos hx]
        refine ⟨s.val, rfl, Or.inr (Or.inl ⟨s, ?_, hx, rfl⟩)⟩
        rcases hPQ s (har.old s (by rw [hs0]; simp)) with h0 | h0
        · cases hks : n.kvs with
          | nil =>
            obtain ⟨s', r', e, q⟩ := hst hks
            rw [hs0] at e
            cases e
            exact q
          | cons y t =>
            have := h1 y (by rw [← hkv, hks]; simp)
            rw [h0] at hx
            simp at hx
            omega
        · exact h0
      · rw [if_neg hx, gc]
        exact ⟨v, e1, down (by simp)⟩

/-! ## The map -/

theorem after_snoc (ops : List Op) (op : Op) : after (ops ++ [op]) = Spec.KeyedStore.apply (after ops) op := by
  unfold after; rw [List.foldl_append]; rfl

theorem held_snoc {ops : List Op} {op : Op} {key v : Nat} (h : Held ops key v) : Held (ops ++ [op]) key v := by
  obtain ⟨a, b, rfl, h⟩ := h
  exact ⟨a, b ++ [op], by simp, h⟩

theorem held_now {ops : List Op} {key v : Nat} (h : after ops key = some v) : Held ops key v := ⟨ops, [], by simp, h⟩

theorem after_ne_zero (ops : List Op) : ∀ key, after ops key ≠ some 0 := by
  induction ops using List.reverseRecOn with
  | nil => intro key h; cases h
  | append_singleton ops op ih =>
    intro key
    rw [after_snoc]
    cases op with
    | insert k' v =>
      unfold Spec.KeyedStore.apply
      dsimp only
      split
      · exact ih key
      · rename_i hn
        unfold put
        split
        · intro h; cases h; exact hn (Or.inl rfl)
        · exact ih key
    | remove k' =>
      show Spec.FiniteMap.remove (after ops) k' key ≠ some 0
      unfold Spec.FiniteMap.remove
      split
      · intro h; cases h
      · exact ih key
    | search k' => exact ih key

theorem held_stays {a b : List Op} {key v : Nat} (h : after a key = some v) (hr : Op.remove key ∉ b) : after (a ++ b) key = some v := by
  induction b using List.reverseRecOn with
  | nil => rw [List.append_nil]; exact h
  | append_singleton b op ih =>
    have hb := ih (fun h => hr (List.mem_append_left _ h))
    rw [← List.append_assoc, after_snoc]
    cases op with
    | insert k' v' =>
      unfold Spec.KeyedStore.apply
      dsimp only
      split
      · exact hb
      · rename_i hn
        unfold put
        split
        · rename_i e
          subst e
          exact absurd (Or.inr (by rw [hb]; simp)) hn
        · exact hb
    | remove k' =>
      show Spec.FiniteMap.remove _ k' key = some v
      unfold Spec.FiniteMap.remove
      split
      · rename_i e
        subst e
        exact absurd (List.mem_append_right _ (List.mem_singleton.mpr rfl)) hr
      · exact hb
    | search k' => exact hb

/-! ## The invariant -/

def PQ (ops : List Op) (x : KV) : Prop := x = ⟨0, 0⟩ ∨ Held ops x.key x.val

theorem Sh.mono {P Q : KV → Prop} (hPQ : ∀ x, P x → Q x) {k : Nat} : ∀ {h m : Nat} {n : Node}, Sh P k h m n → Sh Q k h m n := by
  intro h
  induction h with
  | zero => intro m n hs; exact ⟨hs.1, hs.2.1, hs.2.2.len, hs.2.2.lo, hs.2.2.hi, fun x hx => hPQ x (hs.2.2.cells x hx), fun x hx => hPQ x (hs.2.2.old x hx)⟩
  | succ h ih =>
    intro m n hs
    have ha := hs.arr
    exact ⟨hs.1, hs.2.1, ⟨ha.len, ha.lo, ha.hi, fun x hx => hPQ x (ha.cells x hx), fun x hx => hPQ x (ha.old x hx)⟩, fun c hc => ih (hs.2.2.2 c hc)⟩

structure NInv (k : Nat) (ops : List Op) (m : Map Nat Nat) (h : Nat) (n : Node) : Prop where
  sh : Sh (PQ ops) k h 0 n
  sorted : Sorted (toL h n)
  map : ∀ key v, m key = some v ↔ (⟨key, v⟩ : KV) ∈ toL h n
  deg : n.kvs = [] → h ≠ 0 ∧ ∃ s r, n.stale = s :: r ∧ Held ops s.key s.val

def Inv (k : Nat) (root : Option Node) (ops : List Op) : Prop :=
  match root with
  | none => ∀ key, after ops key = none
  | some n => ∃ h, NInv k ops (after ops) h n

theorem NInv.snoc {k h : Nat} {ops : List Op} {op : Op} {m : Map Nat Nat} {n : Node} (hn : NInv k ops m h n) : NInv k (ops ++ [op]) m h n := by
  refine ⟨hn.sh.mono ?_, hn.sorted, hn.map, fun h0 => ?_⟩
  · rintro x (e | e)
    · exact Or.inl e
    · exact Or.inr (held_snoc e)
  · obtain ⟨h1, s, r, h2, h3⟩ := hn.deg h0
    exact ⟨h1, s, r, h2, held_snoc h3⟩

theorem NInv.none_iff {k h key : Nat} {ops : List Op} {m : Map Nat Nat} {n : Node} (hn : NInv k ops m h n) :
    m key = none ↔ ∀ x ∈ toL h n, x.key ≠ key := by
  constructor
  · rintro h0 ⟨a, b⟩ hx rfl
    rw [← hn.map, h0] at hx
    cases hx
  · intro h0
    cases hm : m key with
    | none => rfl
    | some v => exact absurd rfl (h0 _ ((hn.map key v).mp hm))

theorem NInv.some_iff {k h key : Nat} {ops : List Op} {m : Map Nat Nat} {n : Node} (hn : NInv k ops m h n) :
    m key ≠ none ↔ ∃ x ∈ toL h n, x.key = key := by
  rw [Ne, hn.none_iff]
  push Not
  rfl

theorem mem_ins {kv x : KV} {l : List KV} (hno : ∀ x ∈ l, x.key ≠ kv.key) : x ∈ ins kv l ↔ x = kv ∨ x ∈ l := by
  unfold ins
  simp only [List.mem_append, List.mem_cons, List.mem_filter, decide_eq_true_eq]
  constructor
  · rintro (⟨h, _⟩ | h | ⟨h, _⟩)
    · exact Or.inr h
    · exact Or.inl h
    · exact Or.inr h
  · rintro (h | h)
    · exact Or.inr (Or.inl h)
    · have := hno x h
      rcases Nat.lt_or_ge x.key kv.key with h1 | h1
      · exact Or.inl ⟨h, h1⟩
      · exact Or.inr (Or.inr ⟨h, by omega⟩)

theorem sorted_ins {kv : KV} {l : List KV} (h : Sorted l) : Sorted (ins kv l) := by
  unfold ins
  rw [Sorted, List.pairwise_append]
  refine ⟨h.filter _, List.pairwise_cons.mpr ⟨?_, h.filter _⟩, ?_⟩
  · intro x hx
    simpa using (List.mem_filter.mp hx).2
  · intro x hx y hy
    have h1 : x.key < kv.key := by simpa using (List.mem_filter.mp hx).2
    rcases List.mem_cons.mp hy with rfl | hy
    · exact h1
    · have h2 : kv.key < y.key := by simpa using (List.mem_filter.mp hy).2
      omega

theorem map_ins {k h key val : Nat} {ops : List Op} {m : Map Nat Nat} {n : Node} (hn : NInv k ops m h n) (hno : ∀ x ∈ toL h n, x.key ≠ key) :
    ∀ key' v, put m key val key' = some v ↔ (⟨key', v⟩ : KV) ∈ ins ⟨key, val⟩ (toL h n) := by
  intro key' v
  rw [mem_ins (kv := ⟨key, val⟩) hno]
  unfold put
  by_cases hk : key' = key
  · rw [if_pos hk, hk]
    constructor
    · intro h; cases h; exact Or.inl rfl
    · rintro (h | h)
      · cases h; rfl
      · exact absurd rfl (hno _ h)
  · rw [if_neg hk, hn.map]
    constructor
    · exact Or.inr
    · rintro (h | h)
      · cases h; exact absurd rfl hk
      · exact h

theorem create_inv {k : Nat} (hk : 4 ≤ k) (ops : List Op) : Sh (PQ ops) k 0 0 (create k) ∧ toL 0 (create k) = [] := by
  refine ⟨⟨rfl, rfl, ?_, Nat.zero_le _, ?_, ?_, ?_⟩, rfl⟩
  · simp only [create, kvs_mk, stale_mk, length_zeros, List.length_nil, Nat.zero_add]
  · simp only [create, kvs_mk, List.length_nil]; omega
  · intro x hx; cases hx
  · intro x hx; exact Or.inl (mem_zeros hx)

theorem insert_root {k key val : Nat} (hk : 4 ≤ k) (hv : val ≠ 0) {root : Option Node} {ops : List Op} (hi : Inv k root ops) :
    ∃ root', insert k root key val = .ok (root', result (after ops) (.insert key val)) ∧ Inv k root' (ops ++ [.insert key val]) := by
  -- the node inserted into
  obtain ⟨h, hs, hsort, hmap, hdeg⟩ : ∃ h, Sh (PQ ops) k h 0 (root.getD (create k)) ∧ Sorted (toL h (root.getD (create k))) ∧
      (∀ key v, after ops key = some v ↔ (⟨key, v⟩ : KV) ∈ toL h (root.getD (create k))) ∧
      ((root.getD (create k)).kvs = [] → h ≠ 0 → ∃ s r, (root.getD (create k)).stale = s :: r ∧ Held ops s.key s.val) := by
    cases root with
    | none =>
      obtain ⟨h1, h2⟩ := create_inv hk ops
      refine ⟨0, h1, by show Sorted (toL 0 (create k)); rw [h2]; exact List.Pairwise.nil, ?_, fun _ h => absurd rfl h⟩
      intro key v
      have : after ops key = none := hi key
      rw [this]
      show _ ↔ _ ∈ toL 0 (create k)
      rw [h2]
      simp
    | some n =>
      obtain ⟨h, hn⟩ := hi
      exact ⟨h, hn.sh, hn.sorted, hn.map, fun h0 _ => (hn.deg h0).2⟩
  have hnone : ∀ key, after ops key = none ↔ ∀ x ∈ toL h (root.getD (create k)), x.key ≠ key := by
    intro key
    constructor
    · rintro h0 ⟨a, b⟩ hx rfl
      rw [← hmap, h0] at hx
      cases hx
    · intro h0
      cases hm : after ops key with
      | none => rfl
      | some v => exact absurd rfl (h0 _ ((hmap key v).mp hm))
  have hPz : PQ (ops ++ [Op.insert key val]) ⟨0, 0⟩ := Or.inl rfl
  have hs' : Sh (PQ (ops ++ [Op.insert key val])) k h 0 (root.getD (create k)) := hs.mono (by
    rintro x (e | e)
    · exact Or.inl e
    · exact Or.inr (held_snoc e))
  have hmapnew : after ops key = none → after (ops ++ [Op.insert key val]) = put (after ops) key val := by
    intro h0
    rw [after_snoc]
    unfold Spec.KeyedStore.apply
    dsimp only
    rw [if_neg]
    rintro (h | h)
    · exact hv h
    · exact h h0
  unfold insert result
  dsimp only
  rw [if_neg hv, if_neg hv]
  by_cases hno : after ops key = none
  · rw [if_neg (by rw [hno]; simp)]
    have hP : PQ (ops ++ [Op.insert key val]) ⟨key, val⟩ := Or.inr (held_now (by
      rw [hmapnew hno]; unfold put; simp))
    have hno' := (hnone key).mp hno
    have hput : ∀ key' v, put (after ops) key val key' = some v ↔ (⟨key', v⟩ : KV) ∈ ins ⟨key, val⟩ (toL h (root.getD (create k))) := by
      intro key' v
      rw [mem_ins (kv := ⟨key, val⟩) hno']
      unfold put
      by_cases hk : key' = key
      · rw [if_pos hk, hk]
        constructor
        · intro h; cases h; exact Or.inl rfl
        · rintro (h | h)
          · cases h; rfl
          · exact absurd rfl (hno' _ h)
      · rw [if_neg hk, hmap]
        constructor
        · exact Or.inr
        · rintro (h | h)
          · cases h; exact absurd rfl hk
          · exact h
    obtain ⟨_, i2⟩ := insert_spec hk hPz hP h 0 (root.getD (create k)) ((root.getD (create k)).depth + 1) hs' hsort (by rw [hs.depth]; omega)
    rcases i2 hno' with ⟨n', e, s1, t1, d1⟩ | ⟨n', med, r, e, s1, s2, pm, hne, t1⟩
    · rw [e]
      refine ⟨some n', rfl, h, s1, by rw [t1]; exact sorted_ins hsort, ?_, ?_⟩
      · rw [hmapnew hno, t1]; exact hput
      · intro h0
        obtain ⟨q1, q2, q3⟩ := d1 h0
        obtain ⟨s, r, q4, q5⟩ := hdeg q1 q3
        exact ⟨q3, s, r, by rw [q2, q4], held_snoc q5⟩
    · rw [e]
      simp only [Outcome.bind_ok]
      have ha := s1.arr
      have hlen := ha.len
      have hhi := ha.hi
      have slft : Sh (PQ (ops ++ [Op.insert key val])) k h (k / 2 - 1) (Node.mk n'.leaf n'.kvs (zeros (k - n'.used)) n'.ch) := by
        have hl : n'.kvs.length + (zeros (k - n'.used)).length = k := by
          rw [length_zeros]; unfold Node.used; omega
        cases h with
        | zero => exact ⟨s1.1, s1.2.1, hl, ha.lo, ha.hi, ha.cells, fun x hx => Or.inl (mem_zeros hx)⟩
        | succ h => exact ⟨s1.1, s1.2.1, ⟨hl, ha.lo, ha.hi, ha.cells, fun x hx => Or.inl (mem_zeros hx)⟩, s1.2.2.2⟩
      have tlft : toL h (Node.mk n'.leaf n'.kvs (zeros (k - n'.used)) n'.ch) = toL h n' := by
        cases h <;> rfl
      have htl : toL (h + 1) (Node.mk false [med] ((n'.kvs ++ n'.stale).drop 1) [Node.mk n'.leaf n'.kvs (zeros (k - n'.used)) n'.ch, r]) =
          ins ⟨key, val⟩ (toL h (root.getD (create k))) := by
        rw [← t1, toL_succ]
        simp [inter, tlft]
      refine ⟨_, rfl, h + 1, ?_, by rw [htl]; exact sorted_ins hsort, ?_, ?_⟩
      · refine ⟨rfl, rfl, ⟨?_, Nat.zero_le _, ?_, ?_, ?_⟩, ?_⟩
        · simp only [kvs_mk, stale_mk, List.length_drop, List.length_append, List.length_singleton]; omega
        · simp only [kvs_mk, List.length_singleton]; omega
        · intro x hx
          simp only [kvs_mk, List.mem_singleton] at hx
          rw [hx]; exact pm
        · intro x hx
          have := List.mem_of_mem_drop hx
          rcases List.mem_append.mp this with hx | hx
          · exact ha.cells x hx
          · exact ha.old x hx
        · intro c hc
          simp only [ch_mk, List.mem_cons, List.not_mem_nil, or_false] at hc
          rcases hc with rfl | rfl
          · exact slft
          · exact s2
      · rw [hmapnew hno, htl]; exact hput
      · intro h0; cases h0
  · rw [if_pos hno]
    have hyes : ∃ x ∈ toL h (root.getD (create k)), x.key = key := by
      rw [hnone] at hno
      push Not at hno
      exact hno
    obtain ⟨i1, _⟩ := insert_spec (kv := ⟨key, val⟩) (P := fun _ => True) hk trivial trivial h 0 (root.getD (create k))
      ((root.getD (create k)).depth + 1) (hs.mono (fun _ _ => trivial)) hsort (by rw [hs.depth]; omega)
    rw [i1 hyes]
    refine ⟨_, rfl, ?_⟩
    cases root with
    | none =>
      exfalso
      exact hno (hi key)
    | some n =>
      obtain ⟨h, hn⟩ := hi
      refine ⟨h, ?_⟩
      rw [after_snoc]
      unfold Spec.KeyedStore.apply
      dsimp only
      rw [if_pos (Or.inr hno)]
      exact hn.snoc

theorem mem_del {key : Nat} {x : KV} {l : List KV} : x ∈ del key l ↔ x ∈ l ∧ x.key ≠ key := by
  unfold del; simp [List.mem_filter]

/-- A degenerate root whose child is too small: `fill` has no sibling to work with. -/
theorem delete_deg {P : KV → Prop} {k h m key fuel : Nat} {n : Node} (hs : Sh P k (h + 1) m n) (h0 : n.kvs = [])
    (hc : ¬ ∀ c ∈ n.ch, k / 2 ≤ c.used) : deleteNode k fuel key n = .ub := by
  have hl := hs.2.1
  rw [h0] at hl
  obtain ⟨c, hch⟩ : ∃ c, n.ch = [c] := List.length_eq_one_iff.mp hl
  have hcu : c.used < k / 2 := by
    rw [hch] at hc
    push Not at hc
    obtain ⟨d, hd, hlt⟩ := hc
    rw [List.mem_singleton] at hd
    rw [← hd]; exact hlt
  cases fuel with
  | zero => rfl
  | succ f =>
    have hu : n.used = 0 := by unfold Node.used; rw [h0]; rfl
    have hsk : searchKey n.kvs key = 0 := by rw [h0]; unfold searchKey searchLoop; simp
    have hf : fill k n 0 = .ub := by
      unfold fill
      rw [hch]
      simp [hu]
    unfold deleteNode
    dsimp only
    rw [hsk, h0, hch, if_neg (by simp), if_neg (by rw [hs.1]; decide)]
    simp only [List.getElem?_cons_zero]
    rw [if_pos hcu, hf]
    rfl

theorem remove_root {k key : Nat} (hk : 4 ≤ k) {n : Node} {ops : List Op} {h : Nat} (hi : NInv k ops (after ops) h n) :
    (remove k (some n) key = .ub ∧ n.kvs = []) ∨
    (∃ root', remove k (some n) key = .ok (root', result (after ops) (.remove key)) ∧ Inv k root' (ops ++ [.remove key]) ∧
      (n.kvs ≠ [] → after ops key ≠ none → ∀ n', root' = some n' → n'.kvs ≠ [])) := by
  unfold remove
  dsimp only
  by_cases hd : n.kvs = [] → h ≠ 0 → ∀ c ∈ n.ch, k / 2 ≤ c.used
  · right
    obtain ⟨n', r, e1, e2, e3, e4, e5⟩ := delete_spec hk h 0 key n (2 * n.depth + 2) hi.sh hi.sorted (by rw [hi.sh.depth]; omega) hd
    rw [e1]
    simp only [Outcome.bind_ok]
    have hm' : after (ops ++ [.remove key]) = Spec.FiniteMap.remove (after ops) key := by rw [after_snoc]; rfl
    have hsh : Sh (PQ (ops ++ [.remove key])) k h 0 n' := e2.mono (by
      rintro x (e | e)
      · exact Or.inl e
      · exact Or.inr (held_snoc e))
    have hsort : Sorted (toL h n') := by rw [e3]; exact hi.sorted.filter _
    have hmap : ∀ key' v, after (ops ++ [.remove key]) key' = some v ↔ (⟨key', v⟩ : KV) ∈ toL h n' := by
      intro key' v
      rw [hm', e3, mem_del]
      unfold Spec.FiniteMap.remove
      by_cases hkk : key' = key
      · rw [if_pos hkk]
        simp [hkk]
      · rw [if_neg hkk, hi.map]
        simp [hkk]
    have held : ∀ s ∈ n.kvs, Held (ops ++ [.remove key]) s.key s.val := by
      intro s hs
      exact held_snoc (held_now ((hi.map s.key s.val).mpr ((kvs_sub hi.sh).subset hs)))
    by_cases hr : r = true
    · have hin := hi.some_iff.mpr (e4.mp hr)
      have hres : result (after ops) (.remove key) = 0 := by unfold result; dsimp only; rw [if_neg hin]
      rw [hres]
      subst hr
      simp only [Bool.not_true, Bool.false_eq_true, if_false]
      by_cases hu : n'.used = 0
      · have hkv : n'.kvs = [] := List.length_eq_zero_iff.mp hu
        rw [if_pos hu]
        cases h with
        | zero =>
          rw [if_pos e2.1]
          refine ⟨none, rfl, ?_, ?_⟩
          · show ∀ key', after _ key' = none
            intro key'
            cases hx : after (ops ++ [.remove key]) key' with
            | none => rfl
            | some v =>
              have := (hmap key' v).mp hx
              rw [show toL 0 n' = n'.kvs from rfl, hkv] at this
              cases this
          · intro _ _ m hm
            cases hm
        | succ h =>
          have hl := e2.2.1
          rw [hkv] at hl
          obtain ⟨c, hch⟩ : ∃ c, n'.ch = [c] := List.length_eq_one_iff.mp hl
          have hc := hsh.2.2.2 c (by rw [hch]; simp)
          have hcne : c.kvs ≠ [] := by
            intro h0
            have := hc.arr.lo
            rw [h0] at this
            simp at this
            omega
          have htc : toL (h + 1) n' = toL h c := by
            rw [toL_succ, hch, hkv, List.map_cons, List.map_nil, inter_one]
          rw [if_neg (by rw [e2.1]; decide), hch]
          simp only [List.getElem?_cons_zero]
          refine ⟨some c, rfl, ⟨h, hc.weaken (Nat.zero_le _), by rw [← htc]; exact hsort, by rw [← htc]; exact hmap, fun h0 => absurd h0 hcne⟩, ?_⟩
          intro _ _ m hm
          cases hm
          exact hcne
      · rw [if_neg hu]
        have hkv : n'.kvs ≠ [] := fun h0 => hu (by unfold Node.used; rw [h0]; rfl)
        refine ⟨some n', rfl, ⟨h, hsh, hsort, hmap, fun h0 => absurd h0 hkv⟩, ?_⟩
        intro _ _ m hm
        cases hm
        exact hkv
    · have hout : after ops key = none := by
        rw [hi.none_iff]
        intro x hx e
        exact hr (e4.mpr ⟨x, hx, e⟩)
      have hres : result (after ops) (.remove key) = -1 := by unfold result; dsimp only; rw [if_pos hout]
      rw [hres]
      have hrf : r = false := by cases r <;> simp_all
      subst hrf
      simp only [Bool.not_false, if_true]
      refine ⟨some n', rfl, ⟨h, hsh, hsort, hmap, ?_⟩, fun _ h => absurd hout h⟩
      intro h0
      have hh : h ≠ 0 := by
        rintro rfl
        have h1 : toL 0 n' = [] := h0
        have h2 : toL 0 n = [] := by
          rw [List.eq_nil_iff_forall_not_mem]
          intro x hx
          have := mem_del.mpr ⟨hx, (hi.none_iff.mp hout) x hx⟩
          rw [← e3, h1] at this
          cases this
        exact (hi.deg h2).1 rfl
      refine ⟨hh, ?_⟩
      rcases e5 h0 hh with ⟨a, b⟩ | ⟨s, hs, rest, b⟩
      · obtain ⟨_, s, r, q1, q2⟩ := hi.deg a
        exact ⟨s, r, by rw [b, q1], held_snoc q2⟩
      · exact ⟨s, rest, b, held s hs⟩
  · left
    push Not at hd
    obtain ⟨h0, h1, c, hc, hlt⟩ := hd
    obtain ⟨h', rfl⟩ : ∃ h', h = h' + 1 := ⟨h - 1, by omega⟩
    rw [delete_deg hi.sh h0 (by push Not; exact ⟨c, hc, hlt⟩)]
    exact ⟨rfl, h0⟩

theorem inv_reach {k : Nat} (hk : 4 ≤ k) {root : Option Node} {ops : List Op} (h : Reach k root ops) : Inv k root ops := by
  induction h with
  | init => intro key; rfl
  | @step root root' ops op r hr he ih =>
    cases op with
    | insert key val =>
      have he : insert k root key val = .ok (root', r) := he
      by_cases hv : val = 0
      · unfold insert at he
        rw [if_pos hv] at he
        cases he
        have hm : after (ops ++ [Op.insert key val]) = after ops := by
          rw [after_snoc]; unfold Spec.KeyedStore.apply; dsimp only; rw [if_pos (Or.inl hv)]
        cases root with
        | none => intro key; rw [hm]; exact ih key
        | some n => obtain ⟨h, hn⟩ := ih; exact ⟨h, by rw [hm]; exact hn.snoc⟩
      · obtain ⟨root'', e1, e2⟩ := insert_root hk hv (key := key) ih
        rw [e1] at he
        cases he
        exact e2
    | remove key =>
      have he : remove k root key = .ok (root', r) := he
      cases root with
      | none =>
        cases he
        intro key'
        rw [after_snoc]
        show Spec.FiniteMap.remove _ _ _ = none
        unfold Spec.FiniteMap.remove
        split
        · rfl
        · exact ih key'
      | some n =>
        obtain ⟨h, hn⟩ := ih
        rcases remove_root hk hn (key := key) with ⟨e, _⟩ | ⟨root'', e1, e2, _⟩
        · rw [e] at he; cases he
        · rw [e1] at he
          cases he
          exact e2
    | search key =>
      have hroot : root' = root := by
        have he : (do let v ← search root key; (.ok (root, (v : Int)) : Outcome _)) = .ok (root', r) := he
        cases hs : search root key with
        | ub => rw [hs] at he; cases he
        | ok v => rw [hs] at he; cases he; rfl
      subst hroot
      have hm : after (ops ++ [Op.search key]) = after ops := by rw [after_snoc]; rfl
      cases root' with
      | none => intro key; rw [hm]; exact ih key
      | some n => obtain ⟨h, hn⟩ := ih; exact ⟨h, by rw [hm]; exact hn.snoc⟩

end Ouro.Btree
