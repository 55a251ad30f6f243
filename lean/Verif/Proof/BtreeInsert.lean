import Verif.Proof.Btree

namespace Ouro.Btree

open Ouro

theorem pos_leaf {l : List KV} (key : Nat) (h : Sorted l) : ∃ a b, l = a ++ b ∧ (∀ x ∈ a, x.key < key) ∧ (∀ x ∈ b, key ≤ x.key) ∧
    (∀ x ∈ b.tail, key < x.key) ∧ searchKey l key = a.length := by
  obtain ⟨a, b, rfl, ha, hb, hc⟩ := sorted_split key h
  exact ⟨a, b, rfl, ha, hb, hc, searchKey_eq ha hb hc⟩

/-- A position among the keys and children of an inner node. -/
structure At (n : Node) (i : Nat) (cs1 : List Node) (c : Node) (cs2 : List Node) (ks1 ks2 : List KV) : Prop where
  ch : n.ch = cs1 ++ c :: cs2
  kvs : n.kvs = ks1 ++ ks2
  lc : cs1.length = i
  lk : ks1.length = i
  eq : cs2.length = ks2.length

theorem At.toL {n c : Node} {i h : Nat} {cs1 cs2 : List Node} {ks1 ks2 : List KV} (ha : At n i cs1 c cs2 ks1 ks2) :
    toL (h + 1) n = pre (cs1.map (toL h)) ks1 ++ (toL h c ++ post ks2 (cs2.map (toL h))) := by
  rw [Btree.toL, ha.ch, ha.kvs, List.map_append, List.map_cons, inter_mid _ _ _ _ _ (by rw [List.length_map, ha.lc, ha.lk])]

theorem pos_node {P : KV → Prop} {k h m : Nat} {n : Node} (hs : Sh P k (h + 1) m n) {ks1 ks2 : List KV} (hk : n.kvs = ks1 ++ ks2) :
    ∃ cs1 c cs2, At n ks1.length cs1 c cs2 ks1 ks2 := by
  have h1 := hs.2.1
  rw [hk, List.length_append] at h1
  obtain ⟨a, x, b, h2, h3⟩ := split_at n.ch ks1.length (by omega)
  refine ⟨a, x, b, h2, hk, h3, rfl, ?_⟩
  rw [h2, List.length_append, List.length_cons] at h1
  omega

theorem pos_key {P : KV → Prop} {k h m : Nat} {n : Node} (hs : Sh P k h m n) (hsort : Sorted (toL h n)) (key : Nat) :
    ∃ ks1 ks2, n.kvs = ks1 ++ ks2 ∧ (∀ x ∈ ks1, x.key < key) ∧ (∀ x ∈ ks2, key ≤ x.key) ∧
    (∀ x ∈ ks2.tail, key < x.key) ∧ searchKey n.kvs key = ks1.length :=
  pos_leaf key (hsort.sublist (kvs_sub hs))

theorem found_iff {ks1 ks2 : List KV} {key : Nat} : ((ks1 ++ ks2)[ks1.length]?.map (·.key) = some key) ↔ ∃ x t, ks2 = x :: t ∧ x.key = key := by
  cases ks2 with
  | nil => simp
  | cons x t => simp

theorem gt_of_not_found {ks2 : List KV} {key : Nat} (hb : ∀ x ∈ ks2, key ≤ x.key) (hc : ∀ x ∈ ks2.tail, key < x.key)
    (hn : ¬ ∃ x t, ks2 = x :: t ∧ x.key = key) : ∀ x ∈ ks2, key < x.key := by
  cases ks2 with
  | nil => intro x hx; cases hx
  | cons y t =>
    intro x hx
    rcases List.mem_cons.mp hx with rfl | hx
    · have := hb x List.mem_cons_self
      have : x.key ≠ key := fun h => hn ⟨x, t, rfl, h⟩
      omega
    · exact hc x hx

/-- The list with `kv` in its place. -/
def ins (kv : KV) (l : List KV) : List KV := l.filter (fun x => x.key < kv.key) ++ kv :: l.filter (fun x => kv.key < x.key)

theorem filter_lt {key : Nat} {a : List KV} (ha : ∀ x ∈ a, x.key < key) : a.filter (fun x => x.key < key) = a ∧ a.filter (fun x => key < x.key) = [] := by
  constructor
  · rw [List.filter_eq_self]; intro x hx; simpa using ha x hx
  · rw [List.filter_eq_nil_iff]; intro x hx; have := ha x hx; simp; omega

theorem filter_gt {key : Nat} {a : List KV} (ha : ∀ x ∈ a, key < x.key) : a.filter (fun x => key < x.key) = a ∧ a.filter (fun x => x.key < key) = [] := by
  constructor
  · rw [List.filter_eq_self]; intro x hx; simpa using ha x hx
  · rw [List.filter_eq_nil_iff]; intro x hx; have := ha x hx; simp; omega

theorem ins_mid {kv : KV} {a c b : List KV} (ha : ∀ x ∈ a, x.key < kv.key) (hb : ∀ x ∈ b, kv.key < x.key) :
    ins kv (a ++ (c ++ b)) = a ++ (ins kv c ++ b) := by
  unfold ins
  simp only [List.filter_append, (filter_lt ha).1, (filter_lt ha).2, (filter_gt hb).1, (filter_gt hb).2, List.nil_append, List.append_nil,
    List.append_assoc, List.cons_append]

theorem ins_nil_mid {kv : KV} {a b : List KV} (ha : ∀ x ∈ a, x.key < kv.key) (hb : ∀ x ∈ b, kv.key < x.key) :
    ins kv (a ++ b) = a ++ kv :: b := by
  have := ins_mid (c := []) ha hb
  simpa [ins] using this

/-! ## Splitting -/

/-- A node that may be full. -/
structure Ov (P : KV → Prop) (k h : Nat) (n : Node) : Prop where
  leaf : n.leaf = decide (h = 0)
  len : n.kvs.length + n.stale.length = k
  cells : ∀ x ∈ n.kvs, P x
  old : ∀ x ∈ n.stale, P x
  kids : match h with
    | 0 => n.ch = []
    | h + 1 => n.ch.length = n.kvs.length + 1 ∧ ∀ c ∈ n.ch, Sh P k h (k / 2 - 1) c

theorem Ov.sh {P : KV → Prop} {k h m : Nat} {n : Node} (ho : Ov P k h n) (hm : m ≤ n.kvs.length) (hk : n.kvs.length < k) : Sh P k h m n := by
  cases h with
  | zero => exact ⟨ho.leaf, ho.kids, ho.len, hm, hk, ho.cells, ho.old⟩
  | succ h => exact ⟨ho.leaf, ho.kids.1, ⟨ho.len, hm, hk, ho.cells, ho.old⟩, ho.kids.2⟩

theorem length_zeros (n : Nat) : (zeros n).length = n := by unfold zeros; simp

theorem mem_zeros {n : Nat} {x : KV} (h : x ∈ zeros n) : x = ⟨0, 0⟩ := by unfold zeros at h; exact (List.mem_replicate.mp h).2

theorem split_spec {P : KV → Prop} {k h m : Nat} {n : Node} (hk : 4 ≤ k) (hz : P ⟨0, 0⟩) (ho : Ov P k h n) (hm : m ≤ n.kvs.length) :
    (split k n = .ok (n, none) ∧ Sh P k h m n) ∨
    (∃ n' med r, split k n = .ok (n', some (med, r)) ∧ Sh P k h (k / 2 - 1) n' ∧ Sh P k h (k / 2 - 1) r ∧ P med ∧ n'.kvs ≠ [] ∧
      toL h n' ++ med :: toL h r = toL h n) := by
  unfold split
  by_cases hu : n.used = k
  · right
    rw [if_pos hu]
    have hu' : n.kvs.length = k := hu
    obtain ⟨a, med, b, hab, hal⟩ := split_at n.kvs (n.used / 2) (by rw [hu, hu']; omega)
    have hbl : b.length = k - k / 2 - 1 := by
      have := congrArg List.length hab
      rw [List.length_append, List.length_cons, hu', hal, hu] at this
      omega
    rw [hu] at hal
    have hst : n.stale = [] := by
      have := ho.len
      exact List.length_eq_zero_iff.mp (by omega)
    have ht : n.kvs.take (k / 2) = a := by rw [hab, ← hal]; simp
    have hd : n.kvs.drop (k / 2) = med :: b := by rw [hab, ← hal]; simp
    have hd1 : n.kvs.drop (k / 2 + 1) = b := by
      rw [← List.drop_drop, hd]; rfl
    have hpa : ∀ x ∈ a, P x := fun x hx => ho.cells x (by rw [hab]; exact List.mem_append_left _ hx)
    have hpb : ∀ x ∈ b, P x := fun x hx => ho.cells x (by rw [hab]; simp [hx])
    have hpm : P med := ho.cells med (by rw [hab]; simp)
    dsimp only
    rw [hu, hab, get_mid _ _ _ hal.symm]
    dsimp only
    rw [← hab, ht, hd, hd1, hst]
    have hane : a ≠ [] := by
      intro h0
      rw [h0] at hal
      simp at hal
      omega
    refine ⟨_, med, _, rfl, ?_, ?_, hpm, hane, ?_⟩
    · apply Ov.sh
      · refine ⟨ho.leaf, ?_, hpa, ?_, ?_⟩
        · show a.length + (med :: b ++ []).length = k
          rw [List.append_nil, List.length_cons]
          omega
        · intro x hx
          have hx : x ∈ med :: b ++ [] := hx
          rw [List.append_nil] at hx
          rcases List.mem_cons.mp hx with rfl | hx
          · exact hpm
          · exact hpb x hx
        · have hki := ho.kids
          cases h with
          | zero =>
            have hki : n.ch = [] := hki
            show n.ch.take _ = []
            rw [hki]; rfl
          | succ h =>
            obtain ⟨h1, h2⟩ := hki
            refine ⟨?_, fun c hc => h2 c (List.mem_of_mem_take hc)⟩
            show (n.ch.take (k / 2 + 1)).length = a.length + 1
            rw [List.length_take]
            omega
      · show _ ≤ a.length
        omega
      · show a.length < k
        omega
    · apply Ov.sh
      · refine ⟨ho.leaf, ?_, hpb, ?_, ?_⟩
        · show b.length + (zeros (k / 2 + 1)).length = k
          rw [length_zeros]
          omega
        · intro x hx
          rw [mem_zeros hx]
          exact hz
        · have hki := ho.kids
          cases h with
          | zero =>
            have hki : n.ch = [] := hki
            show n.ch.drop _ = []
            rw [hki]; rfl
          | succ h =>
            obtain ⟨h1, h2⟩ := hki
            refine ⟨?_, fun c hc => h2 c (List.mem_of_mem_drop hc)⟩
            show (n.ch.drop (k / 2 + 1)).length = b.length + 1
            rw [List.length_drop]
            omega
      · show _ ≤ b.length
        omega
      · show b.length < k
        omega
    · cases h with
      | zero => exact hab.symm
      | succ h =>
        obtain ⟨h1, h2⟩ := ho.kids
        obtain ⟨cs1, c, cs2, hc, hcl⟩ := split_at n.ch (k / 2) (by omega)
        have hc2 : cs2.length = b.length + 1 := by
          have := congrArg List.length hc
          rw [List.length_append, List.length_cons] at this
          omega
        cases cs2 with
        | nil => simp at hc2
        | cons d cs2 =>
          have t1 : n.ch.take (k / 2 + 1) = cs1 ++ [c] := by
            rw [hc, show cs1 ++ c :: d :: cs2 = (cs1 ++ [c]) ++ d :: cs2 by simp, ← hcl]
            rw [List.take_append_of_le_length (by simp)]
            exact List.take_of_length_le (by simp)
          have t2 : n.ch.drop (k / 2 + 1) = d :: cs2 := by
            rw [hc, show cs1 ++ c :: d :: cs2 = (cs1 ++ [c]) ++ d :: cs2 by simp, ← hcl]
            rw [List.drop_append_of_le_length (by simp)]
            rw [List.drop_of_length_le (by simp)]
            rfl
          have a1 : At (Node.mk n.leaf a (med :: b ++ []) (n.ch.take (k / 2 + 1))) (k / 2) cs1 c [] a [] :=
            ⟨t1, by simp [Node.kvs], hcl, hal, rfl⟩
          have a2 : At (Node.mk n.leaf b (zeros (k / 2 + 1)) (n.ch.drop (k / 2 + 1))) 0 [] d cs2 [] b :=
            ⟨t2, rfl, rfl, rfl, by simpa using hc2⟩
          have a3 : At n (k / 2) cs1 c (d :: cs2) a (med :: b) := ⟨hc, hab, hcl, hal, by simpa using hc2⟩
          rw [a1.toL, a2.toL, a3.toL]
          simp
  · left
    rw [if_neg hu]
    have : n.kvs.length ≠ k := hu
    exact ⟨rfl, ho.sh hm (by have := ho.len; omega)⟩

/-! ## Inserting -/

theorem insert_spec {P : KV → Prop} {k : Nat} {kv : KV} (hk : 4 ≤ k) (hz : P ⟨0, 0⟩) (hP : P kv) : ∀ h m n fuel, Sh P k h m n → Sorted (toL h n) →
    h < fuel →
    ((∃ x ∈ toL h n, x.key = kv.key) → insertNode k kv fuel n = .ok none) ∧
    ((∀ x ∈ toL h n, x.key ≠ kv.key) →
      (∃ n', insertNode k kv fuel n = .ok (some (n', none)) ∧ Sh P k h m n' ∧ toL h n' = ins kv (toL h n) ∧
        (n'.kvs = [] → n.kvs = [] ∧ n'.stale = n.stale ∧ h ≠ 0)) ∨
      (∃ n' med r, insertNode k kv fuel n = .ok (some (n', some (med, r))) ∧ Sh P k h (k / 2 - 1) n' ∧ Sh P k h (k / 2 - 1) r ∧ P med ∧
        n'.kvs ≠ [] ∧ toL h n' ++ med :: toL h r = ins kv (toL h n))) := by
  intro h
  induction h with
  | zero =>
    intro m n fuel hs hsort hf
    obtain ⟨f, rfl⟩ : ∃ f, fuel = f + 1 := ⟨fuel - 1, by omega⟩
    obtain ⟨ks1, ks2, hkv, h1, h2, h3, h4⟩ := pos_key hs hsort kv.key
    have har := hs.arr
    unfold insertNode
    dsimp only
    rw [h4, hkv]
    constructor
    · rintro ⟨x, hx, hxk⟩
      rw [if_pos]
      rw [found_iff]
      have hx : x ∈ ks1 ++ ks2 := by rw [← hkv]; exact hx
      rcases List.mem_append.mp hx with hx | hx
      · have := h1 x hx; omega
      · cases ks2 with
        | nil => cases hx
        | cons y t =>
          rcases List.mem_cons.mp hx with rfl | hx
          · exact ⟨x, t, rfl, hxk⟩
          · have := h3 x hx; omega
    · intro hno
      have hnf : ¬ ∃ x t, ks2 = x :: t ∧ x.key = kv.key := by
        rintro ⟨x, t, rfl, hx⟩
        exact hno x (by show x ∈ n.kvs; rw [hkv]; simp) hx
      rw [if_neg (mt found_iff.mp hnf)]
      have hlen := har.len
      have hhi := har.hi
      rw [if_neg (by rw [hkv, List.length_append] at hhi; omega), if_pos hs.1]
      cases hst : n.stale with
      | nil => rw [hst] at hlen; simp at hlen; omega
      | cons s0 st =>
        rw [hst] at hlen
        dsimp only
        rw [insertIdx_mid _ _ _ rfl]
        have hgt := gt_of_not_found h2 h3 hnf
        have ho : Ov P k 0 (Node.mk true (ks1 ++ kv :: ks2) st n.ch) := by
          refine ⟨rfl, ?_, ?_, ?_, hs.2.1⟩
          · show (ks1 ++ kv :: ks2).length + st.length = k
            rw [hkv] at hlen
            simp only [List.length_append, List.length_cons] at hlen ⊢
            omega
          · intro x hx
            have hx : x ∈ ks1 ++ kv :: ks2 := hx
            rcases List.mem_append.mp hx with hx | hx
            · exact har.cells x (by rw [hkv]; exact List.mem_append_left _ hx)
            · rcases List.mem_cons.mp hx with rfl | hx
              · exact hP
              · exact har.cells x (by rw [hkv]; exact List.mem_append_right _ hx)
          · intro x hx
            exact har.old x (by rw [hst]; exact List.mem_cons_of_mem _ hx)
        have htl : toL 0 (Node.mk true (ks1 ++ kv :: ks2) st n.ch) = ins kv (toL 0 n) := by
          show ks1 ++ kv :: ks2 = ins kv n.kvs
          rw [hkv, ins_nil_mid h1 hgt]
        have hm : m ≤ (Node.mk true (ks1 ++ kv :: ks2) st n.ch).kvs.length := by
          show m ≤ (ks1 ++ kv :: ks2).length
          have := har.lo
          rw [hkv] at this
          simp only [List.length_append, List.length_cons] at this ⊢
          omega
        rcases split_spec hk hz ho hm with ⟨e, hsh⟩ | ⟨n', med, r, e, s1, s2, pm, hne, et⟩
        · rw [e]
          exact Or.inl ⟨_, rfl, hsh, htl, by intro h0; exact absurd h0 (by simp [Node.kvs])⟩
        · rw [e]
          exact Or.inr ⟨n', med, r, rfl, s1, s2, pm, hne, by rw [et, htl]⟩
  | succ h ih =>
    intro m n fuel hs hsort hf
    obtain ⟨f, rfl⟩ : ∃ f, fuel = f + 1 := ⟨fuel - 1, by omega⟩
    obtain ⟨ks1, ks2, hkv, h1, h2, h3, h4⟩ := pos_key hs hsort kv.key
    obtain ⟨cs1, c, cs2, hat⟩ := pos_node hs hkv
    have har := hs.arr
    have htoL := hat.toL (h := h)
    rw [htoL] at hsort
    obtain ⟨sp, sq, _⟩ := List.pairwise_append.mp hsort
    obtain ⟨sc, spo, _⟩ := List.pairwise_append.mp sq
    have hpre := pre_lt _ _ sp h1
    have hcs : ∀ d ∈ cs1 ++ c :: cs2, Sh P k h (k / 2 - 1) d := by
      rw [← hat.ch]; exact hs.2.2.2
    obtain ⟨i1, i2⟩ := ih (k / 2 - 1) c f (hcs c (by simp)) sc (by omega)
    unfold insertNode
    dsimp only
    rw [h4, hkv]
    by_cases hnf : ∃ x t, ks2 = x :: t ∧ x.key = kv.key
    · rw [if_pos (found_iff.mpr hnf)]
      refine ⟨fun _ => rfl, ?_⟩
      intro hno
      obtain ⟨x, t, rfl, hx⟩ := hnf
      exact absurd hx (hno x ((kvs_sub hs).subset (by rw [hkv]; simp)))
    · rw [if_neg (mt found_iff.mp hnf)]
      have hgt := gt_of_not_found h2 h3 hnf
      have hpost := post_gt _ _ spo hgt
      have hlen := har.len
      have hhi := har.hi
      rw [if_neg (by rw [hkv, List.length_append] at hhi; omega), if_neg (by rw [hs.1]; decide), hat.ch, get_mid _ _ _ hat.lc.symm]
      dsimp only
      constructor
      · rintro ⟨x, hx, hxk⟩
        rw [i1]
        · rfl
        · rw [htoL] at hx
          rcases List.mem_append.mp hx with hx | hx
          · have := hpre x hx; omega
          · rcases List.mem_append.mp hx with hx | hx
            · exact ⟨x, hx, hxk⟩
            · have := hpost x hx; omega
      · intro hno
        have hno' : ∀ x ∈ toL h c, x.key ≠ kv.key := by
          intro x hx
          apply hno
          rw [htoL]
          exact List.mem_append_right _ (List.mem_append_left _ hx)
        have hins : ins kv (toL (h + 1) n) = pre (cs1.map (toL h)) ks1 ++ (ins kv (toL h c) ++ post ks2 (cs2.map (toL h))) := by
          rw [htoL, ins_mid hpre hpost]
        have hcl : n.ch.length = n.kvs.length + 1 := hs.2.1
        rcases i2 hno' with ⟨c', e, hsc, tc, _⟩ | ⟨c', m', r, e, s1, s2, pm, hne, tc⟩
        · rw [e]
          simp only [Outcome.bind_ok]
          rw [set_mid' _ _ _ _ hat.lc.symm]
          have ho : Ov P k (h + 1) (Node.mk false (ks1 ++ ks2) n.stale (cs1 ++ c' :: cs2)) := by
            refine ⟨rfl, ?_, ?_, har.old, ?_, ?_⟩
            · rw [hkv] at hlen; exact hlen
            · intro x hx; exact har.cells x (by rw [hkv]; exact hx)
            · show (cs1 ++ c' :: cs2).length = (ks1 ++ ks2).length + 1
              rw [hat.ch, hkv] at hcl
              simpa using hcl
            · intro d hd
              have hd : d ∈ cs1 ++ c' :: cs2 := hd
              rcases List.mem_append.mp hd with hd | hd
              · exact hcs d (by simp [hd])
              · rcases List.mem_cons.mp hd with rfl | hd
                · exact hsc
                · exact hcs d (by simp [hd])
          have hat' : At (Node.mk false (ks1 ++ ks2) n.stale (cs1 ++ c' :: cs2)) ks1.length cs1 c' cs2 ks1 ks2 :=
            ⟨rfl, rfl, hat.lc, rfl, hat.eq⟩
          have hm : m ≤ (Node.mk false (ks1 ++ ks2) n.stale (cs1 ++ c' :: cs2)).kvs.length := by
            have := har.lo
            rw [hkv] at this
            exact this
          rcases split_spec hk hz ho hm with ⟨e, hsh⟩ | ⟨n', med, r, e, s1, s2, pm, hne, et⟩
          · rw [e]
            refine Or.inl ⟨_, rfl, hsh, ?_, ?_⟩
            · rw [hins, hat'.toL, tc]
            · intro h0
              have h0 : ks1 ++ ks2 = [] := h0
              exact ⟨h0, rfl, by omega⟩
          · rw [e]
            refine Or.inr ⟨n', med, r, rfl, s1, s2, pm, hne, ?_⟩
            rw [et, hins, hat'.toL, tc]
        · rw [e]
          simp only [Outcome.bind_ok]
          cases hst : n.stale with
          | nil => rw [hst] at hlen; simp at hlen; omega
          | cons s0 st =>
            rw [hst] at hlen
            dsimp only
            rw [set_mid' _ _ _ _ hat.lc.symm, insertIdx_mid _ _ _ rfl,
              show cs1 ++ c' :: cs2 = (cs1 ++ [c']) ++ cs2 by simp, insertIdx_mid (cs1 ++ [c']) cs2 r (by rw [List.length_append, hat.lc]; rfl)]
            have ho : Ov P k (h + 1) (Node.mk false (ks1 ++ m' :: ks2) st (cs1 ++ [c'] ++ r :: cs2)) := by
              refine ⟨rfl, ?_, ?_, ?_, ?_, ?_⟩
              · show (ks1 ++ m' :: ks2).length + st.length = k
                rw [hkv] at hlen
                simp only [List.length_append, List.length_cons] at hlen ⊢
                omega
              · intro x hx
                have hx : x ∈ ks1 ++ m' :: ks2 := hx
                rcases List.mem_append.mp hx with hx | hx
                · exact har.cells x (by rw [hkv]; exact List.mem_append_left _ hx)
                · rcases List.mem_cons.mp hx with rfl | hx
                  · exact pm
                  · exact har.cells x (by rw [hkv]; exact List.mem_append_right _ hx)
              · intro x hx
                exact har.old x (by rw [hst]; exact List.mem_cons_of_mem _ hx)
              · show (cs1 ++ [c'] ++ r :: cs2).length = (ks1 ++ m' :: ks2).length + 1
                rw [hat.ch, hkv] at hcl
                simp only [List.length_append, List.length_cons, List.length_nil] at hcl ⊢
                omega
              · intro d hd
                have hd : d ∈ cs1 ++ [c'] ++ r :: cs2 := hd
                simp only [List.append_assoc, List.cons_append, List.nil_append, List.mem_append, List.mem_cons] at hd
                rcases hd with hd | rfl | rfl | hd
                · exact hcs d (by simp [hd])
                · exact s1
                · exact s2
                · exact hcs d (by simp [hd])
            have hat' : At (Node.mk false (ks1 ++ m' :: ks2) st (cs1 ++ [c'] ++ r :: cs2)) ks1.length cs1 c' (r :: cs2) ks1 (m' :: ks2) :=
              ⟨by simp [Node.ch], rfl, hat.lc, rfl, by simp [hat.eq]⟩
            have hm : m ≤ (Node.mk false (ks1 ++ m' :: ks2) st (cs1 ++ [c'] ++ r :: cs2)).kvs.length := by
              show m ≤ (ks1 ++ m' :: ks2).length
              have := har.lo
              rw [hkv] at this
              simp only [List.length_append, List.length_cons] at this ⊢
              omega
            have hte : toL (h + 1) (Node.mk false (ks1 ++ m' :: ks2) st (cs1 ++ [c'] ++ r :: cs2)) = ins kv (toL (h + 1) n) := by
              rw [hins, hat'.toL, ← tc]
              simp
            rcases split_spec hk hz ho hm with ⟨e, hsh⟩ | ⟨n', med, r, e, s1, s2, pm, hne, et⟩
            · rw [e]
              exact Or.inl ⟨_, rfl, hsh, hte, by intro h0; exact absurd h0 (by simp [Node.kvs])⟩
            · rw [e]
              exact Or.inr ⟨n', med, r, rfl, s1, s2, pm, hne, by rw [et, hte]⟩

end Ouro.Btree
