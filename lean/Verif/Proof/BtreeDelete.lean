import Verif.Proof.BtreeInsert

namespace Ouro.Btree

open Ouro

theorem snoc_of_ne {α : Type} {l : List α} (h : l ≠ []) : ∃ a x, l = a ++ [x] := ⟨l.dropLast, l.getLast h, (List.dropLast_concat_getLast h).symm⟩

theorem inter_join {A B : List (List KV)} {ka kb : List KV} {x : KV} (ha : A.length = ka.length + 1) (hb : B.length = kb.length + 1) :
    inter (A ++ B) (ka ++ x :: kb) = inter A ka ++ x :: inter B kb := by
  obtain ⟨A', a, rfl⟩ := snoc_of_ne (l := A) (by intro h; rw [h] at ha; simp at ha)
  cases B with
  | nil => simp at hb
  | cons b B' =>
    have hl : A'.length = ka.length := by simpa using ha
    have h1 := inter_mid a [] [] A' ka hl
    rw [List.append_nil, post_nil, List.append_nil] at h1
    rw [h1, show A' ++ [a] ++ b :: B' = A' ++ a :: (b :: B') by simp, inter_mid _ _ _ _ _ hl, post_cons]
    simp [inter]

/-! ## Merging and feeding -/

theorem merge_spec {P : KV → Prop} {k h m i : Nat} {n c d : Node} {cs1 cs2 : List Node} {ks1 ks2 : List KV} {x : KV}
    (hs : Sh P k (h + 1) m n) (hat : At n i cs1 c (d :: cs2) ks1 (x :: ks2)) (hc : c.used + 1 = k / 2) (hd : d.used + 1 = k / 2) :
    ∃ n' mm, merge k n i = .ok n' ∧ At n' i cs1 mm cs2 ks1 ks2 ∧ Sh P k (h + 1) (m - 1) n' ∧ toL h mm = toL h c ++ x :: toL h d ∧
      k / 2 ≤ mm.used ∧ ∃ l ∈ n.kvs, n'.stale = l :: n.stale := by
  have har := hs.arr
  have hcs : ∀ e ∈ cs1 ++ c :: d :: cs2, Sh P k h (k / 2 - 1) e := by rw [← hat.ch]; exact hs.2.2.2
  have sc := hcs c (by simp)
  have sd := hcs d (by simp)
  have hxP : P x := har.cells x (by rw [hat.kvs]; simp)
  have hne : n.kvs ≠ [] := by rw [hat.kvs]; simp
  have hc' : c.kvs.length + 1 = k / 2 := hc
  have hd' : d.kvs.length + 1 = k / 2 := hd
  have cl := sc.arr.len
  unfold merge
  rw [hat.ch, hat.kvs, get_mid _ _ _ hat.lc.symm, get_mid1 _ _ _ _ hat.lc.symm, get_mid _ _ _ hat.lk.symm]
  dsimp only
  have hcond : ¬ (c.used + 1 ≠ k / 2 ∨ c.stale.length < d.used + 1) := by
    rintro (h1 | h1)
    · exact h1 hc
    · unfold Node.used at h1; omega
  rw [if_neg hcond]
  obtain ⟨l, hl⟩ : ∃ l, (ks1 ++ x :: ks2).getLast? = some l := by
    rw [List.getLast?_eq_some_getLast (by simp)]
    exact ⟨_, rfl⟩
  rw [hl]
  dsimp only
  rw [set_mid' _ _ _ _ hat.lc.symm, eraseIdx_mid _ _ _ hat.lk.symm]
  rw [show ∀ e : Node, cs1 ++ e :: d :: cs2 = (cs1 ++ [e]) ++ d :: cs2 by intro e; simp, eraseIdx_mid _ _ _ (by simp [hat.lc])]
  have hll : l ∈ n.kvs := by rw [hat.kvs]; exact List.mem_of_getLast? hl
  have hmm : Sh P k h (k / 2 - 1) (Node.mk c.leaf (c.kvs ++ x :: d.kvs) (c.stale.drop (d.used + 1)) (if c.leaf then c.ch else c.ch ++ d.ch)) := by
    apply Ov.sh
    · refine ⟨sc.leaf, ?_, ?_, ?_, ?_⟩
      · show (c.kvs ++ x :: d.kvs).length + (c.stale.drop (d.used + 1)).length = k
        rw [List.length_append, List.length_cons, List.length_drop]
        unfold Node.used
        omega
      · intro y hy
        have hy : y ∈ c.kvs ++ x :: d.kvs := hy
        simp only [List.mem_append, List.mem_cons] at hy
        rcases hy with hy | rfl | hy
        · exact sc.arr.cells y hy
        · exact hxP
        · exact sd.arr.cells y hy
      · intro y hy
        exact sc.arr.old y (List.mem_of_mem_drop hy)
      · cases h with
        | zero =>
          show (if c.leaf then c.ch else c.ch ++ d.ch) = []
          rw [if_pos sc.1]
          exact sc.2.1
        | succ h =>
          dsimp only
          constructor
          · show (if c.leaf then c.ch else c.ch ++ d.ch).length = (c.kvs ++ x :: d.kvs).length + 1
            rw [if_neg (by rw [sc.1]; decide), List.length_append, List.length_append, List.length_cons]
            have h1 := sc.2.1
            have h2 := sd.2.1
            omega
          · intro e he
            have he : e ∈ (if c.leaf then c.ch else c.ch ++ d.ch) := he
            rw [if_neg (by rw [sc.1]; decide)] at he
            rcases List.mem_append.mp he with he | he
            · exact sc.2.2.2 e he
            · exact sd.2.2.2 e he
    · show _ ≤ (c.kvs ++ x :: d.kvs).length
      rw [List.length_append, List.length_cons]
      omega
    · show (c.kvs ++ x :: d.kvs).length < k
      rw [List.length_append, List.length_cons]
      omega
  refine ⟨_, Node.mk c.leaf (c.kvs ++ x :: d.kvs) (c.stale.drop (d.used + 1)) (if c.leaf then c.ch else c.ch ++ d.ch), rfl,
    ⟨by simp only [ch_mk, List.append_assoc, List.cons_append, List.nil_append], rfl, hat.lc, hat.lk, by have := hat.eq; simpa using this⟩, ?_, ?_, ?_, l, by rw [hat.kvs] at hll; exact hll, rfl⟩
  · have hnl := har.len
    have hlo := har.lo
    have hhi := har.hi
    rw [hat.kvs] at hnl hlo hhi
    simp only [List.length_append, List.length_cons] at hnl hlo hhi
    refine ⟨hs.1, ?_, ⟨?_, ?_, ?_, ?_, ?_⟩, ?_⟩
    · have := hs.2.1
      rw [hat.ch, hat.kvs] at this
      simp only [ch_mk, kvs_mk, List.length_append, List.length_cons, List.length_nil] at this ⊢
      omega
    · simp only [stale_mk, kvs_mk, List.length_append, List.length_cons]
      omega
    · simp only [kvs_mk, List.length_append]
      omega
    · simp only [kvs_mk, List.length_append]
      omega
    · intro y hy
      have hy : y ∈ ks1 ++ ks2 := hy
      apply har.cells
      rw [hat.kvs]
      rcases List.mem_append.mp hy with hy | hy <;> simp [hy]
    · intro y hy
      rcases List.mem_cons.mp hy with rfl | hy
      · exact har.cells _ hll
      · exact har.old _ hy
    · intro e he
      simp only [ch_mk, List.append_assoc, List.cons_append, List.nil_append, List.mem_append, List.mem_cons] at he
      rcases he with he | rfl | he
      · exact hcs e (by simp [he])
      · exact hmm
      · exact hcs e (by simp [he])
  · cases h with
    | zero => rfl
    | succ h =>
      rw [toL_succ, toL_succ]
      simp only [ch_mk, kvs_mk]
      have h0 : ¬ (c.leaf = true) := by rw [sc.1]; decide
      simp only [h0, if_false, Bool.false_eq_true, List.map_append]
      rw [inter_join]
      · rfl
      · rw [List.length_map]; exact sc.2.1
      · rw [List.length_map]; exact sd.2.1
  · show k / 2 ≤ (c.kvs ++ x :: d.kvs).length
    rw [List.length_append, List.length_cons]
    omega

theorem feedPrev_spec {P : KV → Prop} {k h m i : Nat} {n c p : Node} {cs1 cs2 : List Node} {ks1 ks2 : List KV} {x : KV} (hk : 4 ≤ k)
    (hs : Sh P k (h + 1) m n) (hat : At n i cs1 p (c :: cs2) ks1 (x :: ks2)) (hc : c.used + 1 = k / 2) (hp : k / 2 ≤ p.used) :
    ∃ n' p' c' y e, feedPrev n (i + 1) c p = .ok n' ∧ At n' (i + 1) (cs1 ++ [p']) c' cs2 (ks1 ++ [y]) ks2 ∧ Sh P k (h + 1) m n' ∧
      n'.kvs.length = n.kvs.length ∧ k / 2 ≤ c'.used ∧ toL h c' = e ++ x :: toL h c ∧ toL h p = toL h p' ++ y :: e := by
  have har := hs.arr
  have hcs : ∀ e ∈ cs1 ++ p :: c :: cs2, Sh P k h (k / 2 - 1) e := by rw [← hat.ch]; exact hs.2.2.2
  have sp := hcs p (by simp)
  have sc := hcs c (by simp)
  have hxP : P x := har.cells x (by rw [hat.kvs]; simp)
  have hc' : c.kvs.length + 1 = k / 2 := hc
  have hp' : k / 2 ≤ p.kvs.length := hp
  obtain ⟨kp, y, hkp⟩ := snoc_of_ne (l := p.kvs) (by intro h; rw [h] at hp'; simp at hp'; omega)
  have hyP : P y := sp.arr.cells y (by rw [hkp]; simp)
  have cl := sc.arr.len
  have pl := sp.arr.len
  have ph := sp.arr.hi
  rw [hkp, List.length_append, List.length_singleton] at pl ph hp'
  cases hst : c.stale with
  | nil => rw [hst] at cl; simp at cl; omega
  | cons s0 st =>
    rw [hst, List.length_cons] at cl
    unfold feedPrev
    rw [hst, hat.kvs, Nat.add_sub_cancel, get_mid _ _ _ hat.lk.symm, hkp, List.getLast?_concat]
    dsimp only
    -- the child that moves
    obtain ⟨cch, pch, e, hE, kc, kpc, te, tp⟩ : ∃ cch pch e, (if c.leaf then (c.ch, p.ch) else (p.ch.getLast?.toList ++ c.ch, p.ch.dropLast)) = (cch, pch) ∧
        (match h with | 0 => cch = [] | h + 1 => cch.length = c.kvs.length + 2 ∧ ∀ z ∈ cch, Sh P k h (k / 2 - 1) z) ∧
        (match h with | 0 => pch = [] | h + 1 => pch.length = kp.length + 1 ∧ ∀ z ∈ pch, Sh P k h (k / 2 - 1) z) ∧
        (toL h (Node.mk c.leaf (x :: c.kvs) st cch) = e ++ x :: toL h c) ∧ (toL h p = toL h (Node.mk p.leaf kp (y :: p.stale) pch) ++ y :: e) := by
      cases h with
      | zero =>
        refine ⟨[], [], [], ?_, rfl, rfl, rfl, ?_⟩
        · rw [if_pos sc.1, sc.2.1, sp.2.1]
        · exact hkp
      | succ h =>
        obtain ⟨P', e, hpe⟩ := snoc_of_ne (l := p.ch) (by have := sp.2.1; intro h; rw [h] at this; simp at this)
        have hpl := sp.2.1
        rw [hpe, hkp] at hpl
        simp only [List.length_append, List.length_singleton] at hpl
        have hcl := sc.2.1
        refine ⟨e :: c.ch, P', toL h e, ?_, ⟨?_, ?_⟩, ⟨by omega, ?_⟩, ?_, ?_⟩
        · rw [if_neg (by rw [sc.1]; decide), hpe, List.getLast?_concat, List.dropLast_concat]
          rfl
        · rw [List.length_cons, hcl]
        · intro z hz
          rcases List.mem_cons.mp hz with rfl | hz
          · exact sp.2.2.2 z (by rw [hpe]; simp)
          · exact sc.2.2.2 z hz
        · intro z hz
          exact sp.2.2.2 z (by rw [hpe]; simp [hz])
        · rw [toL_succ, toL_succ]
          simp only [ch_mk, kvs_mk, List.map_cons]
          have := inter_join (A := [toL h e]) (B := c.ch.map (toL h)) (ka := []) (kb := c.kvs) (x := x) rfl (by simpa using hcl)
          rw [inter_one] at this; exact this
        · rw [toL_succ, toL_succ]
          simp only [ch_mk, kvs_mk]
          rw [hpe, hkp, List.map_append]
          have := inter_join (A := P'.map (toL h)) (B := [toL h e]) (ka := kp) (kb := []) (x := y) (by simp; omega) rfl
          rw [inter_one] at this; exact this
    rw [hE, List.dropLast_concat]
    dsimp only
    have hsc : Sh P k h (k / 2 - 1) (Node.mk c.leaf (x :: c.kvs) st cch) := by
      apply Ov.sh
      · refine ⟨sc.leaf, ?_, ?_, ?_, ?_⟩
        · simp only [kvs_mk, stale_mk, List.length_cons]; omega
        · intro z hz
          rcases List.mem_cons.mp hz with rfl | hz
          · exact hxP
          · exact sc.arr.cells z hz
        · intro z hz
          exact sc.arr.old z (by rw [hst]; exact List.mem_cons_of_mem _ hz)
        · cases h with
          | zero => exact kc
          | succ h => exact ⟨by simp only [ch_mk, kvs_mk, List.length_cons]; exact kc.1, kc.2⟩
      · simp only [kvs_mk, List.length_cons]; omega
      · simp only [kvs_mk, List.length_cons]; omega
    have hsp : Sh P k h (k / 2 - 1) (Node.mk p.leaf kp (y :: p.stale) pch) := by
      apply Ov.sh
      · refine ⟨sp.leaf, ?_, ?_, ?_, ?_⟩
        · simp only [kvs_mk, stale_mk, List.length_cons]; omega
        · intro z hz
          exact sp.arr.cells z (by rw [hkp]; exact List.mem_append_left _ hz)
        · intro z hz
          rcases List.mem_cons.mp hz with rfl | hz
          · exact hyP
          · exact sp.arr.old z hz
        · cases h with
          | zero => exact kpc
          | succ h => exact kpc
      · simp only [kvs_mk]; omega
      · simp only [kvs_mk]; omega
    have hset : (n.ch.set (i + 1) (Node.mk c.leaf (x :: c.kvs) st cch)).set i (Node.mk p.leaf kp (y :: p.stale) pch) =
        cs1 ++ Node.mk p.leaf kp (y :: p.stale) pch :: Node.mk c.leaf (x :: c.kvs) st cch :: cs2 := by
      rw [hat.ch, show cs1 ++ p :: c :: cs2 = (cs1 ++ [p]) ++ c :: cs2 by simp, set_mid' _ _ _ _ (by simp [hat.lc])]
      rw [show ∀ z : Node, cs1 ++ [p] ++ z :: cs2 = cs1 ++ p :: z :: cs2 by intro z; simp, set_mid' _ _ _ _ hat.lc.symm]
    rw [hset, set_mid' _ _ _ _ hat.lk.symm]
    refine ⟨_, _, _, y, e, rfl, ⟨?_, ?_, ?_, ?_, ?_⟩, ?_, ?_, ?_, te, tp⟩
    · simp only [ch_mk, List.append_assoc, List.cons_append, List.nil_append]
    · simp [kvs_mk]
    · simp [hat.lc]
    · simp [hat.lk]
    · have := hat.eq; simpa using this
    · have hnl := har.len
      have hlo := har.lo
      have hhi := har.hi
      have hcl := hs.2.1
      rw [hat.kvs] at hnl hlo hhi hcl
      rw [hat.ch] at hcl
      simp only [List.length_append, List.length_cons] at hnl hlo hhi hcl
      refine ⟨hs.1, ?_, ⟨?_, ?_, ?_, ?_, har.old⟩, ?_⟩
      · simp only [ch_mk, kvs_mk, List.length_append, List.length_cons]; omega
      · simp only [stale_mk, kvs_mk, List.length_append, List.length_cons]; omega
      · simp only [kvs_mk, List.length_append, List.length_cons]; omega
      · simp only [kvs_mk, List.length_append, List.length_cons]; omega
      · intro z hz
        simp only [kvs_mk, List.mem_append, List.mem_cons] at hz
        rcases hz with hz | rfl | hz
        · exact har.cells z (by rw [hat.kvs]; simp [hz])
        · exact hyP
        · exact har.cells z (by rw [hat.kvs]; simp [hz])
      · intro z hz
        simp only [ch_mk, List.mem_append, List.mem_cons] at hz
        rcases hz with hz | rfl | rfl | hz
        · exact hcs z (by simp [hz])
        · exact hsp
        · exact hsc
        · exact hcs z (by simp [hz])
    · simp only [kvs_mk, List.length_append, List.length_cons]
    · show k / 2 ≤ (x :: c.kvs).length
      rw [List.length_cons]
      omega

theorem feedNext_spec {P : KV → Prop} {k h m i : Nat} {n c d : Node} {cs1 cs2 : List Node} {ks1 ks2 : List KV} {x : KV} (hk : 4 ≤ k)
    (hs : Sh P k (h + 1) m n) (hat : At n i cs1 c (d :: cs2) ks1 (x :: ks2)) (hc : c.used + 1 = k / 2) (hd : k / 2 ≤ d.used) :
    ∃ n' d' c' y e, feedNext n i c d = .ok n' ∧ At n' i cs1 c' (d' :: cs2) ks1 (y :: ks2) ∧ Sh P k (h + 1) m n' ∧
      n'.kvs.length = n.kvs.length ∧ k / 2 ≤ c'.used ∧ toL h c' = toL h c ++ x :: e ∧ toL h d = e ++ y :: toL h d' := by
  have har := hs.arr
  have hcs : ∀ e ∈ cs1 ++ c :: d :: cs2, Sh P k h (k / 2 - 1) e := by rw [← hat.ch]; exact hs.2.2.2
  have sc := hcs c (by simp)
  have sd := hcs d (by simp)
  have hxP : P x := har.cells x (by rw [hat.kvs]; simp)
  have hc' : c.kvs.length + 1 = k / 2 := hc
  have hd' : k / 2 ≤ d.kvs.length := hd
  have cl := sc.arr.len
  have dl := sd.arr.len
  have dh := sd.arr.hi
  cases hkd : d.kvs with
  | nil => rw [hkd] at hd'; simp at hd'; omega
  | cons y kd =>
  rw [hkd, List.length_cons] at dl dh hd'
  have hyP : P y := sd.arr.cells y (by rw [hkd]; simp)
  cases hst : c.stale with
  | nil => rw [hst] at cl; simp at cl; omega
  | cons s0 st =>
    rw [hst, List.length_cons] at cl
    cases hsd : d.stale with
    | nil => rw [hsd] at dl; simp at dl; omega
    | cons z0 zs =>
    rw [hsd, List.length_cons] at dl
    unfold feedNext
    rw [hst, hat.kvs, get_mid _ _ _ hat.lk.symm, hkd, hsd]
    dsimp only
    obtain ⟨cch, dch, e, hE, kc, kdc, te, td⟩ : ∃ cch dch e, (if c.leaf then (c.ch, d.ch) else (c.ch ++ d.ch.head?.toList, d.ch.tail)) = (cch, dch) ∧
        (match h with | 0 => cch = [] | h + 1 => cch.length = c.kvs.length + 2 ∧ ∀ z ∈ cch, Sh P k h (k / 2 - 1) z) ∧
        (match h with | 0 => dch = [] | h + 1 => dch.length = kd.length + 1 ∧ ∀ z ∈ dch, Sh P k h (k / 2 - 1) z) ∧
        (toL h (Node.mk c.leaf (c.kvs ++ [x]) st cch) = toL h c ++ x :: e) ∧ (toL h d = e ++ y :: toL h (Node.mk d.leaf kd (z0 :: z0 :: zs) dch)) := by
      cases h with
      | zero =>
        refine ⟨[], [], [], ?_, rfl, rfl, rfl, ?_⟩
        · rw [if_pos sc.1, sc.2.1, sd.2.1]
        · exact hkd
      | succ h =>
        have hdl := sd.2.1
        cases hde : d.ch with
        | nil => rw [hde] at hdl; simp at hdl
        | cons e D' =>
        rw [hde, hkd] at hdl
        simp only [List.length_cons] at hdl
        have hcl := sc.2.1
        refine ⟨c.ch ++ [e], D', toL h e, ?_, ⟨?_, ?_⟩, ⟨by omega, ?_⟩, ?_, ?_⟩
        · rw [if_neg (by rw [sc.1]; decide)]
          rfl
        · rw [List.length_append, hcl]; rfl
        · intro z hz
          rcases List.mem_append.mp hz with hz | hz
          · exact sc.2.2.2 z hz
          · exact sd.2.2.2 z (by rw [hde]; rw [List.mem_singleton] at hz; simp [hz])
        · intro z hz
          exact sd.2.2.2 z (by rw [hde]; simp [hz])
        · rw [toL_succ, toL_succ]
          simp only [ch_mk, kvs_mk, List.map_append, List.map_cons, List.map_nil]
          have := inter_join (A := c.ch.map (toL h)) (B := [toL h e]) (ka := c.kvs) (kb := []) (x := x) (by simpa using hcl) rfl
          rw [inter_one] at this; exact this
        · rw [toL_succ, toL_succ]
          simp only [ch_mk, kvs_mk]
          rw [hde, hkd, List.map_cons]
          have := inter_join (A := [toL h e]) (B := D'.map (toL h)) (ka := []) (kb := kd) (x := y) rfl (by simp; omega)
          rw [inter_one] at this; exact this
    rw [hE]
    dsimp only
    have hsc : Sh P k h (k / 2 - 1) (Node.mk c.leaf (c.kvs ++ [x]) st cch) := by
      apply Ov.sh
      · refine ⟨sc.leaf, ?_, ?_, ?_, ?_⟩
        · simp only [kvs_mk, stale_mk, List.length_append, List.length_singleton]; omega
        · intro z hz
          rcases List.mem_append.mp hz with hz | hz
          · exact sc.arr.cells z hz
          · rw [List.mem_singleton] at hz; rw [hz]; exact hxP
        · intro z hz
          exact sc.arr.old z (by rw [hst]; exact List.mem_cons_of_mem _ hz)
        · cases h with
          | zero => exact kc
          | succ h => exact ⟨by simp only [ch_mk, kvs_mk, List.length_append, List.length_singleton]; exact kc.1, kc.2⟩
      · simp only [kvs_mk, List.length_append, List.length_singleton]; omega
      · simp only [kvs_mk, List.length_append, List.length_singleton]; omega
    have hsd' : Sh P k h (k / 2 - 1) (Node.mk d.leaf kd (z0 :: z0 :: zs) dch) := by
      apply Ov.sh
      · refine ⟨sd.leaf, ?_, ?_, ?_, ?_⟩
        · simp only [kvs_mk, stale_mk, List.length_cons]; omega
        · intro z hz
          exact sd.arr.cells z (by rw [hkd]; exact List.mem_cons_of_mem _ hz)
        · intro z hz
          apply sd.arr.old
          rw [hsd]
          rcases List.mem_cons.mp hz with rfl | hz
          · exact List.mem_cons_self
          · exact hz
        · cases h with
          | zero => exact kdc
          | succ h => exact kdc
      · simp only [kvs_mk]; omega
      · simp only [kvs_mk]; omega
    have hset : (n.ch.set i (Node.mk c.leaf (c.kvs ++ [x]) st cch)).set (i + 1) (Node.mk d.leaf kd (z0 :: z0 :: zs) dch) =
        cs1 ++ Node.mk c.leaf (c.kvs ++ [x]) st cch :: Node.mk d.leaf kd (z0 :: z0 :: zs) dch :: cs2 := by
      rw [hat.ch, set_mid' _ _ _ _ hat.lc.symm]
      rw [show ∀ z : Node, cs1 ++ z :: d :: cs2 = (cs1 ++ [z]) ++ d :: cs2 by intro z; simp, set_mid' _ _ _ _ (by simp [hat.lc])]
      simp
    rw [hset, set_mid' _ _ _ _ hat.lk.symm]
    refine ⟨_, _, _, y, e, rfl, ⟨rfl, rfl, hat.lc, hat.lk, ?_⟩, ?_, ?_, ?_, te, td⟩
    · have := hat.eq; simpa using this
    · have hnl := har.len
      have hlo := har.lo
      have hhi := har.hi
      have hcl := hs.2.1
      rw [hat.kvs] at hnl hlo hhi hcl
      rw [hat.ch] at hcl
      simp only [List.length_append, List.length_cons] at hnl hlo hhi hcl
      refine ⟨hs.1, ?_, ⟨?_, ?_, ?_, ?_, har.old⟩, ?_⟩
      · simp only [ch_mk, kvs_mk, List.length_append, List.length_cons]; omega
      · simp only [stale_mk, kvs_mk, List.length_append, List.length_cons]; omega
      · simp only [kvs_mk, List.length_append, List.length_cons]; omega
      · simp only [kvs_mk, List.length_append, List.length_cons]; omega
      · intro z hz
        simp only [kvs_mk, List.mem_append, List.mem_cons] at hz
        rcases hz with hz | rfl | hz
        · exact har.cells z (by rw [hat.kvs]; simp [hz])
        · exact hyP
        · exact har.cells z (by rw [hat.kvs]; simp [hz])
      · intro z hz
        simp only [ch_mk, List.mem_append, List.mem_cons] at hz
        rcases hz with hz | rfl | rfl | hz
        · exact hcs z (by simp [hz])
        · exact hsc
        · exact hsd'
        · exact hcs z (by simp [hz])
    · simp only [kvs_mk, List.length_append, List.length_cons]
    · show k / 2 ≤ (c.kvs ++ [x]).length
      rw [List.length_append, List.length_singleton]
      omega

end Ouro.Btree
