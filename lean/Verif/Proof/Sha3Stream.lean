import Verif.Proof.Sha3
import Mathlib.Tactic.LinearCombination

namespace Ouro.Sha3

/-! ## Bits of bytes -/

theorem bits_nil : Fips.bits [] = [] := rfl

theorem bits_cons (b : UInt8) (l : List UInt8) : Fips.bits (b :: l) = (List.range 8).map (fun k => b.toNat.testBit k) ++ Fips.bits l := by
  simp [Fips.bits]

theorem bits_append (a b : List UInt8) : Fips.bits (a ++ b) = Fips.bits a ++ Fips.bits b := by
  simp [Fips.bits]

theorem bits_length (l : List UInt8) : (Fips.bits l).length = 8 * l.length := by
  induction l with
  | nil => rfl
  | cons b l ih => rw [bits_cons]; simp [ih]; omega

theorem bits_getD (l : List UInt8) (j k : Nat) (hk : k < 8) : (Fips.bits l).getD (8 * j + k) false = (l.getD j 0).toNat.testBit k := by
  induction l generalizing j with
  | nil => simp [bits_nil]
  | cons b l ih =>
    rw [bits_cons]
    cases j with
    | zero =>
      rw [List.getD_append _ _ _ _ (by simp; omega)]
      simp [List.getD_eq_getElem?_getD, List.getElem?_range hk]
    | succ j =>
      rw [List.getD_append_right _ _ _ _ (by simp; omega)]
      simp only [List.length_map, List.length_range, List.getD_cons_succ]
      rw [← ih j]
      congr 1
      omega

theorem bits_take (l : List UInt8) (n : Nat) : (Fips.bits l).take (8 * n) = Fips.bits (l.take n) := by
  induction l generalizing n with
  | nil => simp [bits_nil]
  | cons b l ih =>
    cases n with
    | zero => simp [bits_nil]
    | succ n =>
      rw [List.take_succ_cons, bits_cons, bits_cons, ← ih n]
      rw [List.take_append]
      have h1 : ((List.range 8).map (fun k => b.toNat.testBit k)).length = 8 := by simp
      rw [h1, List.take_of_length_le (by rw [h1]; omega)]
      congr 2

theorem bits_drop (l : List UInt8) (n : Nat) : (Fips.bits l).drop (8 * n) = Fips.bits (l.drop n) := by
  induction l generalizing n with
  | nil => simp [bits_nil]
  | cons b l ih =>
    cases n with
    | zero => rfl
    | succ n =>
      rw [List.drop_succ_cons, bits_cons, ← ih n]
      rw [List.drop_append]
      have h1 : ((List.range 8).map (fun k => b.toNat.testBit k)).length = 8 := by simp
      rw [h1, List.drop_of_length_le (by rw [h1]; omega)]
      simp only [List.nil_append]
      congr 1

/-! ## Absorbing -/

theorem at_set (l : Lanes) (i j : Nat) (v : Lane) (hi : i < l.length) : at_ (l.set i v) j = if j = i then v else at_ l j := by
  simp only [at_, List.getD_eq_getElem?_getD, List.getElem?_set]
  by_cases h : j = i
  · subst h; simp [hi]
  · have : ¬ i = j := fun e => h e.symm
    simp [h, this]

theorem mix_length (block : List UInt8) (h : Lanes) (n : Nat) : ((List.range n).foldl (fun (h : Lanes) i => h.set i (at_ h i ^^^ word block i)) h).length = h.length := by
  induction n with
  | zero => rfl
  | succ n ih => rw [List.range_succ, List.foldl_append]; simp [ih]

theorem mix_at (block : List UInt8) (h : Lanes) (n : Nat) (hn : n ≤ h.length) : ∀ j : Nat,
    at_ ((List.range n).foldl (fun (h : Lanes) i => h.set i (at_ h i ^^^ word block i)) h) j = if j < n then at_ h j ^^^ word block j else at_ h j := by
  induction n with
  | zero => intro j; simp
  | succ n ih =>
    intro j
    rw [List.range_succ, List.foldl_append, List.foldl_cons, List.foldl_nil, at_set _ _ _ _ (by rw [mix_length]; omega), ih (by omega), ih (by omega)]
    by_cases h1 : j = n
    · subst h1; simp
    · by_cases h2 : j < n
      · have : j < n + 1 := by omega
        simp [h1, h2, this]
      · have : ¬ j < n + 1 := by omega
        simp [h1, h2, this]

/-- The block sizes of the four functions. -/
def okBs (bs : Nat) : Prop := bs = 144 ∨ bs = 136 ∨ bs = 104 ∨ bs = 72

theorem okBs_lanes {bs : Nat} (h : okBs bs) : 8 * lanesOf bs = bs ∧ lanesOf bs ≤ 25 ∧ 0 < bs ∧ bs ≤ 192 := by
  rcases h with rfl | rfl | rfl | rfl <;> decide

theorem take_getD (l : List UInt8) (n j : Nat) : (l.take n).getD j 0 = if j < n then l.getD j 0 else 0 := by
  simp only [List.getD_eq_getElem?_getD, List.getElem?_take]
  split <;> simp

theorem process_agree {h : Lanes} {A : Fips.State} (hA : Agree h A) (block : List UInt8) {bs : Nat} (hb : okBs bs) :
    Agree (process h block bs) (Fips.keccak (Fips.add A (Fips.bits (block.take bs)))) := by
  obtain ⟨h1, h2, -, -⟩ := okBs_lanes hb
  unfold process
  apply permutation_agree
  refine ⟨by rw [mix_length, hA.1], ?_⟩
  intro x hx y hy z hz
  rw [mix_at _ _ _ (by rw [hA.1]; omega)]
  unfold Fips.add
  have e : 64 * (5 * y + x) + z = 8 * (8 * (5 * y + x) + z / 8) + z % 8 := by omega
  rw [e, bits_getD _ _ _ (by omega), take_getD]
  by_cases hl : x + 5 * y < lanesOf bs
  · have : 8 * (5 * y + x) + z / 8 < bs := by omega
    rw [if_pos hl, if_pos this, BitVec.getLsbD_xor, hA.2 x hx y hy z hz, word_bit _ _ _ hz]
    have e2 : 5 * y + x = x + 5 * y := by omega
    rw [e2]
  · have : ¬ 8 * (5 * y + x) + z / 8 < bs := by omega
    rw [if_neg hl, if_neg this, hA.2 x hx y hy z hz]
    simp

theorem process_take (h : Lanes) (m : List UInt8) {bs : Nat} (hb : okBs bs) : process h m bs = process h (m.take bs) bs := by
  obtain ⟨h1, -, -, -⟩ := okBs_lanes hb
  unfold process
  congr 1
  have hw : ∀ i < lanesOf bs, word m i = word (m.take bs) i := by
    intro i hi
    unfold word
    simp only [take_getD]
    rw [if_pos (by omega), if_pos (by omega), if_pos (by omega), if_pos (by omega), if_pos (by omega), if_pos (by omega), if_pos (by omega), if_pos (by omega)]
  generalize hn : lanesOf bs = n at hw
  clear hn h1
  induction n with
  | zero => rfl
  | succ n ih =>
    rw [List.range_succ, List.foldl_append, List.foldl_append, ih (fun i hi => hw i (by omega))]
    simp only [List.foldl_cons, List.foldl_nil]
    rw [hw n (by omega)]

attribute [local irreducible] process

/-- Absorbing the full blocks of a message: the state, and what is left. -/
def absorbB (bs : Nat) (h : Lanes) (M : List UInt8) : Lanes × List UInt8 :=
  if _h : bs ≤ M.length ∧ 0 < bs then absorbB bs (process h (M.take bs) bs) (M.drop bs) else (h, M)
termination_by M.length
decreasing_by simp only [List.length_drop]; omega

theorem absorbB_small {bs : Nat} (h : Lanes) {M : List UInt8} (hM : M.length < bs) : absorbB bs h M = (h, M) := by
  unfold absorbB
  rw [dif_neg (by omega)]

theorem absorbB_full {bs : Nat} (hb : 0 < bs) (h : Lanes) {M : List UInt8} (hM : bs ≤ M.length) : absorbB bs h M = absorbB bs (process h (M.take bs) bs) (M.drop bs) := by
  rw [absorbB]
  rw [dif_pos ⟨hM, hb⟩]

theorem absorbB_rest {bs : Nat} (hb : 0 < bs) (h : Lanes) (M : List UInt8) : (absorbB bs h M).2.length = M.length % bs := by
  induction hn : M.length using Nat.strong_induction_on generalizing h M with
  | _ n ih =>
    by_cases hM : bs ≤ M.length
    · rw [absorbB_full hb h hM, ih (M.length - bs) (by omega) _ (M.drop bs) (by simp)]
      rw [← hn]
      exact (Nat.mod_eq_sub_mod hM).symm
    · rw [absorbB_small h (by omega), Nat.mod_eq_of_lt (by omega)]
      exact hn

theorem absorbB_append {bs : Nat} (hb : 0 < bs) (h : Lanes) (M N : List UInt8) : absorbB bs h (M ++ N) = absorbB bs (absorbB bs h M).1 ((absorbB bs h M).2 ++ N) := by
  induction hn : M.length using Nat.strong_induction_on generalizing h M with
  | _ n ih =>
    by_cases hM : bs ≤ M.length
    · rw [absorbB_full hb h hM, absorbB_full hb h (M := M ++ N) (by simp; omega)]
      rw [List.take_append_of_le_length hM, List.drop_append_of_le_length hM]
      exact ih (M.length - bs) (by omega) _ (M.drop bs) (by simp)
    · rw [absorbB_small h (M := M) (by omega)]

theorem absorb_agree {bs : Nat} (hb : okBs bs) {h : Lanes} {A : Fips.State} (hA : Agree h A) (P : List UInt8) :
    Agree (absorbB bs h P).1 (Fips.absorb (8 * bs) A (Fips.bits P)) := by
  have hpos := (okBs_lanes hb).2.2.1
  induction hn : P.length using Nat.strong_induction_on generalizing h A P with
  | _ n ih =>
    by_cases hP : bs ≤ P.length
    · rw [absorbB_full hpos h hP, Fips.absorb, dif_pos ⟨by rw [bits_length]; omega, by omega⟩, bits_take, bits_drop]
      refine ih (P.length - bs) (by omega) ?_ (P.drop bs) (by simp)
      have := process_agree hA (P.take bs) hb
      rwa [List.take_take, Nat.min_self] at this
    · rw [absorbB_small h (by omega), Fips.absorb, dif_neg (by rw [bits_length]; omega)]
      exact hA

/-! ## Updates -/

theorem copy_length (buf : List UInt8) (n : Nat) (src : List UInt8) (h : n + src.length ≤ buf.length) : (copy buf n src).length = buf.length := by
  simp only [copy, List.length_append, List.length_take, List.length_drop]; omega

theorem copy_take (buf : List UInt8) (n : Nat) (src : List UInt8) (h : n ≤ buf.length) : (copy buf n src).take (n + src.length) = buf.take n ++ src := by
  unfold copy
  rw [List.take_append_of_le_length (by simp; omega), List.take_of_length_le (by simp)]

theorem blocks_spec (al : Bool) (c : Ctx) (hb : okBs c.bs) (hm : c.message.length = 192) (msg : List UInt8) :
    (blocks al c msg).hash = (absorbB c.bs c.hash msg).1 ∧ (blocks al c msg).message.length = 192 ∧ (blocks al c msg).bs = c.bs ∧ (blocks al c msg).final = c.final ∧
    (blocks al c msg).rest = c.rest ∧ (blocks al c msg).message.take (absorbB c.bs c.hash msg).2.length = (absorbB c.bs c.hash msg).2 := by
  have hpos := (okBs_lanes hb).2.2
  induction hn : msg.length using Nat.strong_induction_on generalizing c msg with
  | _ n ih =>
    by_cases hM : c.bs ≤ msg.length
    · rw [absorbB_full hpos.1 _ hM]
      rw [blocks, dif_pos ⟨hM, hpos.1⟩]
      cases al with
      | true =>
        simp only [if_true]
        exact ih (msg.length - c.bs) (by omega) { c with hash := process c.hash (msg.take c.bs) c.bs } hb hm (msg.drop c.bs) hpos (by simp)
      | false =>
        simp only [Bool.false_eq_true, if_false]
        have hl : (copy c.message 0 (msg.take c.bs)).length = 192 := by rw [copy_length _ _ _ (by simp; omega), hm]
        have ht : (copy c.message 0 (msg.take c.bs)).take c.bs = msg.take c.bs := by
          have := copy_take c.message 0 (msg.take c.bs) (by omega)
          simpa [Nat.min_eq_left hM] using this
        have hp : process c.hash (copy c.message 0 (msg.take c.bs)) c.bs = process c.hash (msg.take c.bs) c.bs := by
          rw [process_take _ _ hb, ht]
        have := ih (msg.length - c.bs) (by omega) { c with message := copy c.message 0 (msg.take c.bs), hash := process c.hash (copy c.message 0 (msg.take c.bs)) c.bs } hb hl
          (msg.drop c.bs) hpos (by simp)
        simp only [hp] at this ⊢
        exact this
    · rw [absorbB_small _ (by omega)]
      rw [blocks, dif_neg (by omega)]
      by_cases h0 : msg.length = 0
      · have : msg = [] := List.length_eq_zero_iff.1 h0
        subst this
        simp [hm]
      · rw [if_pos h0]
        refine ⟨rfl, by rw [copy_length _ _ _ (by omega)]; exact hm, rfl, rfl, rfl, ?_⟩
        have := copy_take c.message 0 msg (by omega)
        simpa using this

/-- The context after the bytes `M`. -/
structure Inv (bs : Nat) (c : Ctx) (M : List UInt8) : Prop where
  bs_ : c.bs = bs
  final_ : c.final = false
  len : c.message.length = 192
  rest_ : c.rest = M.length % bs
  hash_ : c.hash = (absorbB bs (List.replicate 25 0) M).1
  buf : c.message.take c.rest = (absorbB bs (List.replicate 25 0) M).2

theorem inv_update {bs : Nat} (hb : okBs bs) {c : Ctx} {M : List UInt8} (hI : Inv bs c M) (al : Bool) (msg : List UInt8) : Inv bs (update c al msg) (M ++ msg) := by
  obtain ⟨hbs, hfin, hlen, hrest, hhash, hbuf⟩ := hI
  obtain ⟨-, -, hpos, hle⟩ := okBs_lanes hb
  have hrl : c.rest < bs := by rw [hrest]; exact Nat.mod_lt _ hpos
  have hr2 : (absorbB bs (List.replicate 25 0) M).2.length = c.rest := by rw [absorbB_rest hpos, hrest]
  have hnew : (c.rest + msg.length) % bs = (M ++ msg).length % bs := by rw [hrest]; simp
  have hB : ∀ d : Ctx, d.bs = bs → d.final = false → d.message.length = 192 → d.rest = (M ++ msg).length % bs → ∀ m' : List UInt8,
      absorbB bs (List.replicate 25 0) (M ++ msg) = absorbB bs d.hash m' → Inv bs (blocks al d m') (M ++ msg) := by
    intro d h1 h2 h3 h4 m' h5
    obtain ⟨b1, b2, b3, b4, b5, b6⟩ := blocks_spec al d (by rw [h1]; exact hb) h3 m'
    rw [h1] at b1 b6
    have hlen' : (absorbB bs d.hash m').2.length = (M ++ msg).length % bs := by rw [← h5, absorbB_rest hpos]
    refine ⟨by rw [b3, h1], by rw [b4, h2], b2, by rw [b5, h4], by rw [b1, h5], ?_⟩
    rw [b5, h4, h5, ← hlen']
    exact b6
  unfold update
  rw [hfin]
  simp only [Bool.false_eq_true, if_false]
  by_cases h0 : c.rest = 0
  · rw [if_neg (by simpa using h0)]
    refine hB { c with rest := (c.rest + msg.length) % c.bs, final := false } hbs rfl hlen (by rw [← hnew, hbs]) msg ?_
    have hnil : (absorbB bs (List.replicate 25 0) M).2 = [] := List.length_eq_zero_iff.1 (by rw [hr2, h0])
    rw [absorbB_append hpos, hnil, hhash]
    rfl
  · rw [if_pos h0, hbs]
    by_cases hs : msg.length < bs - c.rest
    · rw [if_pos hs]
      have hmin : min msg.length (bs - c.rest) = msg.length := by omega
      have hmod : (M ++ msg).length % bs = c.rest + msg.length := by
        rw [← hnew]; exact Nat.mod_eq_of_lt (by omega)
      have hab : absorbB bs (List.replicate 25 0) (M ++ msg) = (c.hash, c.message.take c.rest ++ msg) := by
        rw [absorbB_append hpos, ← hbuf, ← hhash]
        exact absorbB_small _ (by simp; omega)
      refine ⟨rfl, rfl, ?_, hnew, by rw [hab], ?_⟩
      · simp only [hmin, List.take_length]
        rw [copy_length _ _ _ (by omega)]; exact hlen
      · simp only [hmin, List.take_length]
        rw [hab]
        have : (c.rest + msg.length) % bs = c.rest + msg.length := Nat.mod_eq_of_lt (by omega)
        rw [this]
        exact copy_take _ _ _ (by omega)
    · rw [if_neg hs]
      have hmin : min msg.length (bs - c.rest) = bs - c.rest := by omega
      simp only [hmin]
      refine hB _ rfl rfl ?_ hnew _ ?_
      · show (copy _ _ _).length = _
        rw [copy_length _ _ _ (by simp; omega)]; exact hlen
      · show _ = absorbB bs (process c.hash _ bs) _
        rw [absorbB_append hpos, ← hbuf, ← hhash]
        have hful : bs ≤ (c.message.take c.rest ++ msg).length := by simp; omega
        rw [absorbB_full hpos _ hful]
        have hl1 : (c.message.take c.rest).length = c.rest := by simp; omega
        have ht : (c.message.take c.rest ++ msg).take bs = c.message.take c.rest ++ msg.take (bs - c.rest) := by
          rw [List.take_append, hl1, List.take_of_length_le (by omega)]
        have hd : (c.message.take c.rest ++ msg).drop bs = msg.drop (bs - c.rest) := by
          rw [List.drop_append, hl1, List.drop_of_length_le (by omega)]; rfl
        rw [ht, hd]
        have hp : process c.hash (copy c.message c.rest (msg.take (bs - c.rest))) bs = process c.hash (c.message.take c.rest ++ msg.take (bs - c.rest)) bs := by
          rw [process_take _ _ hb]
          congr 1
          have hl : (msg.take (bs - c.rest)).length = bs - c.rest := by simp; omega
          have := copy_take c.message c.rest (msg.take (bs - c.rest)) (by omega)
          rw [hl] at this
          rwa [show c.rest + (bs - c.rest) = bs by omega] at this
        rw [hp]

theorem inv_updates {bs : Nat} (hb : okBs bs) (pieces : List (Bool × List UInt8)) : ∀ {c : Ctx} {M : List UInt8}, Inv bs c M →
    Inv bs (pieces.foldl (fun c p => update c p.1 p.2) c) (M ++ pieces.flatMap (·.2)) := by
  induction pieces with
  | nil => intro c M h; simpa using h
  | cons p ps ih =>
    intro c M h
    have := ih (inv_update hb h p.1 p.2)
    rw [List.foldl_cons, List.flatMap_cons, ← List.append_assoc]
    exact this

theorem inv_init {bits : Nat} (hb : okBs ((1600 - bits * 2) / 8)) : Inv ((1600 - bits * 2) / 8) (init bits) [] := by
  have hpos := (okBs_lanes hb).2.2.1
  refine ⟨rfl, rfl, List.length_replicate, Nat.zero_mod _ |>.symm, ?_, ?_⟩ <;> rw [absorbB_small _ (by simpa using hpos)] <;> rfl

/-! ## The end -/

/-- The bytes of the padding of `k` bytes. -/
def padBytes (k : Nat) : List UInt8 := if k = 1 then [0x86] else 0x06 :: (List.replicate (k - 2) 0 ++ [0x80])

theorem orAt_append (t : List UInt8) (x : UInt8) (d : List UInt8) (b : UInt8) : orAt (t ++ x :: d) t.length b = t ++ (x ||| b) :: d := by
  unfold orAt
  rw [List.set_append_right _ _ (Nat.le_refl _)]
  simp

theorem padded (t d : List UInt8) (k : Nat) (hk : 1 ≤ k) :
    orAt (orAt (t ++ List.replicate k 0 ++ d) t.length 0x06) (t.length + k - 1) 0x80 = t ++ padBytes k ++ d := by
  obtain ⟨k, rfl⟩ : ∃ j, k = j + 1 := ⟨k - 1, by omega⟩
  rw [List.replicate_succ, List.append_assoc, List.cons_append, orAt_append]
  cases k with
  | zero =>
    have : t.length + (0 + 1) - 1 = t.length := by omega
    rw [this]
    simp only [List.replicate_zero, List.nil_append]
    rw [orAt_append]
    simp only [padBytes, if_true, List.append_assoc, List.singleton_append]
    rfl
  | succ k =>
    have e : t ++ (0 ||| 0x06) :: (List.replicate (k + 1) 0 ++ d) = (t ++ 0x06 :: List.replicate k 0) ++ 0 :: d := by
      rw [List.replicate_succ']
      simp
    have l : t.length + (k + 1 + 1) - 1 = (t ++ (0x06 : UInt8) :: List.replicate k 0).length := by simp
    rw [e, l, orAt_append]
    have : ¬ k + 1 + 1 = 1 := by omega
    simp only [padBytes, this, if_false]
    simp

theorem padBytes_length (k : Nat) (hk : 1 ≤ k) : (padBytes k).length = k := by
  unfold padBytes
  split
  · rename_i h; rw [h]; rfl
  · simp only [List.length_cons, List.length_append, List.length_replicate, List.length_nil]; omega

theorem bits_zeros (k : Nat) : Fips.bits (List.replicate k 0) = List.replicate (8 * k) false := by
  induction k with
  | zero => rfl
  | succ k ih =>
    rw [List.replicate_succ, bits_cons, ih, show 8 * (k + 1) = 8 + 8 * k by omega, ← List.replicate_append_replicate]
    rfl

theorem bits_pad (k : Nat) (hk : 1 ≤ k) : Fips.bits (padBytes k) = [false, true] ++ ([true] ++ List.replicate (8 * k - 4) false ++ [true]) := by
  unfold padBytes
  split
  · rename_i h; subst h; decide
  · rw [bits_cons, bits_append, bits_zeros, show 8 * k - 4 = 5 + (8 * (k - 2) + 7) by omega, ← List.replicate_append_replicate, ← List.replicate_append_replicate]
    have h1 : (List.range 8).map (fun k => (0x06 : UInt8).toNat.testBit k) = [false, true, true] ++ List.replicate 5 false := by decide
    have h2 : Fips.bits [0x80] = List.replicate 7 false ++ [true] := by decide
    rw [h1, h2]
    simp only [List.append_assoc, List.cons_append, List.nil_append]

theorem pad_count (bs m : Nat) (hb : 0 < bs) : ((-((8 * m + 2 : Nat) : Int) - 2) % ((8 * bs : Nat) : Int)).toNat = 8 * (bs - m % bs) - 4 := by
  have h1 := Nat.div_add_mod m bs
  have h2 := Nat.mod_lt m hb
  have e : (-((8 * m + 2 : Nat) : Int) - 2) = ((8 * (bs - m % bs) - 4 : Nat) : Int) + ((8 * bs : Nat) : Int) * (-((m / bs : Nat) : Int) - 1) := by
    have : ((8 * (bs - m % bs) - 4 : Nat) : Int) = 8 * ((bs : Int) - ((m % bs : Nat) : Int)) - 4 := by omega
    rw [this]
    have h1' : (bs : Int) * ((m / bs : Nat) : Int) + ((m % bs : Nat) : Int) = (m : Int) := by exact_mod_cast h1
    push_cast
    push_cast at h1'
    linear_combination 8 * h1'
  rw [e, Int.add_mul_emod_self_left, Int.emod_eq_of_lt (by omega) (by omega)]
  omega

theorem padded_bits (bs : Nat) (hb : 0 < bs) (M : List UInt8) :
    Fips.bits (M ++ padBytes (bs - M.length % bs)) = (Fips.bits M ++ [false, true]) ++ Fips.pad (8 * bs) (Fips.bits M ++ [false, true]).length := by
  have := Nat.mod_lt M.length hb
  rw [bits_append, bits_pad _ (by omega), Fips.pad]
  have hl : (Fips.bits M ++ [false, true]).length = 8 * M.length + 2 := by simp [bits_length]
  rw [hl, pad_count bs M.length hb]
  simp only [List.append_assoc]

/-- The state after the end. -/
theorem final_hash {bs : Nat} (hb : okBs bs) {c : Ctx} {M : List UInt8} (hI : Inv bs c M) :
    process c.hash (orAt (orAt (copy c.message c.rest (List.replicate (c.bs - c.rest) 0)) c.rest 0x06) (c.bs - 1) 0x80) c.bs =
      (absorbB bs (List.replicate 25 0) (M ++ padBytes (bs - M.length % bs))).1 := by
  obtain ⟨hbs, hfin, hlen, hrest, hhash, hbuf⟩ := hI
  obtain ⟨-, -, hpos, hle⟩ := okBs_lanes hb
  have hrl : c.rest < bs := by rw [hrest]; exact Nat.mod_lt _ hpos
  have hl1 : (c.message.take c.rest).length = c.rest := by simp; omega
  rw [hbs, process_take _ _ hb]
  have hp := padded (c.message.take c.rest) (c.message.drop (c.rest + (bs - c.rest))) (bs - c.rest) (by omega)
  rw [hl1, show c.rest + (bs - c.rest) - 1 = bs - 1 by omega] at hp
  have hcopy : copy c.message c.rest (List.replicate (bs - c.rest) 0) = c.message.take c.rest ++ List.replicate (bs - c.rest) 0 ++ c.message.drop (c.rest + (bs - c.rest)) := by
    simp [copy]
  rw [hcopy, hp]
  have hpl := padBytes_length (bs - c.rest) (by omega)
  have hll : (c.message.take c.rest ++ padBytes (bs - c.rest)).length = bs := by simp only [List.length_append, hl1, hpl]; omega
  have ht : (c.message.take c.rest ++ padBytes (bs - c.rest)).take bs = c.message.take c.rest ++ padBytes (bs - c.rest) := List.take_of_length_le (by omega)
  rw [List.take_append_of_le_length (by omega), ht, absorbB_append hpos, ← hbuf, ← hhash, ← hrest, absorbB_full hpos _ (by omega), absorbB_small _ (by rw [List.length_drop]; omega), ht]

theorem zero_agree : Agree (List.replicate 25 0) (fun _ _ _ => false) := by
  refine ⟨by simp, ?_⟩
  intro x hx y hy z hz
  have : at_ (List.replicate 25 (0 : Lane)) (x + 5 * y) = 0 := by
    unfold at_
    rw [List.getD_eq_getElem?_getD, List.getElem?_replicate]
    split <;> rfl
  rw [this]
  exact BitVec.getLsbD_zero

theorem byte_bit (w : Lane) (k j : Nat) (hj : j < 8) : (UInt8.ofBitVec ((w >>> (8 * k)).setWidth 8)).toNat.testBit j = w.getLsbD (8 * k + j) := by
  show ((w >>> (8 * k)).setWidth 8).getLsbD j = _
  rw [BitVec.getLsbD_setWidth, BitVec.getLsbD_ushiftRight]
  simp [hj]

theorem bits_map (g : Nat → UInt8) (n : Nat) : Fips.bits ((List.range n).map g) = (List.range (8 * n)).map (fun i => (g (i / 8)).toNat.testBit (i % 8)) := by
  apply List.ext_getElem (by simp [bits_length])
  intro i h1 h2
  have hi : i < 8 * n := by simpa using h2
  have e : i = 8 * (i / 8) + i % 8 := by omega
  have h3 := bits_getD ((List.range n).map g) (i / 8) (i % 8) (by omega)
  rw [← e] at h3
  have h4 : ((List.range n).map g).getD (i / 8) 0 = g (i / 8) := by
    have : i / 8 < n := by omega
    simp [List.getD_eq_getElem?_getD, List.getElem?_range this]
  rw [h4] at h3
  rw [List.getD_eq_getElem?_getD, List.getElem?_eq_getElem h1, Option.getD_some] at h3
  rw [h3]
  simp

theorem isSha3_bs {bits : Nat} (h : Fips.isSha3 bits) : okBs ((1600 - bits * 2) / 8) := by
  rcases h with rfl | rfl | rfl | rfl <;> unfold okBs <;> decide

/-- The bytes that `final` gives of a state. -/
def out (big : Bool) (bits : Nat) (H : Lanes) : List UInt8 := (List.range (bits / 8)).map (fun j => byteOf big (j / 8 < bits / 8 / 8) (at_ H (j / 8)) (j % 8))

/-- The bytes that are absorbed. -/
def padMsg (bs : Nat) (M : List UInt8) : List UInt8 := M ++ padBytes (bs - M.length % bs)

theorem digest_out (big : Bool) {bits : Nat} (hb : Fips.isSha3 bits) (pieces : List (Bool × List UInt8)) :
    digest big bits pieces = out big bits (absorbB ((1600 - bits * 2) / 8) (List.replicate 25 0) (padMsg ((1600 - bits * 2) / 8) (pieces.flatMap (·.2)))).1 := by
  have hbs := isSha3_bs hb
  have hI := inv_updates hbs pieces (inv_init hbs)
  rw [List.nil_append] at hI
  unfold padMsg
  rw [← final_hash hbs hI]
  have hlen : 100 - (1600 - bits * 2) / 8 / 2 = bits / 8 := by rcases hb with rfl | rfl | rfl | rfl <;> rfl
  unfold digest
  generalize pieces.foldl (fun c p => update c p.1 p.2) (init bits) = C at hI
  unfold final out
  rw [hI.final_]
  simp only [Bool.false_eq_true, if_false]
  rw [hI.bs_, hlen]

theorem digest_bits (big : Bool) {bits : Nat} (hb : Fips.isSha3 bits) (he : big = false ∨ bits ≠ 224) (pieces : List (Bool × List UInt8)) :
    Fips.bits (digest big bits pieces) = Fips.sha3 bits (Fips.bits (pieces.flatMap (·.2))) := by
  have hbs := isSha3_bs hb
  have hpos := (okBs_lanes hbs).2.2.1
  rw [digest_out big hb]
  generalize pieces.flatMap (·.2) = M
  have hA := absorb_agree hbs zero_agree (padMsg ((1600 - bits * 2) / 8) M)
  have hr : 8 * ((1600 - bits * 2) / 8) = 1600 - 2 * bits := by rcases hb with rfl | rfl | rfl | rfl <;> rfl
  have hp : Fips.bits (padMsg ((1600 - bits * 2) / 8) M) = (Fips.bits M ++ [false, true]) ++ Fips.pad (1600 - 2 * bits) (Fips.bits M ++ [false, true]).length := by
    unfold padMsg
    rw [padded_bits _ hpos, hr]
  rw [hp, hr] at hA
  unfold Fips.sha3 Fips.sponge
  dsimp only
  generalize (absorbB ((1600 - bits * 2) / 8) (List.replicate 25 0) (padMsg ((1600 - bits * 2) / 8) M)).1 = H at hA ⊢
  generalize Fips.absorb (1600 - 2 * bits) (fun _ _ _ => false) ((Fips.bits M ++ [false, true]) ++ Fips.pad (1600 - 2 * bits) (Fips.bits M ++ [false, true]).length) = A at hA ⊢
  unfold out
  rw [bits_map]
  have h8 : 8 * (bits / 8) = bits := by rcases hb with rfl | rfl | rfl | rfl <;> rfl
  rw [h8]
  apply List.map_congr_left
  intro i hi
  have hi : i < bits := List.mem_range.1 hi
  have hbig : byteOf big (decide (i / 8 / 8 < bits / 8 / 8)) (at_ H (i / 8 / 8)) (i / 8 % 8) = UInt8.ofBitVec ((at_ H (i / 8 / 8) >>> (8 * (i / 8 % 8))).setWidth 8) := by
    unfold byteOf
    rcases he with rfl | he
    · rfl
    · have : i / 8 / 8 < bits / 8 / 8 := by rcases hb with rfl | rfl | rfl | rfl <;> omega
      simp [this]
  rw [hbig, byte_bit _ _ _ (by omega)]
  have hlt : bits ≤ 512 := by rcases hb with rfl | rfl | rfl | rfl <;> decide
  have h3 := hA.2 (i / 64 % 5) (by omega) (i / 64 / 5) (by omega) (i % 64) (by omega)
  rw [show i / 64 % 5 + 5 * (i / 64 / 5) = i / 8 / 8 by omega] at h3
  rw [← h3]
  congr 1
  omega

theorem digest_pieces (big : Bool) {bits : Nat} (hb : Fips.isSha3 bits) (p q : List (Bool × List UInt8)) (h : p.flatMap (·.2) = q.flatMap (·.2)) : digest big bits p = digest big bits q := by
  rw [digest_out big hb, digest_out big hb, h]

end Ouro.Sha3
