import Verif.Model.Md5
import Verif.Spec.Md5
import Verif.Proof.Tac
import Mathlib.Tactic.IntervalCases

namespace Ouro.Md5

/-! ## A block -/

theorem fn_aux (r : Nat) (hr : r < 4) (x y z : Word) : fn (r + 1) x y z = Rfc.aux r x y z := by
  interval_cases r
  · show ((y ^^^ z) &&& x) ^^^ z = (x &&& y) ||| (~~~ x &&& z)
    apply BitVec.eq_of_getLsbD_eq
    intro i hi
    simp only [BitVec.getLsbD_xor, BitVec.getLsbD_and, BitVec.getLsbD_or, BitVec.getLsbD_not, hi, decide_true, Bool.true_and]
    cases x.getLsbD i <;> cases y.getLsbD i <;> cases z.getLsbD i <;> rfl
  · rfl
  · rfl
  · rfl

theorem rotl_eq (w : Word) (n : Nat) (h0 : 0 < n) (h : n < 32) : rotl w n = w.rotateLeft n := by
  unfold rotl
  rw [BitVec.rotateLeft_def, Nat.mod_eq_of_lt h]
  apply BitVec.eq_of_getLsbD_eq
  intro i hi
  simp only [BitVec.getLsbD_xor, BitVec.getLsbD_or, BitVec.getLsbD_shiftLeft, BitVec.getLsbD_ushiftRight, hi, decide_true, Bool.true_and]
  by_cases hn : i < n
  · simp [hn]
  · have : 32 ≤ 32 - n + i := by omega
    simp [hn, BitVec.getLsbD_of_ge w _ this]

/-- The registers, in the order of operation `i`. -/
def view (r : List Word) (i : Nat) : Word × Word × Word × Word :=
  (r.getD ((4 - i % 4) % 4) 0, r.getD ((4 - i % 4 + 1) % 4) 0, r.getD ((4 - i % 4 + 2) % 4) 0, r.getD ((4 - i % 4 + 3) % 4) 0)

/-- A line of the code is an operation of the standard. -/
def lineOk (i : Nat) (l : Line) : Bool := l.round == i / 16 + 1 && l.a == (4 - i % 4) % 4 && l.x == Rfc.k i && l.s == Rfc.s i && l.ac == Rfc.T.getD i 0 && decide (0 < l.s ∧ l.s < 32)

theorem lines_ok : ∀ i < 64, lineOk i (lines.getD i ⟨0, 0, 0, 0, 0⟩) = true := by decide +kernel

theorem destruct4 (r : List Word) (h : r.length = 4) : ∃ a b c d, r = [a, b, c, d] := by
  match r, h with
  | [a, b, c, d], _ => exact ⟨a, b, c, d, rfl⟩

theorem line_view (x r : List Word) (h : r.length = 4) (i : Nat) (hi : i < 64) (l : Line) (hl : lineOk i l = true) :
    view (line x r l) (i + 1) = Rfc.op (fun j => x.getD j 0) (view r i) i ∧ (line x r l).length = 4 := by
  obtain ⟨a, b, c, d, rfl⟩ := destruct4 r h
  refine ⟨?_, by simp [line]⟩
  simp only [lineOk, Bool.and_eq_true, beq_iff_eq, decide_eq_true_eq] at hl
  obtain ⟨⟨⟨⟨⟨h1, h2⟩, h3⟩, h4⟩, h5⟩, h6, h7⟩ := hl
  unfold line Rfc.op view
  rw [h1, h2, h3, h5]
  rw [h4] at h6 h7 ⊢
  simp only [rotl_eq _ _ h6 h7, fn_aux (i / 16) (by omega)]
  have hm : i % 4 = 0 ∨ i % 4 = 1 ∨ i % 4 = 2 ∨ i % 4 = 3 := by omega
  rcases hm with hm | hm | hm | hm
  · have hs : (i + 1) % 4 = 1 := by omega
    rw [hm, hs]
    simp only [Nat.reduceSub, Nat.reduceAdd, Nat.reduceMod, Nat.sub_zero, List.getD_cons_zero, List.getD_cons_succ, List.set_cons_zero, BitVec.add_assoc]
    simp only [BitVec.add_comm]
  · have hs : (i + 1) % 4 = 2 := by omega
    rw [hm, hs]
    simp only [Nat.reduceSub, Nat.reduceAdd, Nat.reduceMod, List.getD_cons_zero, List.getD_cons_succ, List.set_cons_zero, List.set_cons_succ, BitVec.add_assoc]
    simp only [BitVec.add_comm]
  · have hs : (i + 1) % 4 = 3 := by omega
    rw [hm, hs]
    simp only [Nat.reduceSub, Nat.reduceAdd, Nat.reduceMod, List.getD_cons_zero, List.getD_cons_succ, List.set_cons_zero, List.set_cons_succ, BitVec.add_assoc]
    simp only [BitVec.add_comm]
  · have hs : (i + 1) % 4 = 0 := by omega
    rw [hm, hs]
    simp only [Nat.reduceSub, Nat.reduceAdd, Nat.reduceMod, Nat.sub_zero, List.getD_cons_zero, List.getD_cons_succ, List.set_cons_zero, List.set_cons_succ, BitVec.add_assoc]
    simp only [BitVec.add_comm]

theorem lines_view (x r : List Word) (h : r.length = 4) (n : Nat) (hn : n ≤ 64) :
    view ((lines.take n).foldl (line x) r) n = (List.range n).foldl (Rfc.op (fun j => x.getD j 0)) (view r 0) ∧ ((lines.take n).foldl (line x) r).length = 4 := by
  induction n with
  | zero => exact ⟨rfl, h⟩
  | succ n ih =>
    obtain ⟨i1, i2⟩ := ih (by omega)
    have hl : lines.length = 64 := by decide
    have hlt : n < lines.length := by omega
    have hok := lines_ok n (by omega)
    rw [List.getD_eq_getElem?_getD, List.getElem?_eq_getElem hlt, Option.getD_some] at hok
    rw [List.take_succ_eq_append_getElem hlt, List.foldl_append, List.range_succ, List.foldl_append, ← i1]
    exact line_view x _ i2 n (by omega) _ hok

/-- The four words of a list. -/
def quad (r : List Word) : Word × Word × Word × Word := (r.getD 0 0, r.getD 1 0, r.getD 2 0, r.getD 3 0)

theorem process_block (state x : List Word) : quad (process state x) = Rfc.block (fun j => x.getD j 0) (quad state) ∧ (process state x).length = 4 := by
  refine ⟨?_, by simp [process]⟩
  have h := (lines_view x [state.getD 0 0, state.getD 1 0, state.getD 2 0, state.getD 3 0] rfl 64 (Nat.le_refl _)).1
  rw [List.take_of_length_le (by decide)] at h
  have h0 : view [state.getD 0 0, state.getD 1 0, state.getD 2 0, state.getD 3 0] 0 = quad state := rfl
  rw [h0] at h
  unfold process Rfc.block
  dsimp only
  rw [← h]
  generalize lines.foldl (line x) [state.getD 0 0, state.getD 1 0, state.getD 2 0, state.getD 3 0] = r
  rfl

theorem block_congr (X Y : Nat → Word) (v : Word × Word × Word × Word) (h : ∀ j < 16, X j = Y j) : Rfc.block X v = Rfc.block Y v := by
  have hk : ∀ i, Rfc.k i < 16 := by
    intro i; unfold Rfc.k; split <;> omega
  have : Rfc.op X = Rfc.op Y := by
    funext v i
    unfold Rfc.op
    rw [h _ (hk i)]
  unfold Rfc.block
  rw [this]

theorem words_at (m : List UInt8) (j : Nat) (hj : j < 16) : (words m).getD j 0 = word m j := by
  simp [words, List.getD_eq_getElem?_getD, List.getElem?_range hj]

theorem word_congr (a b : List UInt8) (j : Nat) (h : ∀ i, i < 4 → a.getD (4 * j + i) 0 = b.getD (4 * j + i) 0) : word a j = Rfc.word b j := by
  unfold word Rfc.word
  rw [h 3 (by omega), h 2 (by omega), h 1 (by omega)]
  have := h 0 (by omega)
  simp only [Nat.add_zero] at this
  rw [this]

attribute [local irreducible] process Rfc.block

/-! ## All the blocks -/

/-- The blocks, and what is left. -/
def absorb (v : Word × Word × Word × Word) (M : List UInt8) : (Word × Word × Word × Word) × List UInt8 :=
  if _h : 64 ≤ M.length then absorb (Rfc.block (Rfc.word (M.take 64)) v) (M.drop 64) else (v, M)
termination_by M.length
decreasing_by simp only [List.length_drop]; omega

theorem absorb_small (v : Word × Word × Word × Word) {M : List UInt8} (h : M.length < 64) : absorb v M = (v, M) := by
  rw [absorb, dif_neg (by omega)]

theorem absorb_full (v : Word × Word × Word × Word) {M : List UInt8} (h : 64 ≤ M.length) : absorb v M = absorb (Rfc.block (Rfc.word (M.take 64)) v) (M.drop 64) := by
  rw [absorb, dif_pos h]

theorem absorb_process (v : Word × Word × Word × Word) (M : List UInt8) : (absorb v M).1 = Rfc.process v M := by
  induction hn : M.length using Nat.strong_induction_on generalizing v M with
  | _ n ih =>
    by_cases hM : 64 ≤ M.length
    · rw [absorb_full v hM, Rfc.process, dif_pos hM]
      exact ih (M.length - 64) (by omega) _ (M.drop 64) (by simp)
    · rw [absorb_small v (by omega), Rfc.process, dif_neg hM]

theorem absorb_rest (v : Word × Word × Word × Word) (M : List UInt8) : (absorb v M).2.length = M.length % 64 := by
  induction hn : M.length using Nat.strong_induction_on generalizing v M with
  | _ n ih =>
    by_cases hM : 64 ≤ M.length
    · rw [absorb_full v hM, ih (M.length - 64) (by omega) _ (M.drop 64) (by simp)]
      omega
    · rw [absorb_small v (by omega)]
      simp only
      omega

theorem absorb_append (v : Word × Word × Word × Word) (M N : List UInt8) : absorb v (M ++ N) = absorb (absorb v M).1 ((absorb v M).2 ++ N) := by
  induction hn : M.length using Nat.strong_induction_on generalizing v M with
  | _ n ih =>
    by_cases hM : 64 ≤ M.length
    · rw [absorb_full v hM, absorb_full v (M := M ++ N) (by simp; omega)]
      rw [List.take_append_of_le_length hM, List.drop_append_of_le_length hM]
      exact ih (M.length - 64) (by omega) _ (M.drop 64) (by simp)
    · rw [absorb_small v (M := M) (by omega)]

/-! ## The context -/

theorem ofNat_toNat (n : Nat) : (UInt8.ofNat n).toNat = n % 256 := by
  simp [UInt8.toNat_ofNat']

theorem bytes64_length (n : Nat) : (bytes64 n).length = 8 := by simp [bytes64]

theorem le_sum (n k : Nat) : ((List.range k).map (fun i => n / 2 ^ (8 * i) % 256 * 2 ^ (8 * i))).sum = n % 2 ^ (8 * k) := by
  induction k with
  | zero => simp [Nat.mod_one]
  | succ k ih =>
    rw [List.range_succ, List.map_append, List.sum_append, ih, show 8 * (k + 1) = 8 * k + 8 by omega, Nat.pow_add, Nat.mod_mul]
    simp [Nat.mul_comm]

theorem bytes64_value (n : Nat) : ((bytes64 n).zipIdx.map (fun p => p.1.toNat * 2 ^ (8 * p.2))).sum = n % 2 ^ 64 := by
  rw [← le_sum n 8]
  rfl

/-- The context after the bytes `M`. -/
structure Inv (c : Ctx) (M : List UInt8) : Prop where
  len : c.mem.length = 72
  hlen : c.hash.length = 4
  count : c.mem.drop 64 = bytes64 M.length
  hash_ : quad c.hash = (absorb (0x67452301, 0xefcdab89, 0x98badcfe, 0x10325476) M).1
  buf : c.mem.take (M.length % 64) = (absorb (0x67452301, 0xefcdab89, 0x98badcfe, 0x10325476) M).2

theorem bytes64_mod (n : Nat) : bytes64 (n % 2 ^ 64) = bytes64 n := by
  unfold bytes64
  apply List.map_congr_left
  intro k hk
  have hk : k < 8 := List.mem_range.1 hk
  apply UInt8.toNat_inj.1
  rw [ofNat_toNat, ofNat_toNat]
  have e : 2 ^ 64 = 2 ^ (8 * k) * (256 * 2 ^ (56 - 8 * k)) := by
    rw [show (256 : Nat) = 2 ^ 8 from rfl, ← Nat.pow_add, ← Nat.pow_add]
    congr 1
    omega
  rw [e, Nat.mod_mul_right_div_self, Nat.mod_mod_of_dvd _ (Nat.dvd_mul_right _ _)]

theorem length_eq {c : Ctx} {n : Nat} (h : c.mem.drop 64 = bytes64 n) : length c = n % 2 ^ 64 := by
  unfold length
  rw [h, bytes64_value]

theorem copy_ok (c : Ctx) (index : Nat) (src : List UInt8) (n : Nat) (hc : c.mem.length = 72) (hfit : index + 4 * ((n + 3) / 4) ≤ 64) (hsrc : 4 * ((n + 3) / 4) ≤ src.length) :
    ∃ d, le32copy c index src n = .ok d ∧ d.hash = c.hash ∧ d.mem.length = 72 ∧ d.mem.drop 64 = c.mem.drop 64 ∧ d.mem.take (index + n) = c.mem.take index ++ src.take n := by
  have hlt : ¬ src.length < 4 * ((n + 3) / 4) := by omega
  refine ⟨{ c with mem := c.mem.take index ++ src.take (4 * ((n + 3) / 4)) ++ c.mem.drop (index + 4 * ((n + 3) / 4)) }, by unfold le32copy; rw [if_neg hlt], rfl, ?_, ?_, ?_⟩
  · simp only [List.length_append, List.length_take, List.length_drop]; omega
  · simp only
    have h1 : (c.mem.take index ++ src.take (4 * ((n + 3) / 4))).length = index + 4 * ((n + 3) / 4) := by
      simp only [List.length_append, List.length_take]; omega
    rw [List.drop_append, h1, List.drop_of_length_le (by omega), List.nil_append, List.drop_drop]
    congr 1
    omega
  · simp only
    have h1 : (c.mem.take index).length = index := by simp; omega
    rw [List.append_assoc, List.take_append, h1, List.take_of_length_le (by omega), Nat.add_sub_cancel_left]
    congr 1
    rw [List.take_append_of_le_length (by simp only [List.length_take]; omega), List.take_take]
    congr 1
    omega

theorem process_mem (h : List Word) (m B : List UInt8) (hm : m.take 64 = B) : quad (process h (words m)) = Rfc.block (Rfc.word B) (quad h) := by
  rw [(process_block h (words m)).1]
  apply block_congr
  intro j hj
  rw [words_at m j hj]
  apply word_congr
  intro i hi
  rw [← hm]
  simp only [List.getD_eq_getElem?_getD, List.getElem?_take]
  rw [if_pos (by omega)]

theorem blocks_spec (c : Ctx) (hc : c.mem.length = 72) (hh : c.hash.length = 4) (msg behind : List UInt8) (hb : 4 * ((msg.length + 3) / 4) ≤ msg.length + behind.length) :
    ∃ d, blocks c msg behind = .ok d ∧ d.mem.length = 72 ∧ d.hash.length = 4 ∧ d.mem.drop 64 = c.mem.drop 64 ∧ quad d.hash = (absorb (quad c.hash) msg).1 ∧
      d.mem.take (absorb (quad c.hash) msg).2.length = (absorb (quad c.hash) msg).2 := by
  induction hn : msg.length using Nat.strong_induction_on generalizing c msg with
  | _ n ih =>
    by_cases hM : 64 ≤ msg.length
    · obtain ⟨d, d1, d2, d3, d4, d5⟩ := copy_ok c 0 (msg ++ behind) 64 hc (by omega) (by simp only [List.length_append]; omega)
      rw [blocks, dif_pos hM, d1]
      simp only [Outcome.bind_ok]
      have d5' : d.mem.take 64 = msg.take 64 := by
        simpa [List.take_append_of_le_length hM] using d5
      have hp := process_mem d.hash d.mem (msg.take 64) d5'
      obtain ⟨e, e1, e2, e3, e4, e5, e6⟩ := ih (msg.length - 64) (by omega) { d with hash := process d.hash (words d.mem) } d3 (process_block _ _).2 (msg.drop 64)
        (by simp only [List.length_drop]; omega) (by simp)
      refine ⟨e, e1, e2, e3, ?_, ?_, ?_⟩
      · rw [e4, ← d4]
      · rw [e5, absorb_full _ hM, hp, d2]
      · rw [absorb_full _ hM, ← d2, ← hp]
        exact e6
    · rw [blocks, dif_neg hM, absorb_small _ (by omega)]
      by_cases h0 : msg.length = 0
      · have : msg = [] := List.length_eq_zero_iff.1 h0
        subst this
        exact ⟨c, by simp, hc, hh, rfl, rfl, by simp⟩
      · obtain ⟨d, d1, d2, d3, d4, d5⟩ := copy_ok c 0 (msg ++ behind) msg.length hc (by omega) (by simp only [List.length_append]; omega)
        rw [if_pos h0, d1]
        refine ⟨d, rfl, d3, by rw [d2]; exact hh, d4, by rw [d2], ?_⟩
        simpa using d5

theorem inv_init (junk : List UInt8) (h : junk.length = 64) : Inv (init junk) [] := by
  refine ⟨by simp [init, h, bytes64_length], rfl, ?_, ?_, ?_⟩
  · unfold init; simp [← h]
  · rw [absorb_small _ (by simp)]; rfl
  · rw [absorb_small _ (by simp)]; rfl

theorem inv_update {c : Ctx} {M : List UInt8} (hI : Inv c M) (msg behind : List UInt8) (hbb : 4 * ((msg.length + 3) / 4) ≤ msg.length + behind.length)
    (hf : M.length % 4 = 0 ∨ M.length % 64 + 4 * ((msg.length + 3) / 4) ≤ 64) :
    ∃ d, update c msg behind = .ok d ∧ Inv d (M ++ msg) := by
  obtain ⟨hlen, hh, hcount, hhash, hbuf⟩ := hI
  have hL : length c % 64 = M.length % 64 := by rw [length_eq hcount]; omega
  have hS : setLength c (length c + msg.length) = { c with mem := c.mem.take 64 ++ bytes64 (M ++ msg).length } := by
    unfold setLength
    congr 2
    rw [length_eq hcount, List.length_append, ← bytes64_mod (M.length % 2 ^ 64 + msg.length), ← bytes64_mod (M.length + msg.length)]
    congr 1
    omega
  generalize hIV : ((0x67452301, 0xefcdab89, 0x98badcfe, 0x10325476) : Word × Word × Word × Word) = IV at *
  have hr2 := absorb_rest IV M
  have s1 : (c.mem.take 64 ++ bytes64 (M ++ msg).length).length = 72 := by simp [bytes64_length]; omega
  have s2 : (c.mem.take 64 ++ bytes64 (M ++ msg).length).drop 64 = bytes64 (M ++ msg).length := by
    rw [List.drop_append, List.drop_of_length_le (by simp)]
    have : (c.mem.take 64).length = 64 := by simp; omega
    rw [this]; rfl
  have s3 : ∀ k ≤ 64, (c.mem.take 64 ++ bytes64 (M ++ msg).length).take k = c.mem.take k := by
    intro k hk
    rw [List.take_append_of_le_length (by simp; omega), List.take_take, Nat.min_eq_left hk]
  unfold update
  simp only [hL, hS]
  by_cases h0 : M.length % 64 = 0
  · rw [if_neg (by simpa using h0)]
    obtain ⟨d, d1, d2, d3, d4, d5, d6⟩ := blocks_spec { c with mem := c.mem.take 64 ++ bytes64 (M ++ msg).length } s1 hh msg behind hbb
    have hab : absorb IV (M ++ msg) = absorb (quad c.hash) msg := by
      have hnil : (absorb IV M).2 = [] := List.length_eq_zero_iff.1 (by omega)
      rw [absorb_append, hnil, hhash]; rfl
    refine ⟨d, d1, d2, d3, by rw [d4]; exact s2, by rw [hIV, hab]; exact d5, ?_⟩
    rw [hIV, hab]
    have hl : (absorb (quad c.hash) msg).2.length = (M ++ msg).length % 64 := by rw [← hab, absorb_rest]
    rw [← hl]
    exact d6
  · rw [if_pos h0]
    by_cases hs : msg.length < 64 - M.length % 64
    · rw [if_pos hs]
      obtain ⟨d, d1, d2, d3, d4, d5⟩ := copy_ok { c with mem := c.mem.take 64 ++ bytes64 (M ++ msg).length } (M.length % 64) (msg ++ behind) msg.length s1 (by omega) (by simp only [List.length_append]; omega)
      rw [d1]
      simp only [Outcome.bind_ok, if_pos hs]
      have hab : absorb IV (M ++ msg) = (quad c.hash, c.mem.take (M.length % 64) ++ msg) := by
        rw [absorb_append, ← hbuf, ← hhash, absorb_small]
        simp only [List.length_append, List.length_take]; omega
      have hmod : (M ++ msg).length % 64 = M.length % 64 + msg.length := by rw [List.length_append]; omega
      refine ⟨d, rfl, d3, by rw [d2]; exact hh, by rw [d4]; exact s2, by rw [hIV, hab, d2], ?_⟩
      rw [hIV, hab, hmod, d5, s3 _ (by omega)]
      simp
    · rw [if_neg hs]
      have hm4 : M.length % 4 = 0 := by omega
      have hge : 64 - M.length % 64 ≤ msg.length := by omega
      obtain ⟨d, d1, d2, d3, d4, d5⟩ := copy_ok { c with mem := c.mem.take 64 ++ bytes64 (M ++ msg).length } (M.length % 64) (msg ++ behind) (64 - M.length % 64) s1 (by omega) (by simp only [List.length_append]; omega)
      rw [d1]
      simp only [Outcome.bind_ok, if_neg hs]
      rw [show M.length % 64 + (64 - M.length % 64) = 64 by omega, s3 _ (by omega), List.take_append_of_le_length hge] at d5
      have hl1 : (c.mem.take (M.length % 64)).length = M.length % 64 := by simp; omega
      have hp := process_mem d.hash d.mem _ d5
      obtain ⟨e, e1, e2, e3, e4, e5, e6⟩ := blocks_spec { d with hash := process d.hash (words d.mem) } d3 (process_block _ _).2 (msg.drop (64 - M.length % 64)) behind
        (by simp only [List.length_drop]; omega)
      have hab : absorb IV (M ++ msg) = absorb (quad (process d.hash (words d.mem))) (msg.drop (64 - M.length % 64)) := by
        rw [absorb_append, ← hbuf, ← hhash, hp, d2, absorb_full _ (by simp only [List.length_append, hl1]; omega)]
        have ht : (c.mem.take (M.length % 64) ++ msg).take 64 = c.mem.take (M.length % 64) ++ msg.take (64 - M.length % 64) := by
          rw [List.take_append, hl1, List.take_of_length_le (by omega)]
        have hd : (c.mem.take (M.length % 64) ++ msg).drop 64 = msg.drop (64 - M.length % 64) := by
          rw [List.drop_append, hl1, List.drop_of_length_le (by omega)]; rfl
        rw [ht, hd]
      refine ⟨e, e1, e2, e3, by rw [e4, d4]; exact s2, by rw [hIV, hab]; exact e5, ?_⟩
      rw [hIV, hab]
      have hl : (absorb (quad (process d.hash (words d.mem))) (msg.drop (64 - M.length % 64))).2.length = (M ++ msg).length % 64 := by rw [← hab, absorb_rest]
      rw [← hl]
      exact e6

/-! ## The end -/

/-- A word from its bytes. -/
def w32 (b0 b1 b2 b3 : UInt8) : Word := b3.toBitVec ++ b2.toBitVec ++ b1.toBitVec ++ b0.toBitVec

theorem w32_bit (b0 b1 b2 b3 : UInt8) (i : Nat) (hi : i < 32) :
    (w32 b0 b1 b2 b3).getLsbD i = if i < 8 then b0.toBitVec.getLsbD i else if i < 16 then b1.toBitVec.getLsbD (i - 8) else if i < 24 then b2.toBitVec.getLsbD (i - 16) else b3.toBitVec.getLsbD (i - 24) := by
  unfold w32
  simp only [BitVec.getLsbD_append]
  by_cases h1 : i < 8
  · simp [h1]
  · by_cases h2 : i < 16
    · have : i - 8 < 8 := by omega
      simp [h1, h2, this]
    · by_cases h3 : i < 24
      · have a : ¬ i - 8 < 8 := by omega
        have b : i - 8 - 8 < 8 := by omega
        simp only [h1, h2, h3, a, b, if_true, if_false]
        congr 1
      · have a : ¬ i - 8 < 8 := by omega
        have b : ¬ i - 8 - 8 < 8 := by omega
        simp only [h1, h2, h3, a, b, if_false]
        congr 1

theorem mask0 (b0 b1 b2 b3 : UInt8) : (w32 b0 b1 b2 b3 &&& ~~~ ((0xFFFFFFFF : Word) <<< 0)) ^^^ ((0x80 : Word) <<< 0) = w32 0x80 0 0 0 := by
  apply BitVec.eq_of_getLsbD_eq
  intro i hi
  rw [BitVec.getLsbD_xor, BitVec.getLsbD_and, w32_bit _ _ _ _ _ hi, w32_bit _ _ _ _ _ hi]
  interval_cases i <;> simp

theorem mask1 (b0 b1 b2 b3 : UInt8) : (w32 b0 b1 b2 b3 &&& ~~~ ((0xFFFFFFFF : Word) <<< 8)) ^^^ ((0x80 : Word) <<< 8) = w32 b0 0x80 0 0 := by
  apply BitVec.eq_of_getLsbD_eq
  intro i hi
  rw [BitVec.getLsbD_xor, BitVec.getLsbD_and, w32_bit _ _ _ _ _ hi, w32_bit _ _ _ _ _ hi]
  interval_cases i <;> simp

theorem mask2 (b0 b1 b2 b3 : UInt8) : (w32 b0 b1 b2 b3 &&& ~~~ ((0xFFFFFFFF : Word) <<< 16)) ^^^ ((0x80 : Word) <<< 16) = w32 b0 b1 0x80 0 := by
  apply BitVec.eq_of_getLsbD_eq
  intro i hi
  rw [BitVec.getLsbD_xor, BitVec.getLsbD_and, w32_bit _ _ _ _ _ hi, w32_bit _ _ _ _ _ hi]
  interval_cases i <;> simp

theorem mask3 (b0 b1 b2 b3 : UInt8) : (w32 b0 b1 b2 b3 &&& ~~~ ((0xFFFFFFFF : Word) <<< 24)) ^^^ ((0x80 : Word) <<< 24) = w32 b0 b1 b2 0x80 := by
  apply BitVec.eq_of_getLsbD_eq
  intro i hi
  rw [BitVec.getLsbD_xor, BitVec.getLsbD_and, w32_bit _ _ _ _ _ hi, w32_bit _ _ _ _ _ hi]
  interval_cases i <;> simp

theorem w32_ofNat (n : Nat) : w32 (UInt8.ofNat n) (UInt8.ofNat (n / 2 ^ 8)) (UInt8.ofNat (n / 2 ^ 16)) (UInt8.ofNat (n / 2 ^ 24)) = BitVec.ofNat 32 n := by
  apply BitVec.eq_of_getLsbD_eq
  intro i hi
  rw [w32_bit _ _ _ _ _ hi]
  have e : ∀ m, (UInt8.ofNat m).toBitVec = BitVec.ofNat 8 m := fun _ => rfl
  simp only [e, BitVec.getLsbD_ofNat, Nat.testBit_div_two_pow, hi, decide_true, Bool.true_and]
  split
  · rename_i h; simp [h]
  · split
    · rw [show i - 8 + 8 = i by omega]; simp; omega
    · split
      · rw [show i - 16 + 16 = i by omega]; simp; omega
      · rw [show i - 24 + 24 = i by omega]; simp; omega

theorem word_w32 (m : List UInt8) (j : Nat) : word m j = w32 (m.getD (4 * j) 0) (m.getD (4 * j + 1) 0) (m.getD (4 * j + 2) 0) (m.getD (4 * j + 3) 0) := rfl

theorem rword_w32 (m : List UInt8) (j : Nat) : Rfc.word m j = w32 (m.getD (4 * j) 0) (m.getD (4 * j + 1) 0) (m.getD (4 * j + 2) 0) (m.getD (4 * j + 3) 0) := rfl

theorem w32_zero : w32 0 0 0 0 = 0 := by decide

theorem setW (w : List Word) (i j : Nat) (v : Word) (hi : i < w.length) : (w.set i v).getD j 0 = if j = i then v else w.getD j 0 := by
  simp only [List.getD_eq_getElem?_getD, List.getElem?_set]
  by_cases h : j = i
  · subst h; simp [hi]
  · have : ¬ i = j := fun e => h e.symm
    simp [h, this]

theorem zero_spec (w : List Word) (i k : Nat) (hk : i + k ≤ w.length) : (zero w i (i + k)).length = w.length ∧ ∀ j, (zero w i (i + k)).getD j 0 = if i ≤ j ∧ j < i + k then 0 else w.getD j 0 := by
  unfold zero
  rw [Nat.add_sub_cancel_left]
  induction k with
  | zero => refine ⟨rfl, fun j => ?_⟩; rw [if_neg (by omega)]; rfl
  | succ k ih =>
    obtain ⟨i1, i2⟩ := ih (by omega)
    rw [List.range'_concat, List.foldl_append]
    simp only [List.foldl_cons, List.foldl_nil, Nat.one_mul]
    refine ⟨by rw [List.length_set, i1], fun j => ?_⟩
    rw [setW _ _ _ _ (by rw [i1]; omega), i2 j]
    by_cases h : j = i + k
    · subst h; rw [if_pos rfl, if_pos (by omega)]
    · rw [if_neg h]
      by_cases h2 : i ≤ j ∧ j < i + k
      · rw [if_pos h2, if_pos (by omega)]
      · rw [if_neg h2, if_neg (by omega)]

/-- The bytes of a padded tail. -/
theorem pad_at (t : List UInt8) (z : Nat) (X : List UInt8) (i : Nat) :
    (t ++ [0x80] ++ List.replicate z 0 ++ X).getD i 0 = if i < t.length then t.getD i 0 else if i = t.length then 0x80 else if i < t.length + 1 + z then 0 else X.getD (i - (t.length + 1 + z)) 0 := by
  by_cases h1 : i < t.length
  · rw [if_pos h1, List.append_assoc, List.append_assoc, List.getD_append _ _ _ _ h1]
  · rw [if_neg h1]
    by_cases h2 : i = t.length
    · rw [if_pos h2, List.append_assoc, List.append_assoc, List.getD_append_right _ _ _ _ (by omega), h2]
      simp
    · rw [if_neg h2]
      by_cases h3 : i < t.length + 1 + z
      · rw [if_pos h3, List.append_assoc, List.getD_append_right _ _ _ _ (by simp; omega), List.getD_append _ _ _ _ (by simp; omega)]
        rw [List.getD_eq_getElem?_getD, List.getElem?_replicate]
        split <;> rfl
      · rw [if_neg h3, List.getD_append_right _ _ _ _ (by simp; omega)]
        congr 1
        simp only [List.length_append, List.length_singleton, List.length_replicate]

/-- The words of the message after the mark. -/
def marked (mem : List UInt8) (r : Nat) : List Word :=
  let w := words mem
  let w := w.set (r / 4) (w.getD (r / 4) 0 &&& ~~~ ((0xFFFFFFFF : Word) <<< (r % 4 * 8)))
  w.set (r / 4) (w.getD (r / 4) 0 ^^^ ((0x80 : Word) <<< (r % 4 * 8)))

theorem marked_length (mem : List UInt8) (r : Nat) : (marked mem r).length = 16 := by simp [marked, words]

theorem marked_at (mem : List UInt8) (r : Nat) (hr : r < 64) (hm : mem.length = 72) (z : Nat) (X : List UInt8) (hz : 4 * (r / 4) + 4 ≤ r + 1 + z) (j : Nat) (hj : j ≤ r / 4) :
    (marked mem r).getD j 0 = Rfc.word (mem.take r ++ [0x80] ++ List.replicate z 0 ++ X) j := by
  have hl : (mem.take r).length = r := by simp; omega
  have ht : ∀ i, i < r → (mem.take r).getD i 0 = mem.getD i 0 := by
    intro i hi
    simp only [List.getD_eq_getElem?_getD, List.getElem?_take]
    rw [if_pos hi]
  have hP : ∀ i, (mem.take r ++ [0x80] ++ List.replicate z 0 ++ X).getD i 0 = if i < r then mem.getD i 0 else if i = r then 0x80 else if i < r + 1 + z then 0 else X.getD (i - (r + 1 + z)) 0 := by
    intro i
    rw [pad_at, hl]
    by_cases hi : i < r
    · rw [if_pos hi, if_pos hi, ht i hi]
    · rw [if_neg hi, if_neg hi]
  have hwl : (words mem).length = 16 := by simp [words]
  unfold marked
  dsimp only
  rw [setW _ _ _ _ (by rw [List.length_set, hwl]; omega), setW _ _ _ _ (by rw [hwl]; omega), setW _ _ _ _ (by rw [hwl]; omega), if_pos rfl, words_at _ _ (by omega), words_at _ _ (by omega)]
  rw [rword_w32]
  simp only [hP]
  by_cases hjr : j = r / 4
  · rw [if_pos hjr]
    subst hjr
    rw [word_w32]
    have hq : r % 4 = 0 ∨ r % 4 = 1 ∨ r % 4 = 2 ∨ r % 4 = 3 := by omega
    rcases hq with hq | hq | hq | hq
    · rw [hq, mask0, if_neg (by omega), if_pos (by omega), if_neg (by omega), if_neg (by omega), if_pos (by omega), if_neg (by omega), if_neg (by omega), if_pos (by omega), if_neg (by omega), if_neg (by omega), if_pos (by omega)]
    · rw [hq, mask1, if_pos (by omega), if_neg (by omega), if_pos (by omega), if_neg (by omega), if_neg (by omega), if_pos (by omega), if_neg (by omega), if_neg (by omega), if_pos (by omega)]
    · rw [hq, mask2, if_pos (by omega), if_pos (by omega), if_neg (by omega), if_pos (by omega), if_neg (by omega), if_neg (by omega), if_pos (by omega)]
    · rw [hq, mask3, if_pos (by omega), if_pos (by omega), if_pos (by omega), if_neg (by omega), if_pos (by omega)]
  · rw [if_neg hjr, if_neg hjr, word_w32, if_pos (by omega), if_pos (by omega), if_pos (by omega), if_pos (by omega)]

theorem zeros_at (t : List UInt8) (z : Nat) (X : List UInt8) (j : Nat) (h1 : t.length < 4 * j) (h2 : 4 * j + 4 ≤ t.length + 1 + z) : Rfc.word (t ++ [0x80] ++ List.replicate z 0 ++ X) j = 0 := by
  rw [rword_w32]
  simp only [pad_at]
  rw [if_neg (by omega), if_neg (by omega), if_pos (by omega), if_neg (by omega), if_neg (by omega), if_pos (by omega), if_neg (by omega), if_neg (by omega), if_pos (by omega), if_neg (by omega), if_neg (by omega), if_pos (by omega), w32_zero]

/-- The bytes of the length. -/
def lenBytes (n : Nat) : List UInt8 := (List.range 8).map (fun k => UInt8.ofNat (8 * n / 2 ^ (8 * k)))

theorem len_low (n : Nat) : w32 ((lenBytes n).getD 0 0) ((lenBytes n).getD 1 0) ((lenBytes n).getD 2 0) ((lenBytes n).getD 3 0) = BitVec.ofNat 32 (n % 2 ^ 64 * 8) := by
  have : w32 ((lenBytes n).getD 0 0) ((lenBytes n).getD 1 0) ((lenBytes n).getD 2 0) ((lenBytes n).getD 3 0) = w32 (UInt8.ofNat (8 * n)) (UInt8.ofNat (8 * n / 2 ^ 8)) (UInt8.ofNat (8 * n / 2 ^ 16)) (UInt8.ofNat (8 * n / 2 ^ 24)) := by
    have h0 : (lenBytes n).getD 0 0 = UInt8.ofNat (8 * n / 2 ^ (8 * 0)) := rfl
    rw [h0, Nat.mul_zero, Nat.pow_zero, Nat.div_one]
    rfl
  rw [this, w32_ofNat]
  apply BitVec.eq_of_toNat_eq
  rw [BitVec.toNat_ofNat, BitVec.toNat_ofNat]
  omega

theorem len_high (n : Nat) : w32 ((lenBytes n).getD 4 0) ((lenBytes n).getD 5 0) ((lenBytes n).getD 6 0) ((lenBytes n).getD 7 0) = BitVec.ofNat 32 (n % 2 ^ 64 / 2 ^ 29) := by
  have : w32 ((lenBytes n).getD 4 0) ((lenBytes n).getD 5 0) ((lenBytes n).getD 6 0) ((lenBytes n).getD 7 0) =
      w32 (UInt8.ofNat (8 * n / 2 ^ 32)) (UInt8.ofNat (8 * n / 2 ^ 32 / 2 ^ 8)) (UInt8.ofNat (8 * n / 2 ^ 32 / 2 ^ 16)) (UInt8.ofNat (8 * n / 2 ^ 32 / 2 ^ 24)) := by
    rw [Nat.div_div_eq_div_mul, Nat.div_div_eq_div_mul, Nat.div_div_eq_div_mul, ← Nat.pow_add, ← Nat.pow_add, ← Nat.pow_add]
    rfl
  rw [this, w32_ofNat]
  apply BitVec.eq_of_toNat_eq
  rw [BitVec.toNat_ofNat, BitVec.toNat_ofNat]
  omega

/-- The last block. -/
theorem last_at (w : List Word) (hw : w.length = 16) (P : List UInt8) (n : Nat) (hP : P.length = 56) (h : ∀ j < 14, w.getD j 0 = Rfc.word (P ++ lenBytes n) j) (j : Nat) (hj : j < 16) :
    ((w.set 14 (BitVec.ofNat 32 (n % 2 ^ 64 * 8))).set 15 (BitVec.ofNat 32 (n % 2 ^ 64 / 2 ^ 29))).getD j 0 = Rfc.word (P ++ lenBytes n) j := by
  rw [setW _ _ _ _ (by rw [List.length_set]; omega), setW _ _ _ _ (by omega)]
  have hR : ∀ i, 56 ≤ i → (P ++ lenBytes n).getD i 0 = (lenBytes n).getD (i - 56) 0 := by
    intro i hi
    rw [List.getD_append_right _ _ _ _ (by omega), hP]
  by_cases h15 : j = 15
  · subst h15
    rw [if_pos rfl, rword_w32, hR _ (by omega), hR _ (by omega), hR _ (by omega), hR _ (by omega), ← len_high]
  · rw [if_neg h15]
    by_cases h14 : j = 14
    · subst h14
      rw [if_pos rfl, rword_w32, hR _ (by omega), hR _ (by omega), hR _ (by omega), hR _ (by omega), ← len_low]
    · rw [if_neg h14]
      exact h j (by omega)

/-- The state after the end. -/
def closed (hash : List Word) (mem : List UInt8) (n : Nat) : List Word :=
  let w := marked mem (n % 64)
  let index := n % 64 / 4 + 1
  let p := if 14 < index then (process hash (zero w index 16), zero w index 16, 0) else (hash, w, index)
  let w := zero p.2.1 p.2.2 14
  process p.1 ((w.set 14 (BitVec.ofNat 32 (n % 2 ^ 64 * 8))).set 15 (BitVec.ofNat 32 (n % 2 ^ 64 / 2 ^ 29)))

theorem closed_spec (hash : List Word) (mem : List UInt8) (hm : mem.length = 72) (n : Nat) :
    quad (closed hash mem n) = (absorb (quad hash) (mem.take (n % 64) ++ [0x80] ++ List.replicate ((119 - n % 64) % 64) 0 ++ lenBytes n)).1 := by
  have hl : (mem.take (n % 64)).length = n % 64 := by simp; omega
  have hlb : (lenBytes n).length = 8 := by simp [lenBytes]
  have hml := marked_length mem (n % 64)
  unfold closed
  dsimp only
  by_cases h : 14 < n % 64 / 4 + 1
  · rw [if_pos h]
    dsimp only
    have hz : (119 - n % 64) % 64 = (63 - n % 64) + 56 := by omega
    have hlen : (mem.take (n % 64) ++ [0x80] ++ List.replicate (63 - n % 64) 0).length = 64 := by
      simp only [List.length_append, hl, List.length_replicate, List.length_singleton]; omega
    have e : mem.take (n % 64) ++ [0x80] ++ List.replicate ((119 - n % 64) % 64) 0 ++ lenBytes n =
        (mem.take (n % 64) ++ [0x80] ++ List.replicate (63 - n % 64) 0) ++ (List.replicate 56 0 ++ lenBytes n) := by
      rw [hz, ← List.replicate_append_replicate]
      simp only [List.append_assoc]
    rw [e, absorb_full _ (by rw [List.length_append, hlen]; omega), List.take_append_of_le_length (by omega), List.take_of_length_le (by omega), List.drop_append_of_le_length (by omega), List.drop_of_length_le (by omega), List.nil_append]
    have hlen2 : (List.replicate 56 (0 : UInt8) ++ lenBytes n).length = 64 := by simp [hlb]
    rw [absorb_full _ (by omega), List.take_of_length_le (by omega), List.drop_of_length_le (by omega), absorb_small _ (by simp)]
    rw [(process_block _ _).1, (process_block _ _).1]
    obtain ⟨z1, z2⟩ := zero_spec (marked mem (n % 64)) (n % 64 / 4 + 1) (16 - (n % 64 / 4 + 1)) (by omega)
    rw [show n % 64 / 4 + 1 + (16 - (n % 64 / 4 + 1)) = 16 by omega] at z1 z2
    obtain ⟨y1, y2⟩ := zero_spec (zero (marked mem (n % 64)) (n % 64 / 4 + 1) 16) 0 14 (by omega)
    have hb1 : Rfc.block (fun j => (zero (marked mem (n % 64)) (n % 64 / 4 + 1) 16).getD j 0) (quad hash) = Rfc.block (Rfc.word (mem.take (n % 64) ++ [0x80] ++ List.replicate (63 - n % 64) 0)) (quad hash) := by
      apply block_congr
      intro j hj
      rw [z2]
      by_cases hj1 : j ≤ n % 64 / 4
      · rw [if_neg (by omega), marked_at mem _ (by omega) hm (63 - n % 64) [] (by omega) j hj1, List.append_nil]
      · rw [if_pos (by omega), ← List.append_nil (mem.take (n % 64) ++ [0x80] ++ List.replicate (63 - n % 64) 0), zeros_at _ _ _ _ (by omega) (by omega)]
    rw [hb1]
    apply block_congr
    intro j hj
    refine last_at _ (by rw [show 14 = 0 + 14 from rfl, y1, z1, hml]) _ _ (by simp) ?_ j hj
    intro i hi
    rw [show 14 = 0 + 14 from rfl, y2, if_pos (by omega), rword_w32]
    have hq : ∀ k < 56, (List.replicate 56 (0 : UInt8) ++ lenBytes n).getD k 0 = 0 := by
      intro k hk
      rw [List.getD_append _ _ _ _ (by simp; omega), List.getD_eq_getElem?_getD, List.getElem?_replicate, if_pos hk]; rfl
    rw [hq _ (by omega), hq _ (by omega), hq _ (by omega), hq _ (by omega), w32_zero]
  · rw [if_neg h]
    dsimp only
    have hz : (119 - n % 64) % 64 = 55 - n % 64 := by omega
    rw [hz]
    have hlen : (mem.take (n % 64) ++ [0x80] ++ List.replicate (55 - n % 64) 0).length = 56 := by
      simp only [List.length_append, hl, List.length_replicate, List.length_singleton]; omega
    have hlen2 : (mem.take (n % 64) ++ [0x80] ++ List.replicate (55 - n % 64) 0 ++ lenBytes n).length = 64 := by
      rw [List.length_append, hlen, hlb]
    rw [absorb_full _ (by omega), List.take_of_length_le (by omega), List.drop_of_length_le (by omega), absorb_small _ (by simp)]
    rw [(process_block _ _).1]
    obtain ⟨z1, z2⟩ := zero_spec (marked mem (n % 64)) (n % 64 / 4 + 1) (14 - (n % 64 / 4 + 1)) (by omega)
    rw [show n % 64 / 4 + 1 + (14 - (n % 64 / 4 + 1)) = 14 by omega] at z1 z2
    apply block_congr
    intro j hj
    refine last_at _ (by rw [z1, hml]) _ _ hlen ?_ j hj
    intro i hi
    rw [z2]
    by_cases hj1 : i ≤ n % 64 / 4
    · rw [if_neg (by omega), marked_at mem _ (by omega) hm (55 - n % 64) (lenBytes n) (by omega) i hj1]
    · rw [if_pos (by omega), zeros_at _ _ _ _ (by omega) (by omega)]

theorem final_spec {c : Ctx} {M : List UInt8} (hI : Inv c M) : final c = Rfc.md5 M := by
  have hL := length_eq hI.count
  have hc : quad (closed c.hash c.mem M.length) = Rfc.process (0x67452301, 0xefcdab89, 0x98badcfe, 0x10325476) (Rfc.pad M) := by
    rw [closed_spec _ _ hI.len, ← absorb_process, hI.hash_, hI.buf]
    unfold Rfc.pad
    rw [List.append_assoc M, List.append_assoc M, absorb_append _ M]
    simp only [List.append_assoc]
    rfl
  have hf : final c = (List.range 16).map (fun j => UInt8.ofBitVec ((((closed c.hash c.mem M.length).getD (j / 4) 0) >>> (8 * (j % 4))).setWidth 8)) := by
    have e1 : M.length % 2 ^ 64 % 64 = M.length % 64 := by omega
    have e2 : M.length % 2 ^ 64 % 4 = M.length % 64 % 4 := by omega
    unfold final closed marked
    dsimp only
    rw [hL, e1, e2]
  have hlen : (closed c.hash c.mem M.length).length = 4 := (process_block _ _).2
  rw [hf]
  unfold Rfc.md5
  rw [← hc]
  obtain ⟨a, b, d, e, hr⟩ := destruct4 _ hlen
  rw [hr]
  rfl

theorem inv_updates (pieces : List (List UInt8 × List UInt8)) : ∀ {c : Ctx} {M : List UInt8}, Inv c M → fits M.length pieces →
    (∀ p ∈ pieces, 4 * ((p.1.length + 3) / 4) ≤ p.1.length + p.2.length) →
    ∃ d, pieces.foldlM (fun c p => update c p.1 p.2) c = .ok d ∧ Inv d (M ++ pieces.flatMap (·.1)) := by
  induction pieces with
  | nil => intro c M h _ _; exact ⟨c, rfl, by simpa using h⟩
  | cons p ps ih =>
    intro c M h hf hr
    obtain ⟨d, d1, d2⟩ := inv_update h p.1 p.2 (hr p List.mem_cons_self) hf.1
    obtain ⟨e, e1, e2⟩ := ih d2 (by rw [List.length_append]; exact hf.2) (fun q hq => hr q (List.mem_cons_of_mem _ hq))
    refine ⟨e, ?_, by rw [List.flatMap_cons, ← List.append_assoc]; exact e2⟩
    rw [List.foldlM_cons, d1]
    exact e1

end Ouro.Md5
