import Verif.Proof.Tac
import Verif.Model.Pft
import Verif.Spec.FiniteMap

/-! # Lemmas about the forwarding table -/

namespace Ouro.Pft

open Spec.FiniteMap

/-- Invariant: every key is in range and no bucket has two entries for one destination. -/
structure WF (p : Pft) : Prop where
  size : p.buckets.length = p.size.toNat
  pos : 0 < p.size.toNat
  nodup : ∀ b ∈ p.buckets, (b.map (·.dst)).Nodup

/-- The abstraction: which entry the table has for an address. -/
def get (p : Pft) : Map (BitVec 64) Entry :=
  fun dst => (p.buckets.getD (calcKey p dst).toNat []).find? (fun e => e.dst == dst)

theorem calcKey_lt {p : Pft} (h : WF p) (dst : BitVec 64) : (calcKey p dst).toNat < p.buckets.length := by
  rw [h.size]
  unfold calcKey
  simp only [BitVec.toNat_and]
  have h1 : (p.size - 1).toNat = p.size.toNat - 1 := by
    have hp := h.pos
    have : (1 : BitVec 64) ≤ p.size := by
      rw [BitVec.le_def]; exact hp
    rw [BitVec.toNat_sub_of_le this]; rfl
  rw [h1]
  exact Nat.lt_of_le_of_lt Nat.and_le_right (by have := h.pos; omega)

theorem rd_ok {α : Type} {l : List α} {i : Nat} (h : i < l.length) : rd l i = .ok l[i] := by
  simp [rd, h]

theorem wr_ok {α : Type} {l : List α} {i : Nat} (h : i < l.length) (a : α) : wr l i a = .ok (l.set i a) := by
  simp [wr, h]

theorem lookup_eq {p : Pft} (h : WF p) (dst : BitVec 64) : lookup p dst = .ok (get p dst) := by
  unfold lookup
  have := calcKey_lt h dst
  rw [rd_ok this]
  simp only [Outcome.bind_ok, Outcome.pure_eq, get]
  rw [List.getD_eq_getElem _ _ this]

theorem any_iff_get {p : Pft} (h : WF p) (dst : BitVec 64) :
    (p.buckets[(calcKey p dst).toNat]'(calcKey_lt h dst)).any (fun e => e.dst == dst) = (get p dst).isSome := by
  unfold get
  rw [List.getD_eq_getElem _ _ (calcKey_lt h dst), Bool.eq_iff_iff, List.find?_isSome, List.any_eq_true]

theorem get_some_dst {p : Pft} {dst : BitVec 64} {e : Entry} (h : get p dst = some e) : e.dst = dst := by
  have := List.find?_some h
  simpa using this

theorem get_set {p : Pft} (h : WF p) (dst : BitVec 64) (b : List Entry) (dst' : BitVec 64) :
    get { p with buckets := p.buckets.set (calcKey p dst).toNat b } dst' =
      if calcKey p dst' = calcKey p dst then b.find? (fun e => e.dst == dst') else get p dst' := by
  unfold get
  have e : calcKey { p with buckets := p.buckets.set (calcKey p dst).toNat b } dst' = calcKey p dst' := rfl
  rw [e]
  have h1 := calcKey_lt h dst
  have h2 := calcKey_lt h dst'
  simp only
  rw [List.getD_eq_getElem _ _ (by rw [List.length_set]; exact h2), List.getElem_set]
  by_cases hk : calcKey p dst' = calcKey p dst
  · simp [hk]
  · have : (calcKey p dst).toNat ≠ (calcKey p dst').toNat := fun e => hk (BitVec.eq_of_toNat_eq e.symm)
    rw [if_neg this, if_neg hk, List.getD_eq_getElem _ _ h2]

theorem wf_set {p : Pft} (h : WF p) (k : Nat) (b : List Entry) (hb : (b.map (·.dst)).Nodup) :
    WF { p with buckets := p.buckets.set k b } := by
  refine ⟨by simp [h.size], h.pos, ?_⟩
  intro x hx
  rcases List.mem_or_eq_of_mem_set hx with hx | rfl
  · exact h.nodup x hx
  · exact hb

theorem insert_spec {p : Pft} (h : WF p) (dst : BitVec 64) (fds : List Int) (len : Nat) (mem : Bool) (hl : len ≠ 0) :
    ∃ p' r, insert p dst fds len mem = .ok (p', r) ∧ WF p' ∧
      r = (if (get p dst).isSome then -EPERM else if mem then 0 else -ENOMEM) ∧
      get p' = if (get p dst).isNone ∧ mem = true then put (get p) dst ⟨dst, fds, len⟩ else get p := by
  unfold insert
  dsimp only
  rw [if_neg hl, rd_ok (calcKey_lt h dst)]
  simp only [Outcome.bind_ok, Outcome.pure_eq]
  rw [any_iff_get h]
  by_cases h1 : (get p dst).isSome = true
  · rw [if_pos h1]
    refine ⟨_, _, rfl, h, by simp [h1], ?_⟩
    rw [if_neg]
    rintro ⟨h2, _⟩
    rw [Option.isNone_iff_eq_none] at h2
    rw [h2] at h1; cases h1
  · rw [if_neg h1]
    cases mem with
    | false => exact ⟨_, _, rfl, h, by simp [h1], by simp⟩
    | true =>
      rw [wr_ok (calcKey_lt h dst)]
      simp only [Bool.not_true, Bool.false_eq_true, if_false, Outcome.bind_ok]
      have hn : get p dst = none := by
        cases hg : get p dst with
        | none => rfl
        | some e => rw [hg] at h1; exact absurd rfl h1
      refine ⟨_, _, rfl, wf_set h _ _ ?_, by simp [h1], ?_⟩
      · simp only [List.map_cons, List.nodup_cons]
        refine ⟨?_, h.nodup _ (List.getElem_mem _)⟩
        intro hm
        obtain ⟨e, he, hd⟩ := List.mem_map.mp hm
        have := any_iff_get h dst
        rw [hn] at this
        simp only [Option.isSome_none, List.any_eq_false] at this
        exact this e he (by simp [hd])
      · rw [if_pos ⟨by rw [hn]; rfl, trivial⟩]
        funext dst'
        rw [get_set h]
        unfold put
        by_cases hk : calcKey p dst' = calcKey p dst
        · rw [if_pos hk]
          by_cases hd : dst' = dst
          · subst hd; simp
          · rw [if_neg hd, List.find?_cons_of_neg (by simp; exact fun e => hd e.symm)]
            unfold get
            rw [hk, List.getD_eq_getElem _ _ (calcKey_lt h dst)]
        · rw [if_neg hk, if_neg]
          rintro rfl
          exact hk rfl

theorem find?_eraseP_ne (b : List Entry) (dst dst' : BitVec 64) (hd : dst' ≠ dst) :
    (b.eraseP (fun e => e.dst == dst)).find? (fun e => e.dst == dst') = b.find? (fun e => e.dst == dst') := by
  induction b with
  | nil => rfl
  | cons x b ih =>
    by_cases hx : x.dst = dst
    · rw [List.eraseP_cons_of_pos (by simp [hx]), List.find?_cons_of_neg (by simp [hx]; exact fun e => hd e.symm)]
    · rw [List.eraseP_cons_of_neg (by simp [hx])]
      simp only [List.find?_cons, ih]

theorem find?_eraseP_self (b : List Entry) (dst : BitVec 64) (hb : (b.map (·.dst)).Nodup) :
    (b.eraseP (fun e => e.dst == dst)).find? (fun e => e.dst == dst) = none := by
  induction b with
  | nil => rfl
  | cons x b ih =>
    simp only [List.map_cons, List.nodup_cons] at hb
    by_cases hx : x.dst = dst
    · rw [List.eraseP_cons_of_pos (by simp [hx])]
      rw [List.find?_eq_none]
      intro y hy
      simp only [beq_iff_eq]
      intro e
      exact hb.1 (by rw [hx, ← e]; exact List.mem_map_of_mem hy)
    · rw [List.eraseP_cons_of_neg (by simp [hx]), List.find?_cons_of_neg (by simp [hx])]
      exact ih hb.2

theorem delete_spec {p : Pft} (h : WF p) (dst : BitVec 64) :
    ∃ p' r, delete p dst = .ok (p', r) ∧ WF p' ∧ r = (if (get p dst).isSome then 0 else -1) ∧ get p' = remove (get p) dst := by
  unfold delete
  dsimp only
  rw [rd_ok (calcKey_lt h dst)]
  simp only [Outcome.bind_ok, Outcome.pure_eq]
  rw [any_iff_get h]
  by_cases h1 : (get p dst).isSome = true
  · rw [if_pos h1, wr_ok (calcKey_lt h dst)]
    simp only [Outcome.bind_ok]
    have hb := h.nodup _ (List.getElem_mem (calcKey_lt h dst))
    refine ⟨_, _, rfl, wf_set h _ _ ?_, by simp [h1], ?_⟩
    · exact hb.sublist (List.Sublist.map _ (List.eraseP_sublist))
    · funext dst'
      rw [get_set h]
      unfold remove
      by_cases hk : calcKey p dst' = calcKey p dst
      · rw [if_pos hk]
        by_cases hd : dst' = dst
        · subst hd; rw [if_pos rfl]; exact find?_eraseP_self _ _ hb
        · rw [if_neg hd, find?_eraseP_ne _ _ _ hd]
          unfold get
          rw [hk, List.getD_eq_getElem _ _ (calcKey_lt h dst)]
      · rw [if_neg hk, if_neg]
        rintro rfl; exact hk rfl
  · rw [if_neg h1]
    refine ⟨_, _, rfl, h, by simp [h1], ?_⟩
    funext dst'
    unfold remove
    split
    · rename_i e; subst e
      cases hg : get p dst' with
      | none => rfl
      | some e => rw [hg] at h1; exact absurd rfl h1
    · rfl

theorem flush_spec {p : Pft} (h : WF p) : WF (flush p) ∧ get (flush p) = empty := by
  refine ⟨⟨by simp [flush, h.size], h.pos, ?_⟩, ?_⟩
  · intro b hb
    simp only [flush, List.mem_map] at hb
    obtain ⟨_, _, rfl⟩ := hb
    simp
  · funext dst
    unfold get flush empty
    have : ∀ i, (p.buckets.map (fun _ => ([] : List Entry))).getD i [] = [] := by
      intro i
      rw [List.getD_eq_getElem?_getD, List.getElem?_map]
      cases p.buckets[i]? <;> rfl
    simp only [this]
    rfl

theorem modify_spec {p : Pft} (h : WF p) (dst : BitVec 64) (f : List Int → List Int) :
    ∃ p', modify p dst f = .ok p' ∧ WF p' ∧
      get p' = fun x => if x = dst then (get p dst).map (fun e => { e with fds := f e.fds }) else get p x := by
  unfold modify
  dsimp only
  rw [rd_ok (calcKey_lt h dst)]
  simp only [Outcome.bind_ok, Outcome.pure_eq]
  rw [wr_ok (calcKey_lt h dst)]
  simp only [Outcome.bind_ok]
  have hfind : ∀ (b : List Entry) (x : BitVec 64),
      (b.map (fun e => if e.dst = dst then { e with fds := f e.fds } else e)).find? (fun e => e.dst == x) =
      (b.find? (fun e => e.dst == x)).map (fun e => if e.dst = dst then { e with fds := f e.fds } else e) := by
    intro b x
    rw [List.find?_map]
    congr 1
    congr 1
    funext e
    simp only [Function.comp_apply]
    split <;> rfl
  refine ⟨_, rfl, wf_set h _ _ ?_, ?_⟩
  · rw [List.map_map]
    have : ((fun e => e.dst) ∘ fun e : Entry => if e.dst = dst then { e with fds := f e.fds } else e) = fun e => e.dst := by
      funext e
      simp only [Function.comp_apply]
      split <;> rfl
    rw [this]
    exact h.nodup _ (List.getElem_mem _)
  · funext x
    rw [get_set h]
    by_cases hk : calcKey p x = calcKey p dst
    · rw [if_pos hk, hfind]
      have e1 : (p.buckets[(calcKey p dst).toNat]'(calcKey_lt h dst)).find? (fun e => e.dst == x) = get p x := by
        unfold get
        rw [hk, List.getD_eq_getElem _ _ (calcKey_lt h dst)]
      rw [e1]
      by_cases hx : x = dst
      · subst hx
        rw [if_pos rfl]
        cases hg : get p x with
        | none => rfl
        | some e => simp [get_some_dst hg]
      · rw [if_neg hx]
        cases hg : get p x with
        | none => rfl
        | some e => simp [get_some_dst hg, hx]
    · rw [if_neg hk, if_neg]
      rintro rfl; exact hk rfl

theorem nat_testBit_smear (x : BitVec 64) (w w2 : Nat) (hw : w2 = w + w) (A : BitVec 64)
    (hA : ∀ i, A.toNat.testBit i = true ↔ ∃ j, i ≤ j ∧ j < i + w ∧ x.toNat.testBit j = true) (i : Nat) :
    (A ||| (A >>> w)).toNat.testBit i = true ↔ ∃ j, i ≤ j ∧ j < i + w2 ∧ x.toNat.testBit j = true := by
  subst hw
  rw [BitVec.toNat_or, Nat.testBit_or, Bool.or_eq_true, BitVec.toNat_ushiftRight, Nat.testBit_shiftRight, hA, hA]
  constructor
  · rintro (⟨j, h1, h2, h3⟩ | ⟨j, h1, h2, h3⟩)
    · exact ⟨j, h1, by omega, h3⟩
    · exact ⟨j, by omega, by omega, h3⟩
  · rintro ⟨j, h1, h2, h3⟩
    by_cases h : j < i + w
    · exact Or.inl ⟨j, h1, h, h3⟩
    · exact Or.inr ⟨j, by omega, by omega, h3⟩

theorem roundUp_spec (b : BitVec 64) (h0 : b ≠ 0) (h1 : b.toNat ≤ 2 ^ 63) :
    ∃ m, (roundUp b).toNat = 2 ^ m ∧ b.toNat ≤ 2 ^ m ∧ ∀ k, b.toNat ≤ 2 ^ k → m ≤ k := by
  have hpos : 0 < b.toNat := by
    rcases Nat.eq_zero_or_pos b.toNat with h | h
    · exact absurd (BitVec.eq_of_toNat_eq (by simpa using h)) h0
    · exact h
  have hx : (b - 1).toNat = b.toNat - 1 := by
    have : (1 : BitVec 64) ≤ b := by rw [BitVec.le_def]; exact hpos
    rw [BitVec.toNat_sub_of_le this]; rfl
  have ⟨x, y, hxd, hyd, s6⟩ : ∃ x y : BitVec 64, b - 1 = x ∧ roundUp b = y + 1 ∧
      ∀ i, y.toNat.testBit i = true ↔ ∃ j, i ≤ j ∧ j < i + 64 ∧ x.toNat.testBit j = true := by
    have s0 : ∀ i, (b - 1).toNat.testBit i = true ↔ ∃ j, i ≤ j ∧ j < i + 1 ∧ (b - 1).toNat.testBit j = true := by
      intro i
      constructor
      · intro h; exact ⟨i, by omega, by omega, h⟩
      · rintro ⟨j, a, c, d⟩
        have : j = i := by omega
        rw [← this]; exact d
    have s1 := nat_testBit_smear (b - 1) 1 2 rfl _ s0
    have s2 := nat_testBit_smear (b - 1) 2 4 rfl _ s1
    have s3 := nat_testBit_smear (b - 1) 4 8 rfl _ s2
    have s4 := nat_testBit_smear (b - 1) 8 16 rfl _ s3
    have s5 := nat_testBit_smear (b - 1) 16 32 rfl _ s4
    have s6 := nat_testBit_smear (b - 1) 32 64 rfl _ s5
    exact ⟨b - 1, _, rfl, rfl, s6⟩
  rw [hyd]
  rw [hxd] at hx
  -- number of bits of x
  have ⟨m, hm1, hm2⟩ : ∃ m, x.toNat < 2 ^ m ∧ (∀ k, x.toNat < 2 ^ k → m ≤ k) := by
    by_cases hz : x.toNat = 0
    · exact ⟨0, by rw [hz]; decide, fun _ _ => Nat.zero_le _⟩
    · refine ⟨Nat.log2 x.toNat + 1, Nat.lt_log2_self, ?_⟩
      intro k hk
      have := (Nat.log2_lt hz).mpr hk
      omega
  have hm63 : m ≤ 63 := hm2 63 (by omega)
  have hy : y.toNat = 2 ^ m - 1 := by
    apply Nat.eq_of_testBit_eq
    intro i
    rw [Nat.testBit_two_pow_sub_one]
    rw [Bool.eq_iff_iff, s6, decide_eq_true_iff]
    constructor
    · rintro ⟨j, a, _, d⟩
      have := Nat.ge_two_pow_of_testBit d
      by_contra hc
      have : (2 : Nat) ^ m ≤ 2 ^ j := Nat.pow_le_pow_right (by omega) (by omega)
      omega
    · intro hi
      have hge : x.toNat ≥ 2 ^ i := by
        by_contra hc
        have := hm2 i (by omega)
        omega
      obtain ⟨j, a, d⟩ := Nat.exists_ge_and_testBit_of_ge_two_pow hge
      refine ⟨j, a, ?_, d⟩
      by_contra hc
      have h2 := Nat.ge_two_pow_of_testBit d
      have : (2 : Nat) ^ 64 ≤ 2 ^ j := Nat.pow_le_pow_right (by omega) (by omega)
      have := x.isLt
      omega
  refine ⟨m, ?_, by omega, ?_⟩
  · rw [BitVec.toNat_add, hy]
    have h2 : (2 : Nat) ^ m ≤ 2 ^ 63 := Nat.pow_le_pow_right (by omega) hm63
    have h3 := Nat.two_pow_pos m
    have h4 : (1 : BitVec 64).toNat = 1 := rfl
    rw [h4, Nat.sub_add_cancel h3, Nat.mod_eq_of_lt]
    omega
  · intro k hk
    apply hm2
    omega

theorem create_wf (b : BitVec 64) (hash : Option (BitVec 64 → BitVec 64)) (h0 : b ≠ 0) (h1 : b.toNat ≤ 2 ^ 63) :
    ∃ p, create b hash = some p ∧ WF p ∧ get p = empty := by
  unfold create
  rw [if_neg h0]
  refine ⟨_, rfl, ⟨by simp, ?_, ?_⟩, ?_⟩
  · obtain ⟨m, hm, _⟩ := roundUp_spec b h0 h1
    rw [hm]; exact Nat.two_pow_pos m
  · intro x hx
    have := List.eq_of_mem_replicate hx
    subst this; simp
  · funext dst
    unfold get empty
    have : ∀ i n, (List.replicate n ([] : List Entry)).getD i [] = [] := by
      intro i n
      rw [List.getD_eq_getElem?_getD, List.getElem?_replicate]
      split <;> rfl
    simp only [this]
    rfl

end Ouro.Pft
