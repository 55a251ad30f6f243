import Verif.Proof.Bitmap

/-!
# C01 — identifier allocator

Full property: every history of calls on a pool created with `bmp_create(bits, offset)` is a history of the
specification `Spec.IdPool` (least free id, failure only when all ids are held, release refuses ids outside the range).

It is *false* for the code at exactly one argument: `bmp_release(offset + size)` is accepted (`bitmap.c:161` uses `>`),
see `C01_release_one_past_end_violated` and `C01_release_one_past_end_ub`. `bmp_is_id_used` has no range check at all.
The `_partial` theorem excludes only those calls.
-/

namespace Ouro.Bitmap

open Spec.IdPool (InRange Trace)

/-- Every history without a release of exactly `offset + bits` and with `is_used` queries for ids of the pool only, is a
history of the id-pool specification, starting with nothing held; no undefined behaviour occurs. -/
theorem C01_id_pool_history_partial (bits : Nat) (offset : Int) (ops : List Op)
    (hpos : 0 < bits) (hsz : bits < 2 ^ 63) (hs : ∀ op ∈ ops, Safe offset bits op) :
    ∃ b b' rs, create bits offset = .ok b ∧ run b ops = .ok (b', rs) ∧
      ∃ fin, Trace offset bits (fun _ => False) (ops.map toCall) rs fin := by
  have hc : create bits offset = .ok { offset := offset, size := bits, words := List.replicate (nWords bits) 0#64 } := by
    unfold create; rw [if_neg (by omega)]
  obtain ⟨hi, h1, h2, h3⟩ := create_inv hsz hc
  obtain ⟨b', rs, h4, _, h5⟩ := run_spec _ hi ops (by simpa using hs)
  refine ⟨_, b', rs, hc, h4, held b', ?_⟩
  have hf : held { offset := offset, size := bits, words := List.replicate (nWords bits) 0#64 } = fun _ => False := by
    funext j; exact propext ⟨h3 j, False.elim⟩
  rw [hf] at h5
  exact h5

/-- Non-vacuity: a concrete mixed history over a pool spanning two words satisfies the hypotheses. -/
example : ∀ op ∈ [Op.allocate, .allocate, .release 5, .isUsed 6, .release 200, .allocate], Safe 5 70 op := by
  intro op h
  simp only [List.mem_cons, List.not_mem_nil, or_false] at h
  rcases h with rfl | rfl | rfl | rfl | rfl | rfl <;> simp [Safe, InRange]

/-- ... and runs as expected. -/
example : (do let b ← create 70 5; let (_, rs) ← run b [.allocate, .allocate, .release 5, .isUsed 6, .release 200, .allocate]
              return rs) = Outcome.ok [5, 6, 0, 1, -1, 5] := by decide +kernel

/-- Direct consequence for users: in a history of allocations only, all successful results are different. -/
theorem C01_allocations_distinct (bits : Nat) (offset : Int) (k : Nat) (hpos : 0 < bits) (hsz : bits < 2 ^ 63)
    (b b' : Bmp) (rs : List Int) (hc : create bits offset = .ok b)
    (hr : run b (List.replicate k .allocate) = .ok (b', rs)) :
    (rs.filter (fun r => decide (offset ≤ r))).Nodup ∧ ∀ r ∈ rs, r = offset - 1 ∨ InRange offset bits r := by
  obtain ⟨hi, h1, h2, h3⟩ := create_inv hsz hc
  subst h1 h2
  have key : ∀ (k : Nat) (b b' : Bmp) (rs : List Int), Inv b → run b (List.replicate k .allocate) = .ok (b', rs) →
      (rs.filter (fun r => decide (b.offset ≤ r))).Nodup ∧ (∀ r ∈ rs, r = b.offset - 1 ∨ InRange b.offset b.size r) ∧
      ∀ r ∈ rs, b.offset ≤ r → ¬ held b r := by
    intro k
    induction k with
    | zero =>
      intro b b' rs _ h
      simp [run] at h
      obtain ⟨_, rfl⟩ := h
      simp
    | succ k ih =>
      intro b b' rs hi h
      obtain ⟨b1, r, g1, g2, g3, g4, g5⟩ := allocate_spec b hi
      simp only [List.replicate_succ, run, step, g1, Outcome.bind_ok] at h
      cases hrun : run b1 (List.replicate k .allocate) with
      | ub => rw [hrun] at h; cases h
      | ok p =>
        obtain ⟨b2, rs'⟩ := p
        rw [hrun] at h
        simp only [Outcome.bind_ok, Outcome.pure_eq, Outcome.ok.injEq, Prod.mk.injEq] at h
        obtain ⟨rfl, rfl⟩ := h
        obtain ⟨i1, i2, i3⟩ := ih b1 b2 rs' g2 hrun
        rw [g3, g4] at *
        generalize hcall : (Spec.IdPool.Call.allocate) = c at g5
        cases g5 with
        | alloc _ _ hr free least upd =>
          refine ⟨?_, ?_, ?_⟩
          · rw [List.filter_cons_of_pos (by simpa using hr.1)]
            refine List.nodup_cons.mpr ⟨?_, i1⟩
            intro hm
            rw [List.mem_filter] at hm
            exact i3 r hm.1 (by simpa using hm.2) ((upd r).mpr (Or.inr rfl))
          · intro x hx
            rcases List.mem_cons.mp hx with rfl | hx
            · exact Or.inr hr
            · exact i2 x hx
          · intro x hx hxo
            rcases List.mem_cons.mp hx with rfl | hx
            · exact free
            · intro hh
              exact i3 x hx hxo ((upd x).mpr (Or.inl hh))
        | full _ hfull same =>
          refine ⟨?_, ?_, ?_⟩
          · rw [List.filter_cons_of_neg (by simp; omega)]
            exact i1
          · intro x hx
            rcases List.mem_cons.mp hx with rfl | hx
            · exact Or.inl rfl
            · exact i2 x hx
          · intro x hx hxo
            rcases List.mem_cons.mp hx with rfl | hx
            · omega
            · intro hh
              exact i3 x hx hxo ((same x).mpr hh)
        | release => cases hcall
        | badRelease => cases hcall
        | used => cases hcall
        | unused => cases hcall
  have := key k b b' rs hi hr
  exact ⟨this.1, this.2.1⟩

example : (do let b ← create 3 1; let (_, rs) ← run b (List.replicate 5 .allocate); return rs)
    = Outcome.ok [1, 2, 3, 0, 0] := by decide +kernel

/-- Refutation of the full property: an id outside the pool is accepted by `bmp_release` (returns 0 instead of -1). -/
theorem C01_release_one_past_end_violated :
    ∃ (b b' : Bmp), create 70 5 = .ok b ∧ release b 75 = .ok (b', 0) ∧ ¬ InRange 5 70 75 := by
  refine ⟨_, _, rfl, rfl, ?_⟩
  simp [InRange]

/-- ... and it writes outside of the word array whenever the pool size is a multiple of the word size. -/
theorem C01_release_one_past_end_ub (n : Nat) (offset : Int) (hn : 0 < n) (hsz : 64 * n < 2 ^ 63) (b : Bmp)
    (hc : create (64 * n) offset = .ok b) : release b (offset + (64 * n : Nat)) = .ub := by
  obtain ⟨hi, h1, h2, _⟩ := create_inv hsz hc
  have hlen := hi.len
  unfold release
  have hv : isIdValid b (offset + (64 * n : Nat)) = true := by simp [isIdValid, h1, h2]; omega
  have ht : toSizeT (offset + (64 * n : Nat) - b.offset) = 64 * n := by
    unfold toSizeT; rw [h1]; omega
  have : (64 * n) / 64 = n := by omega
  rw [h2] at hlen
  have hle : b.words.length = n := by rw [hlen]; unfold nWords; omega
  rw [hv, ht]
  simp [clearBit, this, rd, hle]

example : 0 < 2 ∧ 64 * 2 < 2 ^ 63 := by decide

end Ouro.Bitmap
