import Verif.Proof.Tac
import Verif.Model.Rdrbuff
import Verif.Spec.PacketPool

/-!
# Proofs about the packet pool
-/

namespace Ouro.Rdrbuff

open Spec.PacketPool

/-! ## Geometry: a chain of non-wrapping entries from the tail to the head -/

/-- `es` is a chain of entries (first block, number of blocks) from `t` to `h` on a ring of `n` blocks; none wraps. -/
def Geo (n : Nat) : Nat → List (Nat × Nat) → Nat → Prop
  | t, [], h => t = h
  | t, e :: es, h => e.1 = t ∧ 0 < e.2 ∧ t + e.2 ≤ n ∧ Geo n ((t + e.2) % n) es h

def total : List (Nat × Nat) → Nat
  | [] => 0
  | e :: es => e.2 + total es

theorem total_append (a b : List (Nat × Nat)) : total (a ++ b) = total a + total b := by
  induction a with
  | nil => simp [total]
  | cons x xs ih => simp only [List.cons_append, total, ih]; omega

theorem geo_append {n : Nat} : ∀ {es : List (Nat × Nat)} {t h b : Nat}, Geo n t es h → 0 < b → h + b ≤ n →
    Geo n t (es ++ [(h, b)]) ((h + b) % n)
  | [], t, h, b, g, hb, hn => by
    simp only [Geo] at g; subst g
    exact ⟨rfl, hb, hn, rfl⟩
  | e :: es, t, h, b, g, hb, hn => ⟨g.1, g.2.1, g.2.2.1, geo_append g.2.2.2 hb hn⟩

theorem geo_split {n : Nat} : ∀ {es fs : List (Nat × Nat)} {t h : Nat}, Geo n t (es ++ fs) h →
    ∃ m, Geo n t es m ∧ Geo n m fs h
  | [], _, t, _, g => ⟨t, rfl, g⟩
  | _ :: _, _, _, _, g =>
    let ⟨m, a, b⟩ := geo_split g.2.2.2
    ⟨m, ⟨g.1, g.2.1, g.2.2.1, a⟩, b⟩

theorem mod_once {n a : Nat} (h : a < 2 * n) : a % n = if a < n then a else a - n := by
  split
  · next h1 => exact Nat.mod_eq_of_lt h1
  · next h1 =>
    rw [Nat.mod_eq_sub_mod (by omega), Nat.mod_eq_of_lt (by omega)]

/-- Each entry lies at some offset from the tail. -/
theorem geo_offset {n : Nat} (hn : 0 < n) : ∀ {es : List (Nat × Nat)} {t h : Nat}, Geo n t es h → t < n →
    ∀ e ∈ es, ∃ o, e.1 = (t + o) % n ∧ o + e.2 ≤ total es ∧ e.1 + e.2 ≤ n ∧ 0 < e.2
  | [], _, _, _, _, e, he => by cases he
  | x :: xs, t, h, g, ht, e, he => by
    rcases List.mem_cons.mp he with rfl | he
    · refine ⟨0, ?_, ?_, ?_, g.2.1⟩
      · rw [g.1, Nat.add_zero, Nat.mod_eq_of_lt ht]
      · simp only [total]; omega
      · rw [g.1]; exact g.2.2.1
    · obtain ⟨o, h1, h2, h3, h4⟩ := geo_offset hn g.2.2.2 (Nat.mod_lt _ hn) e he
      refine ⟨x.2 + o, ?_, ?_, h3, h4⟩
      · rw [h1, Nat.mod_add_mod, Nat.add_assoc]
      · simp only [total]; omega

def Disj (a b : Nat × Nat) : Prop := a.1 + a.2 ≤ b.1 ∨ b.1 + b.2 ≤ a.1

theorem geo_disj {n : Nat} (hn : 0 < n) : ∀ {es : List (Nat × Nat)} {t h : Nat}, Geo n t es h → t < n → total es < n →
    es.Pairwise Disj
  | [], _, _, _, _, _ => List.Pairwise.nil
  | x :: xs, t, h, g, ht, hs => by
    simp only [total] at hs
    refine List.Pairwise.cons ?_ (geo_disj hn g.2.2.2 (Nat.mod_lt _ hn) (by omega))
    intro e he
    obtain ⟨o, h1, h2, h3, h4⟩ := geo_offset hn g.2.2.2 (Nat.mod_lt _ hn) e he
    have hx1 := g.1
    have hx3 := g.2.2.1
    rw [Nat.mod_add_mod, mod_once (by omega)] at h1
    unfold Disj
    split at h1 <;> omega

theorem geo_head {n : Nat} (hn : 0 < n) : ∀ {es : List (Nat × Nat)} {t h : Nat}, Geo n t es h → t < n →
    h = (t + total es) % n
  | [], t, h, g, ht => by simp only [Geo] at g; simp [total, ← g, Nat.mod_eq_of_lt ht]
  | x :: xs, t, h, g, ht => by
    rw [geo_head hn g.2.2.2 (Nat.mod_lt _ hn), Nat.mod_add_mod]; simp only [total, Nat.add_assoc]

theorem geo_length {n : Nat} : ∀ {es : List (Nat × Nat)} {t h : Nat}, Geo n t es h → es.length ≤ total es
  | [], _, _, _ => Nat.le_refl _
  | x :: xs, _, _, g => by
    have := geo_length g.2.2.2
    have := g.2.1
    simp only [List.length_cons, total]; omega

theorem disj_symm {a b : Nat × Nat} (h : Disj a b) : Disj b a := h.symm

/-- The same entry, or disjoint ones. -/
theorem geo_eq_or {n : Nat} (hn : 0 < n) {es : List (Nat × Nat)} {t h : Nat} (g : Geo n t es h) (ht : t < n)
    (hs : total es < n) {a b : Nat × Nat} (ha : a ∈ es) (hb : b ∈ es) : a = b ∨ Disj a b := by
  have hp := (geo_disj hn g ht hs).imp (S := fun a b => a = b ∨ Disj a b) Or.inr
  exact List.Pairwise.forall_of_forall_of_flip (fun x _ => .inl rfl) hp
    (hp.imp (fun {x y} h => h.elim (fun h => .inl h.symm) (fun h => .inr (disj_symm h)))) ha hb

/-- No entry contains the head block while at least one block is unused. -/
theorem geo_head_out {n : Nat} (hn : 0 < n) {es : List (Nat × Nat)} {t h : Nat} (g : Geo n t es h) (ht : t < n)
    (hs : total es + 1 < n) (hh : h < n) {a : Nat × Nat} (ha : a ∈ es) : h < a.1 ∨ a.1 + a.2 ≤ h := by
  have g2 := geo_append g (b := 1) (by omega) (by omega)
  have hs2 : total (es ++ [(h, 1)]) < n := by rw [total_append]; simp only [total]; omega
  have hd := geo_disj hn g2 ht hs2
  rw [List.pairwise_append] at hd
  rcases hd.2.2 a ha (h, 1) (by simp) with h1 | h1
  · right; exact h1
  · left; dsimp at h1; omega

/-! ## Sizes -/

theorem countBlocks_room {B : Nat} (hB : 0 < B) : ∀ (m : Nat) (sz : Int), sz.toNat ≤ m → sz ≤ countBlocks B m sz * B
  | 0, sz, h => by simp only [countBlocks]; omega
  | m + 1, sz, h => by
    by_cases hp : 0 < sz
    · have h1 := countBlocks_room hB m (sz - B) (by omega)
      rw [countBlocks, if_pos hp]
      push_cast
      rw [Int.add_mul]
      omega
    · rw [countBlocks, if_neg (by omega)]; omega

theorem signedSize_eq {len : Nat} (h : len < 2 ^ 62) : signedSize len = (336 + len : Nat) := by
  unfold signedSize OVERHEAD HEADSPACE TAILSPACE HDR SZ
  dsimp only
  rw [Nat.mod_eq_of_lt (a := 256 + 32 + len) (by omega), Nat.mod_eq_of_lt (by omega), if_pos (by omega)]
  omega

theorem blocksFor_room {B len : Nat} (hB : 0 < B) (h : len < 2 ^ 62) : 336 + len ≤ blocksFor B len * B := by
  unfold blocksFor; rw [signedSize_eq h]
  have := countBlocks_room hB _ ((336 + len : Nat) : Int) (le_refl _)
  exact_mod_cast this

theorem blocksFor_pos {B len : Nat} (hB : 0 < B) (h : len < 2 ^ 62) : 0 < blocksFor B len := by
  have := blocksFor_room hB h
  by_contra h0
  rw [show blocksFor B len = 0 by omega] at this
  omega

theorem blocksFor_one {B len : Nat} (hl : len < 2 ^ 62) (h : 336 + len ≤ B) : blocksFor B len = 1 := by
  unfold blocksFor; rw [signedSize_eq hl]
  rw [show ((336 + len : Nat) : Int).toNat = (334 + len) + 1 + 1 by omega]
  rw [countBlocks, if_pos (by omega), countBlocks, if_neg (by omega)]

/-! ## The invariant -/

/-- The pool `p` with entry chain `es` and packets in use `live`. -/
structure Inv (B : Nat) (p : Pool) (es : List (Nat × Nat)) (live : List Buf) : Prop where
  pow : ∃ k, p.n = 2 ^ k
  tail_lt : p.tail < p.n
  head_lt : p.head < p.n
  geo : Geo p.n p.tail es p.head
  room : total es + 2 ≤ p.n ∨ es = []
  hdr : ∀ e ∈ es, (p.mem e.1).blocks = e.2
  live_in : ∀ b ∈ live, ∃ bl, (b.idx, bl) ∈ es ∧ 336 + b.len ≤ bl * B ∧ b.len < 2 ^ 62 ∧ 0 < b.refs ∧
    (p.mem b.idx).refs = b.refs ∧ (p.mem b.idx).idx = b.idx ∧ (p.mem b.idx).size = 288 + b.len
  nodup : live.Pairwise fun a b => a.idx ≠ b.idx
  single : ∀ w ∈ p.waiters, w.blocks = 1 ∧ w.pad = 0 ∧ w.len < 2 ^ 62 ∧ 336 + w.len ≤ B

variable {B : Nat} {p : Pool} {es : List (Nat × Nat)} {live : List Buf}

theorem Inv.npos (i : Inv B p es live) : 0 < p.n := by
  have := i.tail_lt; omega

theorem Inv.total_lt (i : Inv B p es live) : total es < p.n := by
  rcases i.room with h | h
  · omega
  · rw [h]; exact i.npos

theorem mask_eq {n : Nat} (h : ∃ k, n = 2 ^ k) (x : Nat) : x &&& (n - 1) = x % n := by
  obtain ⟨k, rfl⟩ := h; exact Nat.and_two_pow_sub_one_eq_mod x k

theorem Inv.used_eq (i : Inv B p es live) : used p = (total es + 1) % p.n := by
  have hh := geo_head i.npos i.geo i.tail_lt
  have ht := i.tail_lt
  have hs := i.total_lt
  unfold used
  rw [mask_eq i.pow]
  rw [mod_once (by omega)] at hh
  split at hh
  · rw [hh, show p.tail + total es + p.n - p.tail + 1 = total es + 1 + p.n by omega, Nat.add_mod_right]
  · rw [hh, show p.tail + total es - p.n + p.n - p.tail + 1 = total es + 1 by omega]

theorem Inv.free_room (i : Inv B p es live) {x : Nat} (hx : 0 < x) (hf : free p x = true) : total es + x + 2 ≤ p.n := by
  unfold free at hf
  rw [decide_eq_true_eq, i.used_eq] at hf
  rcases i.room with h | h
  · rw [Nat.mod_eq_of_lt (by omega)] at hf; omega
  · subst h
    simp only [total] at *
    by_cases h1 : p.n = 1
    · rw [h1] at hf; omega
    · rw [Nat.mod_eq_of_lt (by have := i.npos; omega)] at hf; omega

theorem setMem_same (m : Nat → Sdb) (i : Nat) (v : Sdb) : setMem m i v i = v := by simp [setMem]
theorem setMem_ne (m : Nat → Sdb) {i j : Nat} (v : Sdb) (h : j ≠ i) : setMem m i v j = m j := by simp [setMem, h]

/-- Changing the header words of a block that is not the first block of an entry. -/
theorem Inv.setMem_out (i : Inv B p es live) {x : Nat} (v : Sdb) (hx : ∀ e ∈ es, e.1 ≠ x) :
    Inv B { p with mem := setMem p.mem x v } es live where
  pow := i.pow
  tail_lt := i.tail_lt
  head_lt := i.head_lt
  geo := i.geo
  room := i.room
  hdr := by intro e he; dsimp; rw [setMem_ne _ _ (hx e he)]; exact i.hdr e he
  live_in := by
    intro b hb
    obtain ⟨bl, h1, h2⟩ := i.live_in b hb
    refine ⟨bl, h1, ?_⟩
    dsimp; rw [setMem_ne _ _ (hx _ h1)]; exact h2
  nodup := i.nodup
  single := i.single

theorem Inv.head_out (i : Inv B p es live) : ∀ e ∈ es, e.1 ≠ p.head := by
  intro e he
  rcases i.room with h | h
  · have := geo_head_out i.npos i.geo i.tail_lt (by omega) i.head_lt he
    have := (geo_offset i.npos i.geo i.tail_lt e he).choose_spec.2.2.2
    omega
  · rw [h] at he; cases he

theorem Inv.waiters (i : Inv B p es live) {ws : List Waiter}
    (h : ∀ w ∈ ws, w.blocks = 1 ∧ w.pad = 0 ∧ w.len < 2 ^ 62 ∧ 336 + w.len ≤ B) :
    Inv B { p with waiters := ws } es live :=
  ⟨i.pow, i.tail_lt, i.head_lt, i.geo, i.room, i.hdr, i.live_in, i.nodup, h⟩

/-- Adding an entry `(head, b)` whose header has just been written. -/
theorem Inv.push (i : Inv B p es live) {b : Nat} (hb : 0 < b) (hfit : p.head + b ≤ p.n) (hroom : total es + b + 2 ≤ p.n)
    (v : Sdb) (hv : v.blocks = b) :
    Inv B { p with mem := setMem p.mem p.head v, head := (p.head + b) % p.n } (es ++ [(p.head, b)]) live where
  pow := i.pow
  tail_lt := i.tail_lt
  head_lt := Nat.mod_lt _ i.npos
  geo := geo_append i.geo hb hfit
  room := by left; rw [total_append]; simp only [total]; omega
  hdr := by
    intro e he
    rcases List.mem_append.mp he with he | he
    · dsimp; rw [setMem_ne _ _ (i.head_out e he)]; exact i.hdr e he
    · rw [List.mem_singleton] at he; subst he; dsimp; rw [setMem_same]; exact hv
  live_in := by
    intro x hx
    obtain ⟨bl, h1, h2⟩ := i.live_in x hx
    refine ⟨bl, List.mem_append_left _ h1, ?_⟩
    dsimp; rw [setMem_ne _ _ (i.head_out _ h1)]; exact h2
  nodup := i.nodup
  single := i.single

theorem Inv.putPad (i : Inv B p es live) {pad : Nat} (h : pad = 0 ∨ (pad = p.n - p.head ∧ total es + pad + 2 ≤ p.n)) :
    ∃ es', Inv B (putPad p pad) es' live ∧ total es' = total es + pad ∧ (Rdrbuff.putPad p pad).n = p.n ∧
      (Rdrbuff.putPad p pad).waiters = p.waiters ∧
      (pad ≠ 0 → (Rdrbuff.putPad p pad).head = 0) ∧ (pad = 0 → Rdrbuff.putPad p pad = p ∧ es' = es) := by
  unfold Rdrbuff.putPad
  by_cases h0 : pad = 0
  · rw [if_pos h0]; exact ⟨es, i, by omega, rfl, rfl, fun h => absurd h0 h, fun _ => ⟨rfl, rfl⟩⟩
  · rw [if_neg h0]
    obtain ⟨h1, h2⟩ := h.resolve_left h0
    have hh := i.head_lt
    have := i.push (b := pad) (by omega) (by omega) h2
      { size := 0, blocks := pad, duHead := 0, duTail := 0, refs := 0, idx := p.head } rfl
    rw [show (p.head + pad) % p.n = 0 by rw [show p.head + pad = p.n by omega, Nat.mod_self]] at this
    exact ⟨_, this, by rw [total_append]; simp only [total]; omega, rfl, rfl, fun _ => rfl, fun h => absurd h h0⟩

/-- The header a fresh packet has. -/
def fresh (i blocks len : Nat) : Sdb :=
  { size := 288 + len, blocks := blocks, duHead := 256, duTail := 256 + len, refs := 1, idx := i }

theorem setMem_setMem (m : Nat → Sdb) (i : Nat) (a b : Sdb) : setMem (setMem m i a) i b = setMem m i b := by
  funext j; unfold setMem; split <;> rfl

theorem finish_eq (q : Pool) (hp : ∃ k, q.n = 2 ^ k) (blocks len : Nat) (hl : len < 2 ^ 62) :
    initSdb (moveHead (claim q blocks) blocks) q.head len =
      { q with mem := setMem q.mem q.head (fresh q.head blocks len), head := (q.head + blocks) % q.n } := by
  unfold initSdb moveHead claim
  dsimp only
  rw [setMem_setMem, setMem_same, mask_eq hp]
  unfold fresh OVERHEAD HEADSPACE TAILSPACE SZ
  rw [Nat.mod_eq_of_lt (a := 256 + 32 + len) (by omega), Nat.mod_eq_of_lt (a := 256 + len) (by omega)]

/-- A successful allocation: a new entry, a new packet, all others as before. -/
theorem Inv.commit (hB : 0 < B) (i : Inv B p es live) {len pad : Nat} (hl : len < 2 ^ 62)
    (hpad : pad = padFor p (blocksFor B len)) (hf : free p (blocksFor B len + pad) = true) :
    ∃ es', Inv B (commit p (blocksFor B len) pad len).1 es'
        (after live (.got (commit p (blocksFor B len) pad len).2 len)) ∧
      (commit p (blocksFor B len) pad len).1.mem (commit p (blocksFor B len) pad len).2 =
        fresh (commit p (blocksFor B len) pad len).2 (blocksFor B len) len ∧
      (pad = 0 → es' = es ++ [(p.head, blocksFor B len)] ∧
        (Rdrbuff.commit p (blocksFor B len) pad len).1.mem = setMem p.mem p.head (fresh p.head (blocksFor B len) len) ∧
        (Rdrbuff.commit p (blocksFor B len) pad len).2 = p.head) ∧
      (Rdrbuff.commit p (blocksFor B len) pad len).1.n = p.n := by
  have hbp := blocksFor_pos hB hl
  have hbr := blocksFor_room hB hl
  generalize hbl : blocksFor B len = bl at *
  have hroom := i.free_room (x := bl + pad) (by omega) hf
  have hh := i.head_lt
  have hp1 : pad = 0 ∨ (pad = p.n - p.head ∧ total es + pad + 2 ≤ p.n) := by
    unfold padFor at hpad
    split at hpad
    · right; exact ⟨hpad, by omega⟩
    · left; exact hpad
  obtain ⟨es1, i1, htot, hn, hw, hhd, hpz⟩ := i.putPad hp1
  unfold Rdrbuff.commit
  dsimp only
  generalize hq : Rdrbuff.putPad p pad = q at *
  rw [finish_eq q i1.pow bl len hl]
  have hfit : q.head + bl ≤ q.n := by
    by_cases h0 : pad = 0
    · rw [(hpz h0).1]; unfold padFor at hpad; split at hpad <;> omega
    · rw [hhd h0, hn]; omega
  have i2 := i1.push (b := bl) (by omega) hfit (by rw [hn]; omega) (fresh q.head bl len) rfl
  have hnew : ∀ b ∈ live, b.idx ≠ q.head := by
    intro b hb
    obtain ⟨x, h1, _⟩ := i1.live_in b hb
    exact i1.head_out _ h1
  refine ⟨es1 ++ [(q.head, bl)], ⟨i2.pow, i2.tail_lt, i2.head_lt, i2.geo, i2.room, i2.hdr, ?_, ?_, i2.single⟩, ?_, ?_, hn⟩
  · intro b hb
    simp only [after, List.mem_cons] at hb
    rcases hb with rfl | hb
    · refine ⟨bl, by simp, by dsimp; exact hbr, hl, by simp, ?_⟩
      dsimp; rw [setMem_same]; simp [fresh]
    · exact i2.live_in b hb
  · simp only [after, List.pairwise_cons]
    exact ⟨fun b hb => (hnew b hb).symm, i.nodup⟩
  · dsimp; rw [setMem_same]
  · intro h0
    obtain ⟨h1, h2⟩ := hpz h0
    rw [h2, h1]; exact ⟨rfl, rfl, rfl⟩

/-! ## Garbage collection -/

theorem gc_spec {n : Nat} (hp : ∃ k, n = 2 ^ k) (mem : Nat → Sdb) (h : Nat) : ∀ (es : List (Nat × Nat)) (fuel t : Nat),
    Geo n t es h → t < n → total es < n → (∀ e ∈ es, (mem e.1).blocks = e.2) → es.length < fuel →
    ∃ t' pre post, gc n mem h fuel t = .ok t' ∧ es = pre ++ post ∧ Geo n t' post h ∧ t' < n ∧
      (∀ e ∈ pre, (mem e.1).refs = 0) ∧ (∀ e rest, post = e :: rest → (mem e.1).refs ≠ 0)
  | [], fuel, t, g, ht, _, _, hf => by
    obtain ⟨f, rfl⟩ : ∃ f, fuel = f + 1 := ⟨fuel - 1, by simp at hf; omega⟩
    simp only [Geo] at g
    subst g
    exact ⟨t, [], [], by simp [gc], rfl, rfl, ht, by simp, by simp⟩
  | x :: xs, fuel, t, g, ht, hs, hm, hf => by
    obtain ⟨f, rfl⟩ : ∃ f, fuel = f + 1 := ⟨fuel - 1, by simp at hf; omega⟩
    have hn : 0 < n := by omega
    have hne : t ≠ h := by
      have e := geo_head hn g ht
      have h1 := g.2.1
      simp only [total] at *
      rw [mod_once (by omega)] at e
      split at e <;> omega
    unfold gc
    rw [if_neg hne]
    by_cases hr : (mem t).refs = 0
    · rw [if_pos hr]
      have hb := hm x (by simp)
      rw [g.1] at hb
      rw [hb, mask_eq hp]
      obtain ⟨t', pre, post, h1, h2, h3, h4, h5, h6⟩ := gc_spec hp mem h xs f _ g.2.2.2 (Nat.mod_lt _ hn)
        (by simp only [total] at hs; omega) (fun e he => hm e (List.mem_cons_of_mem _ he)) (by simpa using hf)
      refine ⟨t', x :: pre, post, h1, by rw [h2]; rfl, h3, h4, ?_, h6⟩
      intro e he
      rcases List.mem_cons.mp he with rfl | he
      · rw [g.1]; exact hr
      · exact h5 e he
    · rw [if_neg hr]
      refine ⟨t, [], x :: xs, rfl, rfl, g, ht, by simp, ?_⟩
      intro e rest he
      cases he
      rw [g.1]; exact hr

theorem total_post (pre post : List (Nat × Nat)) : total post ≤ total (pre ++ post) := by
  rw [total_append]; omega

theorem Inv.collect (i : Inv B p es live) : ∃ q es', collect p = .ok q ∧ Inv B q es' live ∧ q.n = p.n ∧ q.mem = p.mem ∧
    q.head = p.head ∧ (∃ pre, es = pre ++ es') ∧ (∀ e rest, es' = e :: rest → (p.mem e.1).refs ≠ 0) := by
  obtain ⟨t, pre, post, h1, h2, h3, h4, h5, h6⟩ := gc_spec i.pow p.mem p.head es (p.n + 1) p.tail i.geo i.tail_lt i.total_lt
    i.hdr (by have := geo_length i.geo; have := i.total_lt; omega)
  unfold Rdrbuff.collect
  rw [h1]
  refine ⟨_, post, rfl, ⟨i.pow, h4, i.head_lt, h3, ?_, ?_, ?_, i.nodup, i.single⟩, rfl, rfl, rfl, ⟨pre, h2⟩, h6⟩
  · rcases i.room with h | h
    · left; have := total_post pre post; rw [← h2] at this; dsimp; omega
    · right; rw [h] at h2; exact (List.append_eq_nil_iff.mp h2.symm).2
  · intro e he; exact i.hdr e (by rw [h2]; exact List.mem_append_right _ he)
  · intro b hb
    obtain ⟨bl, a1, a2, a3, a4, a5, a6⟩ := i.live_in b hb
    refine ⟨bl, ?_, a2, a3, a4, a5, a6⟩
    rw [h2] at a1
    rcases List.mem_append.mp a1 with a1 | a1
    · have := h5 _ a1; dsimp at this; omega
    · exact a1

theorem Inv.sanitize (i : Inv B p es live) : ∃ q es', sanitize p = .ok q ∧ Inv B q es' live ∧ q.n = p.n := by
  unfold Rdrbuff.sanitize
  have i1 := i.setMem_out (x := p.head) { p.mem p.head with refs := ((p.mem p.head).refs + (SZ - 1)) % SZ } i.head_out
  obtain ⟨q, es', h1, h2, h3, _⟩ := i1.collect
  exact ⟨q, es', h1, h2, h3⟩

/-! ## Header changes on live packets -/

theorem Inv.entry_unique (i : Inv B p es live) {a b : Nat × Nat} (ha : a ∈ es) (hb : b ∈ es) (h : a.1 = b.1) : a = b := by
  rcases geo_eq_or i.npos i.geo i.tail_lt i.total_lt ha hb with h1 | h1
  · exact h1
  · have := (geo_offset i.npos i.geo i.tail_lt a ha).choose_spec.2.2.2
    have := (geo_offset i.npos i.geo i.tail_lt b hb).choose_spec.2.2.2
    unfold Disj at h1; omega

/-- Changing the header of entry `x` without its `blocks`; packets not at `x` are as before. -/
theorem Inv.setMem_keep (i : Inv B p es live) {x : Nat} (v : Sdb) (hv : v.blocks = (p.mem x).blocks) (live' : List Buf)
    (hl : ∀ b ∈ live', b.idx ≠ x → b ∈ live)
    (hx : ∀ b ∈ live', b.idx = x → ∃ c ∈ live, c.idx = x ∧ c.len = b.len ∧ 0 < b.refs ∧ v.refs = b.refs ∧ v.idx = x ∧
      v.size = 288 + b.len)
    (hn : live'.Pairwise fun a b => a.idx ≠ b.idx) :
    Inv B { p with mem := setMem p.mem x v } es live' where
  pow := i.pow
  tail_lt := i.tail_lt
  head_lt := i.head_lt
  geo := i.geo
  room := i.room
  hdr := by
    intro e he
    by_cases h : e.1 = x
    · dsimp; rw [h, setMem_same, hv, ← h]; exact i.hdr e he
    · dsimp; rw [setMem_ne _ _ h]; exact i.hdr e he
  live_in := by
    intro b hb
    by_cases h : b.idx = x
    · obtain ⟨c, hc, c1, c2, c3, c4, c5, c6⟩ := hx b hb h
      obtain ⟨bl, a1, a2, a3, a4, a5⟩ := i.live_in c hc
      refine ⟨bl, by rw [h, ← c1]; exact a1, by rw [← c2]; exact a2, by rw [← c2]; exact a3, c3, ?_⟩
      dsimp; rw [h, setMem_same]; exact ⟨c4, c5, c6⟩
    · obtain ⟨bl, a1, a2⟩ := i.live_in b (hl b hb h)
      refine ⟨bl, a1, ?_⟩
      dsimp; rw [setMem_ne _ _ h]; exact a2
  nodup := hn
  single := i.single

theorem live_unique (h : live.Pairwise fun a b => a.idx ≠ b.idx) {a b : Buf} (ha : a ∈ live) (hb : b ∈ live)
    (he : a.idx = b.idx) : a = b := by
  by_contra hne
  induction h with
  | nil => cases ha
  | cons h1 _ ih =>
    rcases List.mem_cons.mp ha with ea | ha
    · rcases List.mem_cons.mp hb with eb | hb
      · exact hne (ea.trans eb.symm)
      · exact h1 b hb (by rw [← ea]; exact he)
    · rcases List.mem_cons.mp hb with eb | hb
      · exact h1 a ha (by rw [← eb]; exact he.symm)
      · exact ih ha hb

theorem pairwise_map_idx (f : Buf → Buf) (hf : ∀ b, (f b).idx = b.idx) (h : live.Pairwise fun a b => a.idx ≠ b.idx) :
    (live.map f).Pairwise fun a b => a.idx ≠ b.idx := by
  rw [List.pairwise_map]; simpa [hf] using h

/-! ## One step -/

/-- What a caller may do, given the packets in use. -/
def Valid (B : Nat) (live : List Buf) : Op → Prop
  | .alloc len => len < 2 ^ 62
  | .allocB len => len < 2 ^ 62 ∧ 48 + 256 + len + 32 ≤ B
  | .wake _ => True
  | .expire _ => True
  | .remove i => ∃ b ∈ live, b.idx = i
  | .hold i => ∃ b ∈ live, b.idx = i
  | .unhold i => ∃ b ∈ live, b.idx = i ∧ 2 ≤ b.refs
  | .move i _ _ => ∃ b ∈ live, b.idx = i
  | .scribble i j _ => ∃ b ∈ live, b.idx = i ∧ 0 < j ∧ (i + j) * B < b.stop B
  | .crashAlloc len _ => len < 2 ^ 62
  | .crashRemove i _ => ∃ b ∈ live, b.idx = i

/-- What a step does to the packets in use. A packet whose release was cut short by the caller's death may or may not have
been released; the header tells. -/
def event (p : Pool) : Op → Ret → Event
  | .alloc len, .ret v => if 0 ≤ v then .got v.toNat len else .none
  | .allocB len, .ret v => if 0 ≤ v then .got v.toNat len else .none
  | .wake w, .ret v =>
    match p.waiters[w]? with
    | some x => if 0 ≤ v then .got v.toNat x.len else .none
    | none => .none
  | .remove i, _ => .released i
  | .hold i, _ => .held i
  | .unhold i, _ => .unheld i
  | .crashRemove i true, _ => .released i
  | _, _ => .none

theorem Inv.remove_mark (i : Inv B p es live) {x : Nat} (hv : ∃ b ∈ live, b.idx = x) (hr : (p.mem x).refs = 1) :
    Inv B { p with mem := setMem p.mem x { p.mem x with refs := 0 } } es (after live (.released x)) := by
  refine i.setMem_keep (v := { p.mem x with refs := 0 }) rfl _ ?_ ?_ ?_
  · intro b hb _
    simp only [after, List.mem_filter] at hb; exact hb.1
  · intro b hb hbx
    simp only [after, List.mem_filter, Bool.not_eq_true', Bool.and_eq_false_iff, beq_eq_false_iff_ne] at hb
    obtain ⟨hb, h⟩ := hb
    obtain ⟨bl, a1, a2, a3, a4, a5, a6⟩ := i.live_in b hb
    rw [hbx] at a5
    rcases h with h | h
    · exact absurd hbx h
    · exact absurd (by omega) h
  · exact i.nodup.filter _

theorem Inv.remove_noop (i : Inv B p es live) {x : Nat} (hr : (p.mem x).refs ≠ 1) : after live (.released x) = live := by
  simp only [after]
  rw [List.filter_eq_self]
  intro b hb
  obtain ⟨bl, a1, a2, a3, a4, a5, a6⟩ := i.live_in b hb
  simp only [Bool.not_eq_true', Bool.and_eq_false_iff, beq_eq_false_iff_ne]
  by_cases h : b.idx = x
  · right; rw [← a5, h]; exact hr
  · left; exact h

theorem Inv.idx_lt (i : Inv B p es live) {b : Buf} (hb : b ∈ live) : b.idx < p.n := by
  obtain ⟨bl, a1, _⟩ := i.live_in b hb
  have := (geo_offset i.npos i.geo i.tail_lt _ a1).choose_spec.2.2
  dsimp at this; omega

theorem Inv.step (hB : 0 < B) (i : Inv B p es live) (o : Op) (hv : Valid B live o) :
    ∃ q r es', step B p o = .ok (q, r) ∧ Inv B q es' (after live (event p o r)) ∧ q.n = p.n := by
  cases o with
  | alloc len =>
    simp only [Rdrbuff.step, alloc]
    split
    · next hf =>
      obtain ⟨es', h1, _, _, h2⟩ := i.commit hB hv rfl hf
      refine ⟨_, _, es', rfl, ?_, h2⟩
      simp only [event]
      rw [if_pos (by omega), Int.toNat_natCast]
      exact h1
    · exact ⟨_, _, es, rfl, by simpa [event, EAGAIN, after] using i, rfl⟩
  | allocB len =>
    simp only [Rdrbuff.step, allocB]
    split
    · next hf =>
      obtain ⟨es', h1, _, _, h2⟩ := i.commit hB hv.1 rfl hf
      refine ⟨_, _, es', rfl, ?_, h2⟩
      simp only [event]
      rw [if_pos (by omega), Int.toNat_natCast]
      exact h1
    · refine ⟨_, _, es, rfl, ?_, rfl⟩
      simp only [event, after]
      refine i.waiters ?_
      intro w hw
      rcases List.mem_append.mp hw with hw | hw
      · exact i.single w hw
      · rw [List.mem_singleton] at hw
        subst hw
        have h1 : blocksFor B len = 1 := blocksFor_one hv.1 (by have := hv.2; omega)
        have h2 := i.head_lt
        refine ⟨h1, ?_, hv.1, by have := hv.2; dsimp; omega⟩
        dsimp; unfold padFor; rw [h1, if_neg (by omega)]
  | wake w =>
    simp only [Rdrbuff.step, wake]
    cases hw : p.waiters[w]? with
    | none => exact ⟨_, _, es, rfl, by simp only [event, hw, after]; exact i, rfl⟩
    | some x =>
      dsimp only
      obtain ⟨s1, s2, s3, s4⟩ := i.single x (List.mem_of_getElem? hw)
      have hh := i.head_lt
      have hb1 := blocksFor_one s3 s4
      have hpad : padAgain p x.blocks x.pad = padFor p (blocksFor B x.len) := by
        unfold padAgain padFor; rw [s1, hb1, s2]
      have hpz : padAgain p x.blocks x.pad = 0 := by
        unfold padAgain; rw [s1, if_neg (by omega), s2]
      generalize padAgain p x.blocks x.pad = pd at *
      split
      · next hf =>
        have i1 := i.waiters (ws := p.waiters.eraseIdx w) (fun y hy => i.single y (List.mem_of_mem_eraseIdx hy))
        have hf1 : free { p with waiters := p.waiters.eraseIdx w } (blocksFor B x.len + pd) = true := by
          rw [hb1, ← s1]; exact hf
        obtain ⟨es', h1, _, _, h2⟩ := i1.commit hB s3 hpad hf1
        refine ⟨_, _, es', rfl, ?_, ?_⟩
        · simp only [event, hw]
          rw [if_pos (by omega), Int.toNat_natCast, s1, ← hb1]
          exact h1
        · rw [s1, ← hb1]; exact h2
      · refine ⟨_, _, es, rfl, ?_, rfl⟩
        simp only [event, after]
        refine i.waiters ?_
        intro y hy
        rcases List.mem_or_eq_of_mem_set hy with hy | hy
        · exact i.single y hy
        · rw [hy]; exact ⟨s1, hpz, s3, s4⟩
  | expire w =>
    refine ⟨_, _, es, rfl, ?_, rfl⟩
    simp only [event, after]
    exact i.waiters (fun y hy => i.single y (List.mem_of_mem_eraseIdx hy))
  | remove x =>
    obtain ⟨b, hb, rfl⟩ := hv
    have hlt := i.idx_lt hb
    simp only [Rdrbuff.step, remove]
    rw [if_neg (by omega)]
    by_cases hr : (p.mem b.idx).refs = 1
    · rw [if_pos hr]
      have i1 := i.remove_mark ⟨b, hb, rfl⟩ hr
      split
      · obtain ⟨q, es', h1, h2, h3, _⟩ := i1.collect
        rw [h1]
        exact ⟨q, _, es', rfl, h2, h3⟩
      · exact ⟨_, _, es, rfl, i1, rfl⟩
    · rw [if_neg hr]
      refine ⟨_, _, es, rfl, ?_, rfl⟩
      simp only [event]
      rw [i.remove_noop hr]; exact i
  | hold x =>
    obtain ⟨b, hb, rfl⟩ := hv
    refine ⟨_, _, es, rfl, ?_, rfl⟩
    simp only [event, after]
    refine i.setMem_keep (v := { p.mem b.idx with refs := (p.mem b.idx).refs + 1 }) rfl _ ?_ ?_ ?_
    · intro c hc hne
      obtain ⟨d, hd, rfl⟩ := List.mem_map.mp hc
      split at hne
      · exact absurd ‹_› hne
      · rw [if_neg ‹_›]; exact hd
    · intro c hc he
      obtain ⟨d, hd, rfl⟩ := List.mem_map.mp hc
      split at he
      · obtain ⟨bl, a1, a2, a3, a4, a5, a6, a7⟩ := i.live_in d hd
        rw [if_pos ‹_›]
        refine ⟨d, hd, he, rfl, by dsimp; omega, ?_, ?_, ?_⟩
        · show _ = _; rw [← show d.idx = b.idx from he, a5]
        · show (p.mem b.idx).idx = _; rw [← show d.idx = b.idx from he, a6]
        · show (p.mem b.idx).size = _; rw [← show d.idx = b.idx from he, a7]
      · exact absurd he ‹_›
    · exact pairwise_map_idx _ (by intro b; split <;> rfl) i.nodup
  | unhold x =>
    obtain ⟨b, hb, rfl, h2⟩ := hv
    refine ⟨_, _, es, rfl, ?_, rfl⟩
    simp only [event, after]
    refine i.setMem_keep (v := { p.mem b.idx with refs := (p.mem b.idx).refs - 1 }) rfl _ ?_ ?_ ?_
    · intro c hc hne
      obtain ⟨d, hd, rfl⟩ := List.mem_map.mp hc
      split at hne
      · exact absurd ‹_› hne
      · rw [if_neg ‹_›]; exact hd
    · intro c hc he
      obtain ⟨d, hd, rfl⟩ := List.mem_map.mp hc
      split at he
      · obtain ⟨bl, a1, a2, a3, a4, a5, a6, a7⟩ := i.live_in d hd
        have hdb : d = b := live_unique i.nodup hd hb he
        rw [if_pos ‹_›]
        refine ⟨d, hd, he, rfl, by dsimp; rw [hdb]; omega, ?_, ?_, ?_⟩
        · show _ = _; rw [← show d.idx = b.idx from he, a5]
        · show (p.mem b.idx).idx = _; rw [← show d.idx = b.idx from he, a6]
        · show (p.mem b.idx).size = _; rw [← show d.idx = b.idx from he, a7]
      · exact absurd he ‹_›
    · exact pairwise_map_idx _ (by intro b; split <;> rfl) i.nodup
  | move x h t =>
    obtain ⟨b, hb, rfl⟩ := hv
    refine ⟨_, _, es, rfl, ?_, rfl⟩
    simp only [event, after]
    refine i.setMem_keep (v := { p.mem b.idx with duHead := h, duTail := t }) rfl _ (fun c hc _ => hc) ?_ i.nodup
    intro c hc he
    obtain ⟨bl, a1, a2, a3, a4, a5, a6, a7⟩ := i.live_in c hc
    rw [he] at a5 a6 a7
    exact ⟨c, hc, he, rfl, a4, a5, a6, a7⟩
  | scribble x j v =>
    obtain ⟨b, hb, rfl, hj, hin⟩ := hv
    refine ⟨_, _, es, rfl, ?_, rfl⟩
    simp only [event, after]
    refine i.setMem_out v ?_
    intro e he heq
    obtain ⟨bl, a1, a2, _⟩ := i.live_in b hb
    have hjb : j < bl := by
      unfold Buf.stop at hin
      have : (b.idx + j) * B < (b.idx + bl) * B := by rw [Nat.add_mul b.idx bl]; omega
      have := Nat.lt_of_mul_lt_mul_right this
      omega
    rcases geo_eq_or i.npos i.geo i.tail_lt i.total_lt he a1 with h1 | h1
    · rw [h1] at heq; dsimp at heq; omega
    · have := (geo_offset i.npos i.geo i.tail_lt e he).choose_spec.2.2.2
      unfold Disj at h1; dsimp at h1; omega
  | crashAlloc len pt =>
    simp only [Rdrbuff.step, crashAlloc]
    have hbp := blocksFor_pos hB hv
    have hev : ∀ r, event p (.crashAlloc len pt) r = .none := by intro r; cases r <;> rfl
    simp only [hev, after]
    by_cases hf : free p (blocksFor B len + padFor p (blocksFor B len)) = true
    · rw [if_pos hf]
      generalize hbl : blocksFor B len = bl at *
      have hroom := i.free_room (x := bl + padFor p bl) (by omega) hf
      have hp1 : padFor p bl = 0 ∨ (padFor p bl = p.n - p.head ∧ total es + padFor p bl + 2 ≤ p.n) := by
        unfold padFor at *
        split at hroom
        · right; rw [if_pos ‹_›]; exact ⟨rfl, by omega⟩
        · left; rw [if_neg ‹_›]
      obtain ⟨es1, i1, htot, hn, hw, hhd, hpz⟩ := i.putPad hp1
      have hfit : (Rdrbuff.putPad p (padFor p bl)).head + bl ≤ (Rdrbuff.putPad p (padFor p bl)).n := by
        by_cases h0 : padFor p bl = 0
        · rw [(hpz h0).1]; unfold padFor at h0; have := i.head_lt; split at h0 <;> omega
        · rw [hhd h0, hn]; omega
      split
      · obtain ⟨q, es', h1, h2, h3⟩ := i.sanitize
        rw [h1]; exact ⟨q, _, es', rfl, h2, h3⟩
      · obtain ⟨q, es', h1, h2, h3⟩ := i1.sanitize
        rw [h1]; exact ⟨q, _, es', rfl, h2, by rw [h3, hn]⟩
      · have i2 := i1.setMem_out (x := (Rdrbuff.putPad p (padFor p bl)).head)
          { (Rdrbuff.putPad p (padFor p bl)).mem (Rdrbuff.putPad p (padFor p bl)).head with
            refs := 1, idx := (Rdrbuff.putPad p (padFor p bl)).head, blocks := bl } i1.head_out
        obtain ⟨q, es', h1, h2, h3⟩ := i2.sanitize
        unfold claim
        rw [h1]; exact ⟨q, _, es', rfl, h2, by rw [h3, ← hn]⟩
      · have i2 := i1.push (b := bl) hbp hfit (by rw [hn]; omega)
          { (Rdrbuff.putPad p (padFor p bl)).mem (Rdrbuff.putPad p (padFor p bl)).head with
            refs := 1, idx := (Rdrbuff.putPad p (padFor p bl)).head, blocks := bl } rfl
        obtain ⟨q, es', h1, h2, h3⟩ := i2.sanitize
        unfold moveHead claim
        dsimp only
        rw [mask_eq i1.pow, h1]; exact ⟨q, _, es', rfl, h2, by rw [h3, ← hn]⟩
    · rw [if_neg hf]
      obtain ⟨q, es', h1, h2, h3⟩ := i.sanitize
      rw [h1]; exact ⟨q, _, es', rfl, h2, h3⟩
  | crashRemove x m =>
    obtain ⟨b, hb, rfl⟩ := hv
    have hlt := i.idx_lt hb
    simp only [Rdrbuff.step, crashRemove]
    rw [if_neg (by omega)]
    obtain ⟨q, es', h1, h2, h3⟩ := i.sanitize
    cases m with
    | false =>
      rw [if_neg (by simp), h1]
      exact ⟨q, _, es', rfl, h2, h3⟩
    | true =>
      by_cases hr : (p.mem b.idx).refs = 1
      · rw [if_pos (by simp [hr])]
        obtain ⟨q, es', h1, h2, h3⟩ := (i.remove_mark ⟨b, hb, rfl⟩ hr).sanitize
        rw [h1]
        exact ⟨q, _, es', rfl, h2, h3⟩
      · rw [if_neg (by simp [hr]), h1]
        refine ⟨q, _, es', rfl, ?_, h3⟩
        simp only [event]
        rw [i.remove_noop hr]; exact h2

/-! ## Reclaiming, for packets of one block -/

/-- The oldest entry is in use, and every entry in use belongs to a packet in use. -/
def Tight (p : Pool) (es : List (Nat × Nat)) (live : List Buf) : Prop :=
  (∀ e rest, es = e :: rest → (p.mem e.1).refs ≠ 0) ∧
  ∀ e ∈ es, (p.mem e.1).refs ≠ 0 → ∃ b ∈ live, b.idx = e.1

/-- Valid calls that ask for one block, without crashes. -/
def Small (B : Nat) (live : List Buf) : Op → Prop
  | .alloc len => len < 2 ^ 62 ∧ 48 + 256 + len + 32 ≤ B
  | .crashAlloc _ _ => False
  | .crashRemove _ _ => False
  | o => Valid B live o

theorem Tight.commit (hB : 0 < B) (i : Inv B p es live) (t : Tight p es live) {len pad : Nat} (hl : len < 2 ^ 62)
    (h1 : 48 + 256 + len + 32 ≤ B)
    (hpad : pad = padFor p (blocksFor B len)) (hf : free p (blocksFor B len + pad) = true) :
    ∃ es', Inv B (commit p (blocksFor B len) pad len).1 es'
        (after live (.got (commit p (blocksFor B len) pad len).2 len)) ∧
      Tight (commit p (blocksFor B len) pad len).1 es' (after live (.got (commit p (blocksFor B len) pad len).2 len)) := by
  have hb := blocksFor_one hl (show 336 + len ≤ B by omega)
  have hp0 : pad = 0 := by rw [hpad, hb]; unfold padFor; rw [if_neg (by have := i.head_lt; omega)]
  obtain ⟨es', a1, _, a3, _⟩ := i.commit hB hl hpad hf
  obtain ⟨b1, b2, b3⟩ := a3 hp0
  refine ⟨es', a1, ?_, ?_⟩
  · intro e rest he
    rw [b2]
    cases es with
    | nil =>
      rw [he] at b1
      simp only [List.nil_append, List.cons.injEq] at b1
      rw [b1.1, setMem_same]; simp [fresh]
    | cons x xs =>
      rw [he] at b1
      simp only [List.cons_append, List.cons.injEq] at b1
      rw [b1.1, setMem_ne _ _ (i.head_out x (by simp))]
      exact t.1 x xs rfl
  · intro e he hr
    rw [b1] at he
    rw [b2] at hr
    rw [b3]
    rcases List.mem_append.mp he with he | he
    · rw [setMem_ne _ _ (i.head_out e he)] at hr
      obtain ⟨b, hb, hbe⟩ := t.2 e he hr
      exact ⟨b, by simp only [after, List.mem_cons]; exact .inr hb, hbe⟩
    · rw [List.mem_singleton] at he
      subst he
      exact ⟨_, by simp only [after, List.mem_cons]; exact .inl rfl, rfl⟩

/-- Header changes at entries that keep zero/non-zero use counts. -/
theorem Tight.write (t : Tight p es live) {x : Nat} {v : Sdb} {live' : List Buf}
    (hz : (∀ e ∈ es, e.1 ≠ x) ∨ (v.refs ≠ 0 ∧ (p.mem x).refs ≠ 0))
    (hl : ∀ b ∈ live, ∃ c ∈ live', c.idx = b.idx) : Tight { p with mem := setMem p.mem x v } es live' := by
  have key : ∀ e ∈ es, (setMem p.mem x v e.1).refs ≠ 0 ↔ (p.mem e.1).refs ≠ 0 := by
    intro e he
    rcases hz with hz | hz
    · rw [setMem_ne _ _ (hz e he)]
    · by_cases h : e.1 = x
      · rw [h, setMem_same]; exact ⟨fun _ => hz.2, fun _ => hz.1⟩
      · rw [setMem_ne _ _ h]
  refine ⟨?_, ?_⟩
  · intro e rest he
    exact (key e (by rw [he]; simp)).mpr (t.1 e rest he)
  · intro e he hr
    obtain ⟨b, hb, h⟩ := t.2 e he ((key e he).mp hr)
    obtain ⟨c, hc, h2⟩ := hl b hb
    exact ⟨c, hc, h2.trans h⟩

theorem Tight.step (hB : 0 < B) (i : Inv B p es live) (t : Tight p es live) (o : Op) (hs : Small B live o) :
    ∃ q r es', step B p o = .ok (q, r) ∧ Inv B q es' (after live (event p o r)) ∧
      Tight q es' (after live (event p o r)) := by
  have hval : Valid B live o := by
    cases o <;> first | exact hs | exact hs.1 | exact hs.elim
  cases o with
  | alloc len =>
    simp only [Rdrbuff.step, alloc]
    split
    · next hf =>
      obtain ⟨es', h1, h2⟩ := t.commit hB i hs.1 hs.2 rfl hf
      refine ⟨_, _, es', rfl, ?_⟩
      simp only [event]
      rw [if_pos (by omega), Int.toNat_natCast]
      exact ⟨h1, h2⟩
    · exact ⟨_, _, es, rfl, by simpa [event, EAGAIN, after] using i, by simpa [event, EAGAIN, after] using t⟩
  | allocB len =>
    obtain ⟨q, r, es', h1, h2, _⟩ := i.step hB _ hval
    simp only [Rdrbuff.step, allocB] at h1 ⊢
    split at h1
    · next hf =>
      rw [if_pos hf]
      obtain ⟨es', h1, h2⟩ := t.commit hB i hs.1 hs.2 rfl hf
      refine ⟨_, _, es', rfl, ?_⟩
      simp only [event]
      rw [if_pos (by omega), Int.toNat_natCast]
      exact ⟨h1, h2⟩
    · next hf =>
      rw [if_neg hf]
      refine ⟨_, _, es, rfl, ?_, t⟩
      simp only [event, after]
      refine i.waiters ?_
      intro w hw
      rcases List.mem_append.mp hw with hw | hw
      · exact i.single w hw
      · rw [List.mem_singleton] at hw
        subst hw
        have h1 : blocksFor B len = 1 := blocksFor_one hs.1 (by have := hs.2; omega)
        have h2 := i.head_lt
        refine ⟨h1, ?_, hs.1, by have := hs.2; dsimp; omega⟩
        dsimp; unfold padFor; rw [h1, if_neg (by omega)]
  | wake w =>
    simp only [Rdrbuff.step, wake]
    cases hw : p.waiters[w]? with
    | none => exact ⟨_, _, es, rfl, by simp only [event, hw, after]; exact i, by simp only [event, hw, after]; exact t⟩
    | some x =>
      dsimp only
      obtain ⟨s1, s2, s3, s4⟩ := i.single x (List.mem_of_getElem? hw)
      have hh := i.head_lt
      have hb1 := blocksFor_one s3 s4
      have hpad : padAgain p x.blocks x.pad = padFor p (blocksFor B x.len) := by
        unfold padAgain padFor; rw [s1, hb1, s2]
      have hpz : padAgain p x.blocks x.pad = 0 := by
        unfold padAgain; rw [s1, if_neg (by omega), s2]
      generalize padAgain p x.blocks x.pad = pd at *
      split
      · next hf =>
        have i1 := i.waiters (ws := p.waiters.eraseIdx w) (fun y hy => i.single y (List.mem_of_mem_eraseIdx hy))
        have hf1 : free { p with waiters := p.waiters.eraseIdx w } (blocksFor B x.len + pd) = true := by
          rw [hb1, ← s1]; exact hf
        have t1 : Tight { p with waiters := p.waiters.eraseIdx w } es live := t
        obtain ⟨es', h1, h2⟩ := t1.commit hB i1 s3 (by omega) hpad hf1
        refine ⟨_, _, es', rfl, ?_⟩
        simp only [event, hw]
        rw [if_pos (by omega), Int.toNat_natCast, s1, ← hb1]
        exact ⟨h1, h2⟩
      · refine ⟨_, _, es, rfl, ?_, t⟩
        simp only [event, after]
        refine i.waiters ?_
        intro y hy
        rcases List.mem_or_eq_of_mem_set hy with hy | hy
        · exact i.single y hy
        · rw [hy]; exact ⟨s1, hpz, s3, s4⟩
  | expire w =>
    refine ⟨_, _, es, rfl, ?_, t⟩
    simp only [event, after]
    exact i.waiters (fun y hy => i.single y (List.mem_of_mem_eraseIdx hy))
  | remove x =>
    obtain ⟨b, hb, rfl⟩ := hval
    have hlt := i.idx_lt hb
    simp only [Rdrbuff.step, remove]
    rw [if_neg (by omega)]
    by_cases hr : (p.mem b.idx).refs = 1
    · rw [if_pos hr]
      have i1 := i.remove_mark ⟨b, hb, rfl⟩ hr
      have t2 : ∀ e ∈ es, (setMem p.mem b.idx { p.mem b.idx with refs := 0 } e.1).refs ≠ 0 →
          ∃ c ∈ after live (.released b.idx), c.idx = e.1 := by
        intro e he hr2
        by_cases h : e.1 = b.idx
        · rw [h, setMem_same] at hr2; exact absurd rfl hr2
        · rw [setMem_ne _ _ h] at hr2
          obtain ⟨c, hc, hce⟩ := t.2 e he hr2
          refine ⟨c, ?_, hce⟩
          simp only [after, List.mem_filter, Bool.not_eq_true', Bool.and_eq_false_iff, beq_eq_false_iff_ne]
          exact ⟨hc, .inl (by rw [hce]; exact h)⟩
      split
      · obtain ⟨q, es', h1, h2, h3, h4, h5, ⟨pre, h6⟩, h7⟩ := i1.collect
        rw [h1]
        refine ⟨q, _, es', rfl, h2, ?_, ?_⟩
        · rw [h4]; exact h7
        · rw [h4]
          intro e he; exact t2 e (by rw [h6]; exact List.mem_append_right _ he)
      · next htl =>
        refine ⟨_, _, es, rfl, i1, ?_, t2⟩
        intro e rest he
        have hg := i.geo
        rw [he] at hg
        dsimp
        rw [setMem_ne _ _ (by rw [hg.1]; exact fun h => htl h.symm)]
        exact t.1 e rest he
    · rw [if_neg hr]
      refine ⟨_, _, es, rfl, ?_, ?_⟩
      · simp only [event]
        rw [i.remove_noop hr]; exact i
      · simp only [event]
        rw [i.remove_noop hr]; exact t
  | hold x =>
    obtain ⟨q, r, es', h1, h2, _⟩ := i.step hB _ hval
    obtain ⟨b, hb, rfl⟩ := hval
    obtain ⟨bl, a1, a2, a3, a4, a5, a6, a7⟩ := i.live_in b hb
    refine ⟨_, _, es, rfl, ?_, ?_⟩
    · refine i.setMem_keep (v := { p.mem b.idx with refs := (p.mem b.idx).refs + 1 }) rfl _ ?_ ?_ ?_
      · intro c hc hne
        obtain ⟨d, hd, rfl⟩ := List.mem_map.mp hc
        split at hne
        · exact absurd ‹_› hne
        · rw [if_neg ‹_›]; exact hd
      · intro c hc he
        obtain ⟨d, hd, rfl⟩ := List.mem_map.mp hc
        split at he
        · obtain rfl : d = b := live_unique i.nodup hd hb he
          rw [if_pos rfl]
          exact ⟨d, hd, rfl, rfl, by dsimp; omega, by show _ + 1 = _; rw [a5], a6, a7⟩
        · exact absurd he ‹_›
      · exact pairwise_map_idx _ (by intro b; split <;> rfl) i.nodup
    · refine t.write (.inr ⟨by simp, by omega⟩) ?_
      intro c hc
      exact ⟨_, List.mem_map_of_mem hc, by split <;> rfl⟩
  | unhold x =>
    obtain ⟨b, hb, rfl, h2⟩ := hval
    obtain ⟨bl, a1, a2, a3, a4, a5, a6, a7⟩ := i.live_in b hb
    refine ⟨_, _, es, rfl, ?_, ?_⟩
    · refine i.setMem_keep (v := { p.mem b.idx with refs := (p.mem b.idx).refs - 1 }) rfl _ ?_ ?_ ?_
      · intro c hc hne
        obtain ⟨d, hd, rfl⟩ := List.mem_map.mp hc
        split at hne
        · exact absurd ‹_› hne
        · rw [if_neg ‹_›]; exact hd
      · intro c hc he
        obtain ⟨d, hd, rfl⟩ := List.mem_map.mp hc
        split at he
        · obtain rfl : d = b := live_unique i.nodup hd hb he
          rw [if_pos rfl]
          exact ⟨d, hd, rfl, rfl, by dsimp; omega, by show _ - 1 = _; rw [a5], a6, a7⟩
        · exact absurd he ‹_›
      · exact pairwise_map_idx _ (by intro b; split <;> rfl) i.nodup
    · refine t.write (.inr ⟨by dsimp; omega, by omega⟩) ?_
      intro c hc
      exact ⟨_, List.mem_map_of_mem hc, by split <;> rfl⟩
  | move x h u =>
    obtain ⟨b, hb, rfl⟩ := hval
    obtain ⟨bl, a1, a2, a3, a4, a5, a6, a7⟩ := i.live_in b hb
    refine ⟨_, _, es, rfl, ?_, ?_⟩
    · refine i.setMem_keep (v := { p.mem b.idx with duHead := h, duTail := u }) rfl _ (fun c hc _ => hc) ?_ i.nodup
      intro c hc he
      obtain ⟨bl, a1, a2, a3, a4, a5, a6, a7⟩ := i.live_in c hc
      rw [he] at a5 a6 a7
      exact ⟨c, hc, he, rfl, a4, a5, a6, a7⟩
    · exact t.write (.inr ⟨by dsimp; omega, by omega⟩) (fun c hc => ⟨c, hc, rfl⟩)
  | scribble x j v =>
    obtain ⟨b, hb, rfl, hj, hin⟩ := hval
    have hout : ∀ e ∈ es, e.1 ≠ b.idx + j := by
      intro e he heq
      obtain ⟨bl, a1, a2, _⟩ := i.live_in b hb
      have hjb : j < bl := by
        unfold Buf.stop at hin
        have : (b.idx + j) * B < (b.idx + bl) * B := by rw [Nat.add_mul b.idx bl]; omega
        have := Nat.lt_of_mul_lt_mul_right this
        omega
      rcases geo_eq_or i.npos i.geo i.tail_lt i.total_lt he a1 with h1 | h1
      · rw [h1] at heq; dsimp at heq; omega
      · have := (geo_offset i.npos i.geo i.tail_lt e he).choose_spec.2.2.2
        unfold Disj at h1; dsimp at h1; omega
    exact ⟨_, _, es, rfl, i.setMem_out v hout, t.write (.inl hout) (fun c hc => ⟨c, hc, rfl⟩)⟩
  | crashAlloc len pt => exact hs.elim
  | crashRemove x m => exact hs.elim

theorem create_inv (B k : Nat) (mem : Nat → Sdb) : Inv B (create k mem) [] [] where
  pow := ⟨k, rfl⟩
  tail_lt := Nat.two_pow_pos k
  head_lt := Nat.two_pow_pos k
  geo := rfl
  room := .inr rfl
  hdr := by simp
  live_in := by simp
  nodup := List.Pairwise.nil
  single := by simp [create]

theorem Inv.placed (i : Inv B p es live) : Placed B p.n live := by
  refine ⟨?_, ?_⟩
  · refine (List.Pairwise.and_mem.mp i.nodup).imp ?_
    rintro a b ⟨ha, hb, hne⟩
    obtain ⟨x, a1, a2, _⟩ := i.live_in a ha
    obtain ⟨y, b1, b2, _⟩ := i.live_in b hb
    rcases geo_eq_or i.npos i.geo i.tail_lt i.total_lt a1 b1 with h | h
    · exact absurd (by have := congrArg Prod.fst h; exact this) hne
    · unfold Apart Buf.start Buf.stop
      rcases h with h | h
      · left
        have := Nat.mul_le_mul_right B h
        dsimp at this
        rw [Nat.add_mul] at this; omega
      · right
        have := Nat.mul_le_mul_right B h
        dsimp at this
        rw [Nat.add_mul] at this; omega
  · intro b hb
    obtain ⟨x, a1, a2, _⟩ := i.live_in b hb
    have h := (geo_offset i.npos i.geo i.tail_lt _ a1).choose_spec.2.2.1
    dsimp at h
    have := Nat.mul_le_mul_right B h
    rw [Nat.add_mul] at this
    unfold Buf.stop; omega

end Ouro.Rdrbuff
