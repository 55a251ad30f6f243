import Verif.Proof.Rdrbuff
import Verif.Model.DuBuff

/-!
# C04, C05 — the packet pool and the packets in it

C04 fails in full for four reasons, each refuted below: a blocking allocation of several blocks keeps a stale padding count
across its wait; a packet held for retransmission is freed by the retransmission holder although the reader of the ring has
not released it; a request near `2^63` gets no blocks; and padding at the start of an empty ring is never reclaimed.
`C04_packets_partial` covers every history of the remaining calls, with crashes at every point.
-/

namespace Ouro.Rdrbuff

open Spec.PacketPool Spec.PacketWindow

/-- Pools reachable from a new pool of `2^k` blocks of `B` bytes (with any memory content) by valid calls, and the packets
in use. -/
inductive Reach (B k : Nat) (ok : List Buf → Op → Prop) : Pool → List Buf → Prop
  | init (mem : Nat → Sdb) : Reach B k ok (create k mem) []
  | step {p q : Pool} {live : List Buf} {o : Op} {r : Ret} : Reach B k ok p live → ok live o → step B p o = .ok (q, r) →
      Reach B k ok q (after live (event p o r))

theorem Reach.inv {B k : Nat} (hB : 0 < B) {p : Pool} {live : List Buf} (h : Reach B k (Valid B) p live) :
    p.n = 2 ^ k ∧ ∃ es, Inv B p es live := by
  induction h with
  | init mem => exact ⟨rfl, [], create_inv B k mem⟩
  | step _ hv hs ih =>
    obtain ⟨hn, es, i⟩ := ih
    obtain ⟨q, r, es', h1, h2, h3⟩ := i.step hB _ hv
    rw [h1] at hs
    obtain ⟨rfl, rfl⟩ := Prod.mk.inj (Outcome.ok.inj hs)
    exact ⟨by rw [h3, hn], es', h2⟩

/-- C04, without the four situations above. In every reachable pool, the packets in use share no byte, lie inside the pool
(header, head space, requested length and tail space included), and `get` returns the header of each of them with its
index, its size and its use count. No valid call runs into undefined behaviour. Missing: blocking allocations of more than
one block, and releases by the retransmission holder before the reader's. -/
theorem C04_packets_partial {B k : Nat} (hB : 0 < B) {p : Pool} {live : List Buf} (h : Reach B k (Valid B) p live) :
    Placed B (2 ^ k) live ∧
    (∀ b ∈ live, ∃ s, get p b.idx = .ok s ∧ s.idx = b.idx ∧ s.size = 256 + b.len + 32 ∧ s.refs = b.refs) ∧
    ∀ o, Valid B live o → ∃ q r, step B p o = .ok (q, r) := by
  obtain ⟨hn, es, i⟩ := h.inv hB
  refine ⟨hn ▸ i.placed, ?_, ?_⟩
  · intro b hb
    obtain ⟨bl, a1, a2, a3, a4, a5, a6, a7⟩ := i.live_in b hb
    have := i.idx_lt hb
    refine ⟨p.mem b.idx, by unfold get; rw [if_neg (by omega)], a6, by omega, a5⟩
  · intro o ho
    obtain ⟨q, r, es', h1, _⟩ := i.step hB o ho
    exact ⟨q, r, h1⟩

/-- C04, what an allocation returns: on success a new packet with the requested number of bytes between head and tail, 256
bytes before and 32 after; on failure nothing has changed. -/
theorem C04_alloc_result {B k : Nat} (hB : 0 < B) {p : Pool} {live : List Buf} (h : Reach B k (Valid B) p live) {len : Nat}
    (hl : len < 2 ^ 62) :
    ((alloc B p len).2 = -EAGAIN ∧ (alloc B p len).1 = p) ∨
    ∃ i : Nat, (alloc B p len).2 = i ∧ (∀ b ∈ live, b.idx ≠ i) ∧
      ∃ s, get (alloc B p len).1 i = .ok s ∧ s.duHead = 256 ∧ s.duTail = 256 + len ∧ s.size = 256 + len + 32 ∧ s.refs = 1 := by
  obtain ⟨hn, es, i⟩ := h.inv hB
  unfold alloc
  dsimp only
  split
  · next hf =>
    right
    obtain ⟨es', h1, h2, _, h3⟩ := i.commit hB hl rfl hf
    refine ⟨_, rfl, ?_, (commit p (blocksFor B len) (padFor p (blocksFor B len)) len).1.mem
      (commit p (blocksFor B len) (padFor p (blocksFor B len)) len).2, ?_, ?_⟩
    · intro b hb
      have := h1.nodup
      simp only [after, List.pairwise_cons] at this
      exact fun h => this.1 b hb h.symm
    · unfold get
      have := h1.idx_lt (b := ⟨_, len, 1⟩) (by simp only [after, List.mem_cons]; exact .inl rfl)
      exact if_neg (Nat.not_le.mpr this)
    · rw [h2]
      exact ⟨rfl, rfl, by show 288 + len = _; omega, rfl⟩
  · left; exact ⟨rfl, rfl⟩

theorem small_valid {B : Nat} {live : List Buf} {o : Op} (h : Small B live o) : Valid B live o := by
  cases o <;> first | exact h | exact h.1 | exact h.elim

theorem Reach.tight {B k : Nat} (hB : 0 < B) {p : Pool} {live : List Buf} (h : Reach B k (Small B) p live) :
    p.n = 2 ^ k ∧ ∃ es, Inv B p es live ∧ Tight p es live := by
  induction h with
  | init mem => exact ⟨rfl, [], create_inv B k mem, by simp [Tight]⟩
  | step _ hv hs ih =>
    obtain ⟨hn, es, i, t⟩ := ih
    obtain ⟨q, r, es', h1, h2, h3⟩ := t.step hB i _ hv
    have hv' := small_valid hv
    obtain ⟨q', r', _, g1, _, g3⟩ := i.step hB _ hv'
    rw [g1] at h1
    obtain ⟨rfl, rfl⟩ := Prod.mk.inj (Outcome.ok.inj h1)
    rw [g1] at hs
    obtain ⟨rfl, rfl⟩ := Prod.mk.inj (Outcome.ok.inj hs)
    exact ⟨by rw [g3, hn], es', h2, h3⟩

/-- C04, reclaiming, for histories in which every request fits in one block and nobody dies in the pool: once every packet
has been released the whole pool is free again, and the next request for a block succeeds. Missing: several-block requests,
for which this fails (`C04_reclaim_violated`), and crashes (a packet whose owner died before knowing its index is lost). -/
theorem C04_reclaim_partial {B k : Nat} (hB : 0 < B) (hk : 2 ≤ k) {p : Pool} (h : Reach B k (Small B) p []) {len : Nat}
    (hl : len < 2 ^ 62) (h1 : 48 + 256 + len + 32 ≤ B) : p.tail = p.head ∧ 0 ≤ (alloc B p len).2 := by
  obtain ⟨hn, es, i, t⟩ := h.tight hB
  have hes : es = [] := by
    cases es with
    | nil => rfl
    | cons x xs =>
      obtain ⟨b, hb, _⟩ := t.2 x (by simp) (t.1 x xs rfl)
      cases hb
  subst hes
  refine ⟨i.geo, ?_⟩
  have hfree : free p (blocksFor B len + padFor p (blocksFor B len)) = true := by
    rw [blocksFor_one hl (by omega)]
    unfold free padFor
    rw [if_neg (by have := i.head_lt; omega), i.used_eq]
    have : 2 ^ 2 ≤ p.n := by rw [hn]; exact Nat.pow_le_pow_right (by omega) hk
    rw [decide_eq_true_eq, Nat.mod_eq_of_lt (by simp only [total]; omega)]
    simp only [total]; omega
  unfold alloc
  dsimp only
  rw [if_pos hfree]
  simp

instance (B : Nat) (live : List Buf) : DecidablePred (Valid B live) := by
  intro o; cases o <;> unfold Valid <;> infer_instance

instance (B : Nat) (live : List Buf) : DecidablePred (Small B live) := by
  intro o; cases o <;> unfold Small <;> infer_instance

/-- Run operations, with the packets in use. -/
def exec (B : Nat) : Pool × List Buf → List Op → Outcome (Pool × List Buf)
  | s, [] => .ok s
  | s, o :: os => do
    let r ← step B s.1 o
    exec B (r.1, after s.2 (event s.1 o r.2)) os

/-- Every operation is allowed when it is run. -/
def allowed (B : Nat) (ok : List Buf → Op → Bool) : Pool × List Buf → List Op → Bool
  | _, [] => true
  | s, o :: os => ok s.2 o &&
    match step B s.1 o with
    | .ok r => allowed B ok (r.1, after s.2 (event s.1 o r.2)) os
    | .ub => false

theorem reach_exec {B k : Nat} {ok : List Buf → Op → Prop} {okb : List Buf → Op → Bool}
    (hok : ∀ live o, okb live o = true → ok live o) : ∀ (os : List Op) (s s' : Pool × List Buf),
    Reach B k ok s.1 s.2 → allowed B okb s os = true → exec B s os = .ok s' → Reach B k ok s'.1 s'.2
  | [], s, s', h, _, e => by rw [← Outcome.ok.inj e]; exact h
  | o :: os, s, s', h, ha, e => by
    unfold exec at e
    unfold allowed at ha
    rw [Bool.and_eq_true] at ha
    cases hr : step B s.1 o with
    | ub => rw [hr] at e; cases e
    | ok r =>
      rw [hr] at e ha
      exact reach_exec hok os _ s' (Reach.step h (hok _ _ ha.1) (r := r.2) (q := r.1) hr) ha.2 e

/-- Memory of a fresh shared memory file: zero. -/
def zeroMem : Nat → Sdb := fun _ => { size := 0, blocks := 0, duHead := 0, duTail := 0, refs := 0, idx := 0 }

/-- A pool of 8 blocks of 512 bytes. -/
def pool8 : Pool × List Buf := (create 3 zeroMem, [])

/-- Observable part of a pool: head, tail and the packets in use. -/
def look (r : Outcome (Pool × List Buf)) : Option (Nat × Nat × List Buf) :=
  match r with
  | .ok (p, live) => some (p.head, p.tail, live)
  | .ub => none

/-- Non-vacuity of `C04_packets_partial`: packets of one and three blocks, a hold, user data over a second block, a padded
wrap-around, a crash; the history is valid and ends with two packets in use. -/
def sample : List Op :=
  [.alloc 100, .alloc 100, .alloc 1000, .hold 2, .scribble 2 1 ⟨9, 9, 9, 9, 9, 9⟩, .remove 0, .remove 2, .crashAlloc 100 2,
   .crashRemove 1 true, .alloc 100, .unhold 2, .remove 2, .alloc 1000]

example : allowed 512 (fun l o => decide (Valid 512 l o)) pool8 sample = true := by decide +kernel

example : look (exec 512 pool8 sample) = some (3, 5, [⟨0, 1000, 1⟩, ⟨5, 100, 1⟩]) := by decide +kernel

/-- `C04_reclaim_partial` is about histories like this one. -/
example : allowed 512 (fun l o => decide (Small 512 l o)) pool8
    [.alloc 100, .allocB 176, .remove 0, .hold 1, .remove 1, .unhold 1, .remove 1] = true ∧
    look (exec 512 pool8 [.alloc 100, .allocB 176, .remove 0, .hold 1, .remove 1, .unhold 1, .remove 1]) =
      some (2, 2, []) := by decide +kernel

/-! ## The violations -/

/-- C04 fails for a blocking allocation of several blocks. A request for three blocks arrives when two blocks are left before
the end of the ring (padding 2) and the pool is full, and goes to sleep; one-block packets are then released and allocated,
the last one at index 0. When the sleeper is woken no padding is needed, but its old count is still there: it sets the head
to 0 and hands out a packet on top of the one that lives there. -/
theorem C04_blocking_overlap_violated :
    look (exec 512 pool8
      [.alloc 100, .alloc 100, .alloc 100, .alloc 100, .alloc 100, .alloc 100, .remove 0, .remove 1,
       .allocB 1000, .alloc 100, .alloc 100, .remove 2, .alloc 100,
       .remove 3, .remove 4, .remove 5, .remove 6, .remove 7, .wake 0]) =
      some (3, 0, [⟨0, 1000, 1⟩, ⟨0, 100, 1⟩]) ∧ ¬ Placed 512 8 [⟨0, 1000, 1⟩, ⟨0, 100, 1⟩] := by
  refine ⟨by decide +kernel, ?_⟩
  rintro ⟨h, _⟩
  rw [List.pairwise_cons] at h
  rcases h.1 ⟨0, 100, 1⟩ (by simp) with h | h <;> simp [Buf.start, Buf.stop] at h

/-- C04 fails for a packet held for retransmission when the retransmission timer gives it up before the reader of the ring
has released it: the timer calls `shm_du_buff_ack` and `shm_rdrbuff_remove` (`src/lib/timerwheel.c:178,265`), which together
undo both the timer's hold and the reader's. Here the reader never releases packet 0, and its memory is handed out again. -/
theorem C04_early_release_violated :
    look (exec 512 pool8 [.alloc 100, .hold 0, .unhold 0, .remove 0]) = some (1, 1, []) ∧
    look (exec 512 pool8 [.alloc 100, .hold 0, .unhold 0, .remove 0, .alloc 100, .remove 1, .alloc 100, .remove 2,
      .alloc 100, .remove 3, .alloc 100, .remove 4, .alloc 100, .remove 5, .alloc 100, .remove 6, .alloc 100, .remove 7,
      .alloc 100]) = some (1, 0, [⟨0, 100, 1⟩]) := by
  decide +kernel

/-- C04 fails for a request of `2^63` bytes: the signed size is negative, no block is reserved, and the next packet is at the
same place. -/
theorem C04_huge_request_violated :
    look (exec 512 pool8 [.alloc (2 ^ 63), .alloc 100]) = some (1, 0, [⟨0, 100, 1⟩, ⟨0, 2 ^ 63, 1⟩]) ∧
    ¬ Placed 512 8 [⟨0, 100, 1⟩, ⟨0, 2 ^ 63, 1⟩] := by
  refine ⟨by decide +kernel, ?_⟩
  rintro ⟨_, h⟩
  have := h ⟨0, 2 ^ 63, 1⟩ (by simp)
  simp [Buf.stop] at this

/-- Padding written at the tail of an empty ring is never reclaimed: after this history of valid calls every packet has been
released, and yet every later allocation fails, whatever the (valid, crash-free) calls in between. -/
theorem C04_reclaim_violated :
    allowed 512 (fun l o => decide (Valid 512 l o)) pool8 [.alloc 1000, .remove 0, .alloc 1000, .remove 3, .alloc 1000,
      .remove 0, .alloc 100, .remove 3] = true ∧
    ∃ p, exec 512 pool8 [.alloc 1000, .remove 0, .alloc 1000, .remove 3, .alloc 1000, .remove 0, .alloc 100, .remove 3] =
      .ok (p, []) ∧
    ∀ (os : List Op) (q : Pool) (live : List Buf), (∀ o ∈ os, ∀ a b, o ≠ .crashAlloc a b) →
      allowed 512 (fun l o => decide (Valid 512 l o)) (p, []) os = true → exec 512 (p, []) os = .ok (q, live) →
      live = [] ∧ ∀ len, len < 2 ^ 62 → (alloc 512 q len).2 = -EAGAIN := by
  refine ⟨by decide +kernel, ?_⟩
  have hlook : look (exec 512 pool8
      [.alloc 1000, .remove 0, .alloc 1000, .remove 3, .alloc 1000, .remove 0, .alloc 100, .remove 3]) = some (4, 6, []) := by
    decide +kernel
  have hreach : ∀ s, exec 512 pool8
      [.alloc 1000, .remove 0, .alloc 1000, .remove 3, .alloc 1000, .remove 0, .alloc 100, .remove 3] = .ok s →
      Reach 512 3 (Valid 512) s.1 s.2 := fun s hs =>
    reach_exec (okb := fun l o => decide (Valid 512 l o)) (fun l o h => of_decide_eq_true h) _ pool8 s (.init zeroMem)
      (by decide +kernel) hs
  cases hex : exec 512 pool8
      [.alloc 1000, .remove 0, .alloc 1000, .remove 3, .alloc 1000, .remove 0, .alloc 100, .remove 3] with
  | ub => rw [hex] at hlook; cases hlook
  | ok s =>
    obtain ⟨p, live⟩ := s
    rw [hex] at hlook
    simp only [look, Option.some.injEq, Prod.mk.injEq] at hlook
    obtain ⟨hh, ht, rfl⟩ := hlook
    have hr := hreach _ hex
    refine ⟨p, rfl, ?_⟩
    have full : ∀ {p : Pool}, p.n = 8 → p.head = 4 → p.tail = 6 → ∀ x, 0 < x → free p x = false := by
      intro p h1 h2 h3 x hx
      unfold free used
      rw [h1, h2, h3]
      simp only [show (4 + 8 - 6 + 1) &&& (8 - 1) = 7 from rfl, decide_eq_false_iff_not]
      omega
    have key : ∀ (os : List Op) (p q : Pool) (live : List Buf), p.n = 8 → p.head = 4 → p.tail = 6 →
        Reach 512 3 (Valid 512) p [] → (∀ o ∈ os, ∀ a b, o ≠ .crashAlloc a b) →
        allowed 512 (fun l o => decide (Valid 512 l o)) (p, []) os = true → exec 512 (p, []) os = .ok (q, live) →
        live = [] ∧ q.n = 8 ∧ q.head = 4 ∧ q.tail = 6 := by
      intro os
      induction os with
      | nil =>
        intro p q live h1 h2 h3 _ _ _ he
        simp only [exec] at he
        obtain ⟨rfl, rfl⟩ := Prod.mk.inj (Outcome.ok.inj he)
        exact ⟨rfl, h1, h2, h3⟩
      | cons o os ih =>
        intro p q live h1 h2 h3 hr hc ha he
        unfold exec at he
        unfold allowed at ha
        rw [Bool.and_eq_true] at ha
        have hv : Valid 512 [] o := of_decide_eq_true ha.1
        obtain ⟨_, es, inv⟩ := hr.inv (by omega)
        have hstep : ∃ ws r, step 512 p o = .ok ({ p with waiters := ws }, r) ∧ after [] (event p o r) = [] := by
          cases o with
          | alloc len =>
            simp only [step, alloc]
            rw [full h1 h2 h3 _ (by have := blocksFor_pos (B := 512) (by omega) hv; omega), if_neg (by simp)]
            exact ⟨p.waiters, _, rfl, by simp [event, EAGAIN, after]⟩
          | allocB len =>
            simp only [step, allocB]
            rw [full h1 h2 h3 _ (by have := blocksFor_pos (B := 512) (by omega) hv.1; omega), if_neg (by simp)]
            exact ⟨_, _, rfl, rfl⟩
          | wake w =>
            simp only [step, wake]
            cases hw : p.waiters[w]? with
            | none => exact ⟨p.waiters, _, rfl, by simp [event, hw, after]⟩
            | some x =>
              dsimp only
              have := (inv.single x (List.mem_of_getElem? hw)).1
              rw [full h1 h2 h3 _ (by omega), if_neg (by simp)]
              exact ⟨_, _, rfl, rfl⟩
          | expire w => exact ⟨_, _, rfl, rfl⟩
          | crashAlloc a b => exact absurd rfl (hc _ (by simp) a b)
          | _ => simp [Valid] at hv
        obtain ⟨ws, r, hs, hev⟩ := hstep
        have hr2 := Reach.step hr hv hs
        rw [hev] at hr2
        rw [hs] at he ha
        simp only [Outcome.bind_ok, hev] at he ha
        exact ih { p with waiters := ws } q live h1 h2 h3 hr2 (fun o ho => hc o (List.mem_cons_of_mem _ ho)) ha.2 he
    intro os q live hc ha he
    obtain ⟨k1, k2, k3, k4⟩ := key os p q live (hr.inv (by omega)).1 hh ht hr hc ha he
    refine ⟨k1, ?_⟩
    intro len hl
    unfold alloc
    dsimp only
    rw [full k2 k3 k4 _ (by have := blocksFor_pos (B := 512) (by omega) hl; omega), if_neg (by simp)]

/-! ## C05: head and tail of a packet -/

/-- The preconditions of the calls: sizes are below `2^63`, a release does not exceed the visible bytes, and a truncation
does not exceed the area behind the head. -/
def DuOp.Pre (s : Sdb) : DuOp → Prop
  | .headAlloc n => n < 2 ^ 63
  | .tailAlloc n => n < 2 ^ 63
  | .headRelease n => n ≤ s.duTail - s.duHead
  | .tailRelease n => n ≤ s.duTail - s.duHead
  | .truncate n => s.duHead + n ≤ s.size

/-- Head and tail are in order and inside the payload area. -/
def Sdb.Ordered (s : Sdb) : Prop := s.duHead ≤ s.duTail ∧ s.duTail ≤ s.size ∧ s.size < 2 ^ 63

theorem sub_eq {a b : Nat} (h : b ≤ a) (ha : a < SZ) : sub a b = a - b := by
  unfold sub SZ at *
  rw [Nat.mod_eq_of_lt (by omega : b < 2 ^ 64), show a + (2 ^ 64 - b) = (a - b) + 2 ^ 64 by omega, Nat.add_mod_right,
    Nat.mod_eq_of_lt (by omega)]

theorem wrap_eq {a : Nat} (h : a < SZ) : wrap a = a := Nat.mod_eq_of_lt h

/-- C05, the effect of each call on the bytes a packet shows. With `vis` the visible bytes before: `head_alloc(n)` either
returns `NULL` and changes nothing (exactly if fewer than `n` bytes are left before the head) or puts `n` bytes in front of
`vis`; `tail_alloc(n)` either returns `NULL` and changes nothing (always if fewer than `n` bytes are left behind the tail)
or puts `n` bytes behind `vis`; the releases drop `n` bytes at the front or the back; truncation keeps the first `n` bytes
(or exposes bytes behind them). Bytes that stay visible are never altered, head and tail stay in order and in the area. -/
theorem C05_effect_partial {α : Type} (area : List α) (s : Sdb) (h : s.Ordered) (hs : area.length = s.size) (o : DuOp)
    (hp : o.Pre s) : ∃ s' r, duStep s o = .ok (s', r) ∧ s'.Ordered ∧ s'.size = s.size ∧
      (let vis := visible area s.duHead s.duTail
       let vis' := visible area s'.duHead s'.duTail
       match o with
       | .headAlloc n => (r = none ∧ s' = s ∧ s.duHead < n) ∨
           (r = some s'.duHead ∧ n ≤ s.duHead ∧ ∃ new, new.length = n ∧ vis' = new ++ vis)
       | .tailAlloc n => (r = none ∧ s' = s ∧ s.size ≤ s.duTail + n) ∨
           (r = some s.duTail ∧ s.duTail + n < s.size ∧ ∃ new, new.length = n ∧ vis' = vis ++ new)
       | .headRelease n => r = some s.duHead ∧ vis' = vis.drop n
       | .tailRelease n => r = some s'.duTail ∧ vis' = vis.take (vis.length - n)
       | .truncate n => vis'.length = n ∧ vis'.take vis.length = vis.take n) := by
  obtain ⟨h1, h2, h3⟩ := h
  have hvl : ∀ a b, a ≤ b → b ≤ s.size → (visible area a b).length = b - a := by
    intro a b hab hb
    simp only [visible, List.length_take, List.length_drop, hs]; omega
  have split : ∀ a b c, a ≤ b → b ≤ c → visible area a c = visible area a b ++ visible area b c := by
    intro a b c hab hbc
    unfold visible
    have : area.drop b = (area.drop a).drop (b - a) := by rw [List.drop_drop]; congr 1; omega
    rw [this, show c - a = (b - a) + (c - b) by omega, List.take_add]
  cases o with
  | headAlloc n =>
    simp only [duStep, headAlloc]
    split
    · next hn => exact ⟨_, _, rfl, ⟨h1, h2, h3⟩, rfl, .inl ⟨rfl, rfl, hn⟩⟩
    · next hn =>
      refine ⟨_, _, rfl, ⟨by dsimp; omega, h2, h3⟩, rfl, .inr ⟨rfl, by omega, visible area (s.duHead - n) s.duHead, ?_, ?_⟩⟩
      · rw [hvl _ _ (by omega) (by omega)]; omega
      · exact split (s.duHead - n) s.duHead s.duTail (by omega) h1
  | tailAlloc n =>
    simp only [DuOp.Pre] at hp
    simp only [duStep, tailAlloc]
    rw [wrap_eq (by unfold SZ; omega)]
    split
    · next hn => exact ⟨_, _, rfl, ⟨h1, h2, h3⟩, rfl, .inl ⟨rfl, rfl, hn⟩⟩
    · next hn =>
      refine ⟨_, _, rfl, ⟨by dsimp; omega, by dsimp; omega, h3⟩, rfl,
        .inr ⟨rfl, by omega, visible area s.duTail (s.duTail + n), ?_, ?_⟩⟩
      · rw [hvl _ _ (by omega) (by omega)]; omega
      · exact split s.duHead s.duTail (s.duTail + n) h1 (by omega)
  | headRelease n =>
    simp only [DuOp.Pre] at hp
    simp only [duStep, headRelease]
    rw [sub_eq h1 (by unfold SZ; omega), if_neg (by omega), wrap_eq (by unfold SZ; omega)]
    refine ⟨_, _, rfl, ⟨by dsimp; omega, h2, h3⟩, rfl, rfl, ?_⟩
    have := split s.duHead (s.duHead + n) s.duTail (by omega) (by omega)
    dsimp only
    rw [this, List.drop_left' (by rw [hvl _ _ (by omega) (by omega)]; omega)]
  | tailRelease n =>
    simp only [DuOp.Pre] at hp
    simp only [duStep, tailRelease]
    rw [sub_eq h1 (by unfold SZ; omega), if_neg (by omega), sub_eq (by omega) (by unfold SZ; omega)]
    refine ⟨_, _, rfl, ⟨by dsimp; omega, by dsimp; omega, h3⟩, rfl, rfl, ?_⟩
    have e := split s.duHead (s.duTail - n) s.duTail (by omega) (by omega)
    dsimp only
    have hl := hvl s.duHead s.duTail h1 h2
    have hl2 := hvl s.duHead (s.duTail - n) (by omega) (by omega)
    rw [hl, e, List.take_left' (by rw [hl2]; omega)]
  | truncate n =>
    simp only [DuOp.Pre] at hp
    simp only [duStep, truncate]
    rw [if_pos (by omega), wrap_eq (by unfold SZ; omega)]
    refine ⟨_, _, rfl, ⟨by dsimp; omega, by dsimp; omega, h3⟩, rfl, ?_, ?_⟩
    · dsimp only; rw [hvl _ _ (by omega) (by omega)]; omega
    · dsimp only
      rw [hvl _ _ h1 h2]
      unfold visible
      rw [List.take_take, List.take_take]
      congr 1; omega

/-- C05, any sequence of calls made within their preconditions keeps head and tail in order and inside the area, and
touches neither the size nor the use count, block count or index of the packet. -/
theorem C05_bounds_partial (s : Sdb) (h : s.Ordered) (os : List DuOp) :
    (∃ pre o post t, os = pre ++ o :: post ∧ duRun s pre = .ok t ∧ ¬ o.Pre t) ∨
    ∃ t, duRun s os = .ok t ∧ t.Ordered ∧ t.size = s.size ∧ t.refs = s.refs ∧ t.blocks = s.blocks ∧ t.idx = s.idx := by
  induction os generalizing s with
  | nil => right; exact ⟨s, rfl, h, rfl, rfl, rfl, rfl⟩
  | cons o os ih =>
    by_cases hp : o.Pre s
    · obtain ⟨s1, r, e, h1, h2, _⟩ := C05_effect_partial (List.replicate s.size ()) s h (by simp) o hp
      have hrest : s1.refs = s.refs ∧ s1.blocks = s.blocks ∧ s1.idx = s.idx := by
        cases o <;> simp only [duStep, headAlloc, tailAlloc, headRelease, tailRelease, truncate] at e <;>
          split at e <;> first | (cases e; done) | (cases e; exact ⟨rfl, rfl, rfl⟩)
      rcases ih s1 h1 with ⟨pre, o', post, t, a1, a2, a3⟩ | ⟨t, a1, a2, a3, a4, a5, a6⟩
      · left
        exact ⟨o :: pre, o', post, t, by rw [a1]; rfl, by simp [duRun, e, a2], a3⟩
      · right
        exact ⟨t, by simp [duRun, e, a1], a2, by omega, by omega, by omega, by omega⟩
    · left; exact ⟨[], o, os, s, rfl, rfl, hp⟩

/-- C05, round trips: a successful allocation followed by a release of the same size restores the packet, at either end, and
so does a release followed by an allocation at the head. -/
theorem C05_round_trip (s : Sdb) (h : s.Ordered) (n : Nat) (hn : n < 2 ^ 63) :
    (n ≤ s.duHead → duRun s [.headAlloc n, .headRelease n] = .ok s) ∧
    (s.duTail + n < s.size → duRun s [.tailAlloc n, .tailRelease n] = .ok s) ∧
    (n ≤ s.duTail - s.duHead → duRun s [.headRelease n, .headAlloc n] = .ok s) := by
  obtain ⟨h1, h2, h3⟩ := h
  refine ⟨?_, ?_, ?_⟩
  · intro hh
    simp only [duRun, duStep, headAlloc, if_neg (show ¬ s.duHead < n by omega), Outcome.bind_ok, headRelease]
    rw [sub_eq (by omega) (by unfold SZ; omega), if_neg (by omega), wrap_eq (by unfold SZ; omega),
      show s.duHead - n + n = s.duHead by omega]
    rfl
  · intro hh
    simp only [duRun, duStep, tailAlloc]
    rw [wrap_eq (by unfold SZ; omega), if_neg (by omega)]
    simp only [Outcome.bind_ok, tailRelease]
    rw [sub_eq (by omega) (by unfold SZ; omega), if_neg (by omega), sub_eq (by omega) (by unfold SZ; omega),
      show s.duTail + n - n = s.duTail by omega]
    rfl
  · intro hh
    simp only [duRun, duStep, headRelease]
    rw [sub_eq h1 (by unfold SZ; omega), if_neg (by omega), wrap_eq (by unfold SZ; omega)]
    simp only [Outcome.bind_ok, Outcome.pure_eq, headAlloc]
    rw [if_neg (by omega), show s.duHead + n - n = s.duHead by omega]

/-- Non-vacuity: every packet returned by an allocation is in order. -/
theorem C05_fresh (i blocks len : Nat) (h : len < 2 ^ 62) : (fresh i blocks len).Ordered := by
  unfold Sdb.Ordered fresh; dsimp; omega

example : duRun (fresh 0 1 100) [.headAlloc 40, .tailAlloc 4, .headRelease 16, .truncate 50] =
    .ok { fresh 0 1 100 with duHead := 232, duTail := 282 } := by decide

/-- C05 fails for `shm_du_buff_truncate`: its own check (`len <= size`) accepts a length that puts the tail behind the end of
the packet's memory. -/
theorem C05_truncate_violated : ∃ s', truncate (fresh 0 1 100) 388 = .ok s' ∧ s'.size < s'.duTail ∧
    (fresh 0 1 100).size = 388 := ⟨_, rfl, by decide, rfl⟩

/-- C05 fails for `shm_du_buff_tail_alloc` with a size close to `2^64`: the sum wraps around, the call succeeds and moves the
tail backwards. -/
theorem C05_tail_wrap_violated : tailAlloc (fresh 0 1 100) (2 ^ 64 - 100) =
    ({ fresh 0 1 100 with duTail := 256 }, some 356) := by decide

/-- The last byte of the 32 bytes of tail space cannot be used: on a packet just allocated, `tail_alloc(32)` fails. -/
theorem C05_tailspace_violated (i blocks len : Nat) (h : len < 2 ^ 62) :
    tailAlloc (fresh i blocks len) 32 = (fresh i blocks len, none) ∧
    (fresh i blocks len).size - (fresh i blocks len).duTail = 32 := by
  refine ⟨?_, by unfold fresh; dsimp; omega⟩
  unfold tailAlloc
  rw [wrap_eq (by unfold SZ fresh; dsimp; omega), if_pos (by unfold fresh; dsimp; omega)]

end Ouro.Rdrbuff
