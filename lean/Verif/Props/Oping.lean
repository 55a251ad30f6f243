import Mathlib.Data.List.Perm.Subperm
import Verif.Proof.Oping

/-!
# C83: oping
-/

namespace Ouro.Oping

/-- The client counts the replies it waits for, and those that come after a reply to a later packet (or the same). -/
theorem C83_counts (count : Nat) (l : List In) : (reader count l .init).rcvd = (counted count l).length ∧
    (reader count l .init).ooo = late ((counted count l).map Prod.fst) ∧ (reader count l .init).rcvd ≤ count := by
  have h := reader_eq count l .init (Nat.zero_le _)
  rw [show count - Stats.init.rcvd = count from rfl] at h
  rw [h]
  have hs := stats_counts (counted count l)
  refine ⟨hs.1, hs.2.1, ?_⟩
  show (stats (counted count l) .init).rcvd ≤ count
  rw [hs.1]
  simp [counted]

/-- The average is the mean of the round trip times, and the deviation that is printed is theirs. -/
theorem C83_mean (count : Nat) (l : List In) (h : counted count l ≠ []) : (reader count l .init).avg = mean ((counted count l).map Prod.snd) ∧
    (reader count l .init).m2 = squares ((counted count l).map Prod.snd) := by
  have he := reader_eq count l .init (Nat.zero_le _)
  rw [show count - Stats.init.rcvd = count from rfl] at he
  rw [he]
  change (stats (counted count l) .init).avg = _ ∧ (stats (counted count l) .init).m2 = _
  obtain ⟨h1, h2⟩ := stats_moments (counted count l)
  have hn : ((counted count l).length : ℚ) ≠ 0 := by
    simpa using h
  have ha : (stats (counted count l) .init).avg = mean ((counted count l).map Prod.snd) := by
    unfold mean
    rw [List.length_map, ← h1]
    field_simp
  refine ⟨ha, ?_⟩
  unfold squares
  rw [squares_eq, h2, ← ha, List.length_map, ← h1]
  ring

/-- The smallest and the largest time are those of replies, if times are neither negative nor above 10^38 ms. -/
theorem C83_extremes (count : Nat) (l : List In) (h : counted count l ≠ []) (hp : ∀ x ∈ counted count l, 0 ≤ x.2 ∧ x.2 ≤ 10 ^ 38) :
    (∀ x ∈ counted count l, (reader count l .init).min ≤ x.2 ∧ x.2 ≤ (reader count l .init).max) ∧
    (∃ x ∈ counted count l, x.2 = (reader count l .init).min) ∧ (∃ x ∈ counted count l, x.2 = (reader count l .init).max) := by
  have he := reader_eq count l .init (Nat.zero_le _)
  rw [show count - Stats.init.rcvd = count from rfl] at he
  rw [he]
  change (∀ x ∈ counted count l, (stats (counted count l) .init).min ≤ x.2 ∧ x.2 ≤ (stats (counted count l) .init).max) ∧
    (∃ x ∈ counted count l, x.2 = (stats (counted count l) .init).min) ∧ (∃ x ∈ counted count l, x.2 = (stats (counted count l) .init).max)
  generalize counted count l = xs at *
  obtain ⟨h1, h2, -, h4, h5, -⟩ := stats_extremes xs
  obtain ⟨y, ys, rfl⟩ := List.exists_cons_of_ne_nil h
  have hy := hp y (by simp)
  have hf : (10 : ℚ) ^ 38 < fltMax := by unfold fltMax; norm_num
  refine ⟨fun x hx => ⟨h1 x hx, h4 x hx⟩, ?_, ?_⟩
  · rcases h2 with h2 | h2
    · have := h1 y (by simp)
      rw [h2] at this
      linarith [hy.2]
    · exact h2
  · rcases h5 with h5 | h5
    · have := h4 y (by simp)
      exact ⟨y, by simp, by rw [h5] at this ⊢; linarith [hy.1]⟩
    · exact h5

/-- The round trip time of a reply is the time since its packet was sent, to a thousandth of a millisecond. -/
theorem C83_rtt (a b : Time) : |(diffUs a b : ℚ) * 1000 - ((b.sec - a.sec) * 10 ^ 9 + (b.nsec - a.nsec) : Int)| < 1000 := by
  have h : |diffUs a b * 1000 - ((b.sec - a.sec) * 10 ^ 9 + (b.nsec - a.nsec))| < 1000 := by
    unfold diffUs
    have h1 := Int.mul_tdiv_add_tmod (b.nsec - a.nsec) 1000
    have h2 := Int.tmod_lt_of_pos (b.nsec - a.nsec) (show (0 : Int) < 1000 by decide)
    have h3 : -1000 < (b.nsec - a.nsec).tmod 1000 := by
      have := Int.lt_tmod_of_pos (b.nsec - a.nsec) (show (0 : Int) < 1000 by decide)
      omega
    rw [abs_lt]
    constructor <;> omega
  exact_mod_cast h

/-- If the network doubles nothing and makes up nothing, no more replies are counted than packets were sent. -/
theorem C83_received_partial (count sent : Nat) (l : List In) (h : ((valid count l).map Prod.fst).Nodup) (hs : ∀ x ∈ valid count l, x.1 < sent) :
    (reader count l .init).rcvd ≤ sent := by
  rw [(C83_counts count l).1]
  have h1 : (counted count l).length ≤ (valid count l).length := by simp [counted]
  have h2 : ((valid count l).map Prod.fst).length ≤ (List.range sent).length := by
    apply (List.subperm_of_subset h _).length_le
    intro x hx
    obtain ⟨y, hy, rfl⟩ := List.mem_map.1 hx
    exact List.mem_range.2 (hs y hy)
  simp at h2
  omega

/-- A reply that arrives twice is counted twice: two were received of one sent, and the loss is -100 %. -/
theorem C83_received_violated : ∃ l, (writer 10 [(true, ⟨0, 0⟩)] 0).2 = 1 ∧ (reader 10 l .init).rcvd = 2 ∧ loss 1 2 = -100 := by
  refine ⟨[.msg ⟨1, 0, ⟨0, 0⟩⟩ ⟨0, 1000⟩, .msg ⟨1, 0, ⟨0, 0⟩⟩ ⟨0, 2000⟩], by decide, ?_, ?_⟩
  · rw [(C83_counts _ _).1]
    simp [counted, valid]
  · unfold loss
    norm_num

/-- The loss is 0 only if nothing was lost, and is the loss rounded up. -/
theorem C83_loss_partial (sent rcvd : Nat) (hs : 0 < sent) (h : rcvd ≤ sent) : (loss sent rcvd = 0 ↔ rcvd = sent) ∧ 0 ≤ loss sent rcvd ∧ loss sent rcvd ≤ 100 ∧
    100 * ((sent : ℚ) - rcvd) / sent ≤ loss sent rcvd ∧ (loss sent rcvd : ℚ) < 100 * ((sent : ℚ) - rcvd) / sent + 1 := by
  have hq : (0 : ℚ) < sent := by exact_mod_cast hs
  have hr : (rcvd : ℚ) ≤ sent := by exact_mod_cast h
  have he : (100 : ℚ) - 100 * ((rcvd : ℚ) / sent) = 100 * ((sent : ℚ) - rcvd) / sent := by
    field_simp
  unfold loss
  rw [if_neg (by omega), he]
  have h0 : (0 : ℚ) ≤ 100 * ((sent : ℚ) - rcvd) / sent := by
    apply div_nonneg
    · linarith
    · exact hq.le
  have h100 : 100 * ((sent : ℚ) - rcvd) / sent ≤ 100 := by
    rw [div_le_iff₀ hq]
    have : (0 : ℚ) ≤ rcvd := by exact_mod_cast Nat.zero_le _
    linarith
  refine ⟨?_, Int.ceil_nonneg h0, Int.ceil_le.2 (by exact_mod_cast h100), Int.le_ceil _, Int.ceil_lt_add_one _⟩
  constructor
  · intro hz
    have h1 := Int.le_ceil (100 * ((sent : ℚ) - rcvd) / sent)
    rw [hz] at h1
    have h2 : 100 * ((sent : ℚ) - rcvd) ≤ 0 := by
      have := (div_le_iff₀ hq).1 h1
      simpa using this
    have h3 : (sent : ℚ) ≤ rcvd := by linarith
    have : sent ≤ rcvd := by exact_mod_cast h3
    omega
  · rintro rfl
    simp

/-- The loss can be 100 % although replies were received: it is so for one of more than a hundred. -/
theorem C83_loss_violated (sent : Nat) (h : 100 < sent) : loss sent 1 = 100 := by
  have hq : (100 : ℚ) < sent := by exact_mod_cast h
  have hq0 : (0 : ℚ) < sent := by linarith
  unfold loss
  rw [if_neg (by omega), Int.ceil_eq_iff]
  have h1 : (1 : ℚ) / sent * 100 < 1 := by
    rw [div_mul_eq_mul_div, div_lt_one hq0]
    linarith
  have h2 : (0 : ℚ) < 1 / sent := by positivity
  push_cast
  constructor <;> linarith

/-- The client sends requests numbered from 0 without gaps, no more than asked, and counts them; if no write fails it counts exactly them. -/
theorem C83_sent_partial (count : Nat) (outs : List (Bool × Time)) : (writer count outs 0).1.map Msg.id = List.range (writer count outs 0).1.length ∧
    (∀ m ∈ (writer count outs 0).1, m.type = 0) ∧ (writer count outs 0).1.length ≤ (writer count outs 0).2 ∧ (writer count outs 0).2 ≤ count ∧
    ((∀ x ∈ outs, x.1 = true) → (writer count outs 0).2 = (writer count outs 0).1.length) := by
  obtain ⟨h1, h2, h3, -, h5, h6⟩ := writer_facts count outs 0 (Nat.zero_le _)
  refine ⟨by rw [h1, List.range_eq_range'], h2, by omega, h5, ?_⟩
  intro h
  rw [h6 h]
  omega

/-- A packet that could not be written is counted as transmitted. -/
theorem C83_sent_violated (count : Nat) (hc : 0 < count) (t : Time) (l : List (Bool × Time)) : writer count ((false, t) :: l) 0 = ([], 1) := by
  simp [writer, hc]

/-- The size of packets is between 64 and 1500 bytes, and what was asked if that is so. -/
theorem C83_size (n : Int) : 64 ≤ size n ∧ size n ≤ 1500 ∧ (64 ≤ n → n ≤ 1500 → size n = n) := by
  unfold size
  refine ⟨?_, ?_, ?_⟩ <;> dsimp only <;> (try intros) <;> (repeat' split) <;> omega

/-- With a duration, as many packets are sent as there are intervals in it, if the interval is not more than ten seconds. -/
theorem C83_duration_partial (interval count duration : Nat) (h0 : 0 < interval) (h1 : interval ≤ 10000) (hd : 0 < duration) :
    (timing interval count duration).1 * (timing interval count duration).2 ≤ duration ∧
    duration < (timing interval count duration).1 * ((timing interval count duration).2 + 1) := by
  unfold timing
  simp only [if_pos hd, if_neg (show ¬ interval = 0 by omega), if_neg (show ¬ 10000 < interval by omega)]
  have := Nat.div_add_mod duration interval
  have hm := Nat.mod_lt duration h0
  rw [Nat.mul_add]
  omega

/-- With a longer interval the test is shorter than was asked, as the interval is cut and the number of packets is not: a minute becomes half a minute. -/
theorem C83_duration_violated : (timing 20000 7 60000).1 * (timing 20000 7 60000).2 = 30000 := by decide

/-- The server sends back what it gets, marked as a reply, and nothing else. -/
theorem C83_echo_partial (times : List Time) (ht : times.length = 256) (buf : List UInt8) (fd : Nat) (hfd : fd < 256) (pkt : List UInt8) (hp : 4 ≤ pkt.length) (now : Time) :
    ∃ times' buf', serve times buf fd pkt now = .ok (times', buf', if pkt.take 4 = [0, 0, 0, 0] then some ([0, 0, 0, 1] ++ pkt.drop 4) else none) ∧ times'.length = 256 := by
  have htk : (pkt ++ buf.drop pkt.length).take 4 = pkt.take 4 := List.take_append_of_le_length hp
  unfold serve
  simp only [htk]
  split
  · have hw : wr times fd now = .ok (times.set fd now) := by simp [wr, ht, hfd]
    rw [hw]
    refine ⟨times.set fd now, [0, 0, 0, 1] ++ (pkt ++ buf.drop pkt.length).drop 4, ?_, by simpa using ht⟩
    simp only [Outcome.bind, Outcome.ok.injEq, Prod.mk.injEq, true_and, Option.some.injEq]
    rw [List.drop_append_of_le_length hp]
    obtain ⟨a, b, c, d, r, rfl⟩ : ∃ a b c d r, pkt = a :: b :: c :: d :: r := by
      match pkt, hp with
      | a :: b :: c :: d :: r, _ => exact ⟨a, b, c, d, r, rfl⟩
    simp
  · exact ⟨_, _, rfl, ht⟩

/-- A flow with a descriptor from 256 on, the 193rd of a server as they are given from 64, is written outside the array of times, when it is accepted and with
every packet. -/
theorem C83_flows_violated (times : List Time) (ht : times.length = 256) (buf pkt : List UInt8) (fd : Nat) (hfd : 256 ≤ fd) (now : Time) :
    accepted times fd now = .ub ∧ (4 ≤ pkt.length → pkt.take 4 = [0, 0, 0, 0] → serve times buf fd pkt now = .ub) := by
  have hw : wr times fd now = .ub := by
    simp [wr, ht]
    omega
  refine ⟨hw, ?_⟩
  intro hp h0
  unfold serve
  simp only [List.take_append_of_le_length hp, h0, if_true, hw]
  rfl

/-- Three replies of four, one late, one that is no reply and one with an id that was not sent. -/
def sample : List In := [.msg ⟨1, 0, ⟨0, 0⟩⟩ ⟨0, 1000000⟩, .err, .msg ⟨0, 1, ⟨0, 0⟩⟩ ⟨0, 0⟩, .msg ⟨1, 2, ⟨0, 0⟩⟩ ⟨0, 3000000⟩, .msg ⟨1, 9, ⟨0, 0⟩⟩ ⟨0, 0⟩,
  .msg ⟨1, 1, ⟨0, 0⟩⟩ ⟨0, 8000000⟩, .timeout, .msg ⟨1, 3, ⟨0, 0⟩⟩ ⟨0, 0⟩]

example : counted 4 sample = [(0, 1), (2, 3), (1, 8)] ∧ late ((counted 4 sample).map Prod.fst) = 1 ∧ mean [1, 3, 8] = 4 ∧ squares [1, 3, 8] = 26 := by
  have hc : counted 4 sample = [(0, 1), (2, 3), (1, 8)] := by
    simp [counted, valid, sample, diffUs]
    norm_num
  refine ⟨hc, by rw [hc]; decide, ?_, ?_⟩
  · norm_num [mean]
  · norm_num [squares, mean]

example : ((valid 4 sample).map Prod.fst).Nodup ∧ (∀ x ∈ valid 4 sample, x.1 < 3) ∧ ∀ x ∈ counted 4 sample, 0 ≤ x.2 ∧ x.2 ≤ 10 ^ 38 := by
  have hv : valid 4 sample = [(0, 1), (2, 3), (1, 8)] := by
    simp [valid, sample, diffUs]
    norm_num
  simp only [counted, hv]
  norm_num

example : loss 4 3 = 25 ∧ timing 1000 7 60000 = (1000, 60) ∧ size 3 = 64 := by
  refine ⟨?_, by decide, by decide⟩
  norm_num [loss]

example : (serve (List.replicate 256 ⟨0, 0⟩) [9, 9, 9, 9, 9, 9] 64 [0, 0, 0, 0, 7] ⟨1, 2⟩).bind (fun r => .ok r.2) = .ok ([0, 0, 0, 1, 7, 9], some [0, 0, 0, 1, 7]) := by
  decide +kernel

end Ouro.Oping
