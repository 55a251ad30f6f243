import Verif.Spec.EthLlc
import Verif.Proof.FaMsg
import Verif.Proof.Tac

namespace Ouro.EthLlc

open Ouro.FaMsg

section logs

variable {log : List Event} {fd : Nat}

theorem since_append {l : List Event} (h : .closed fd ∉ l) : since (log ++ l) fd = l.reverse ++ since log fd := by
  unfold since
  rw [List.reverse_append, List.takeWhile_append_of_pos]
  intro x hx
  have : x ≠ .closed fd := fun hc => h (hc ▸ List.mem_reverse.1 hx)
  simpa using this

theorem since_closed : since (log ++ [.closed fd]) fd = [] := by simp [since]

theorem since_closed_ne {g : Nat} (h : g ≠ fd) : since (log ++ [.closed g]) fd = .closed g :: since log fd := by
  rw [since_append]
  · rfl
  · simpa using fun hc => h hc.symm

theorem peer_mono {l : List Event} {a sap : Nat} (h : .closed fd ∉ l) (hp : Peer log fd a sap) : Peer (log ++ l) fd a sap := by
  unfold Peer
  rw [since_append h]
  rcases hp with ⟨x, q, d, hp⟩ | ⟨d, hp⟩
  · exact .inl ⟨x, q, d, List.mem_append_right _ hp⟩
  · exact .inr ⟨d, List.mem_append_right _ hp⟩

/-- The event names no peer. -/
def Dull : Event → Prop
  | .offered .. => False
  | .replied _ _ _ r _ => r ≠ 0
  | .closed _ => False
  | _ => True

theorem peer_dull {l : List Event} {a sap : Nat} (h : ∀ e ∈ l, Dull e) : Peer (log ++ l) fd a sap ↔ Peer log fd a sap := by
  have hc : Event.closed fd ∉ l := fun hm => h _ hm
  refine ⟨?_, peer_mono hc⟩
  unfold Peer
  rw [since_append hc]
  rintro (⟨x, q, d, hp⟩ | ⟨d, hp⟩)
  · rcases List.mem_append.1 hp with hm | hm
    · exact (h _ (List.mem_reverse.1 hm)).elim
    · exact .inl ⟨x, q, d, hm⟩
  · rcases List.mem_append.1 hp with hm | hm
    · exact (h _ (List.mem_reverse.1 hm) rfl).elim
    · exact .inr ⟨d, hm⟩

theorem peer_offered {g src ssap : Nat} {x : List Byte} {q : Qos} {d : List Byte} {a sap : Nat} :
    Peer (log ++ [.offered g src ssap x q d]) fd a sap ↔ (g = fd ∧ src = a ∧ ssap = sap) ∨ Peer log fd a sap := by
  unfold Peer
  rw [since_append (by simp)]
  simp only [List.reverse_singleton, List.singleton_append, List.mem_cons, Event.offered.injEq, reduceCtorEq, false_or]
  constructor
  · rintro (⟨h, q', d', ⟨rfl, rfl, rfl, -⟩ | h'⟩ | h')
    · exact .inl ⟨rfl, rfl, rfl⟩
    · exact .inr (.inl ⟨_, _, _, h'⟩)
    · exact .inr (.inr h')
  · rintro (⟨rfl, rfl, rfl⟩ | ⟨h, q', d', h'⟩ | h')
    · exact .inl ⟨x, q, d, .inl ⟨rfl, rfl, rfl, rfl, rfl, rfl⟩⟩
    · exact .inl ⟨_, _, _, .inr h'⟩
    · exact .inr h'

theorem peer_replied {g src ssap : Nat} {d : List Byte} {a sap : Nat} :
    Peer (log ++ [.replied g src ssap 0 d]) fd a sap ↔ (g = fd ∧ src = a ∧ ssap = sap) ∨ Peer log fd a sap := by
  unfold Peer
  rw [since_append (by simp)]
  simp only [List.reverse_singleton, List.singleton_append, List.mem_cons, Event.replied.injEq, reduceCtorEq, false_or]
  constructor
  · rintro (h' | ⟨d', ⟨rfl, rfl, rfl, -⟩ | h'⟩)
    · exact .inr (.inl h')
    · exact .inl ⟨rfl, rfl, rfl⟩
    · exact .inr (.inr ⟨_, h'⟩)
  · rintro (⟨rfl, rfl, rfl⟩ | h' | ⟨d', h'⟩)
    · exact .inr ⟨d, .inl (by simp)⟩
    · exact .inl h'
    · exact .inr ⟨_, .inr h'⟩

theorem peer_closed {a sap : Nat} : ¬ Peer (log ++ [.closed fd]) fd a sap := by
  unfold Peer
  rw [since_closed]
  simp

theorem peer_closed_ne {g a sap : Nat} (h : g ≠ fd) : Peer (log ++ [.closed g]) fd a sap ↔ Peer log fd a sap := by
  unfold Peer
  rw [since_closed_ne h]
  simp

theorem sap_mem {l : List Event} {sap : Nat} (h : .closed fd ∉ l) : HasSap (log ++ l) fd sap ↔ .assigned fd sap ∈ l ∨ HasSap log fd sap := by
  unfold HasSap
  rw [since_append h]
  simp

theorem sap_closed {sap : Nat} : ¬ HasSap (log ++ [.closed fd]) fd sap := by
  unfold HasSap
  rw [since_closed]
  simp

theorem registered_append {l : List Event} {h : List Byte} (h1 : .registered h ∉ l) (h2 : .unregistered h ∉ l) : Registered (log ++ l) h ↔ Registered log h := by
  unfold Registered
  rw [List.reverse_append, List.takeWhile_append_of_pos]
  · simp [h1]
  · intro x hx
    have : x ≠ .unregistered h := fun hc => h2 (hc ▸ List.mem_reverse.1 hx)
    simpa using this

theorem registered_reg {h x : List Byte} : Registered (log ++ [.registered x]) h ↔ x = h ∨ Registered log h := by
  unfold Registered
  rw [List.reverse_append, List.takeWhile_append_of_pos]
  · simp [eq_comm]
  · simp

theorem registered_unreg {h x : List Byte} : Registered (log ++ [.unregistered x]) h ↔ x ≠ h ∧ Registered log h := by
  unfold Registered
  simp only [List.reverse_append, List.reverse_singleton, List.singleton_append, List.takeWhile_cons]
  by_cases hx : x = h
  · subst hx; simp
  · simp [hx]

end logs

/-- What was there before an event. -/
def Just (c : Cfg) (l : List Event) : Event → Prop
  | .delivered fd src ssap _ => Peer l fd src ssap
  | .offered _ _ _ h _ _ => Registered l h
  | .answered _ h => Registered l h
  | .requested _ a h _ _ => .announced h a ∈ l
  | .sent fd b => ∃ p, .wrote fd p ∈ l ∧ ∃ dst dsap ssap, IsFrame b dst c.mac dsap ssap p ∧ (Peer l fd dst dsap ∨ dst = 0 ∧ dsap = 255)
  | _ => True

def Hist (c : Cfg) (log : List Event) : Prop := ∀ l1 e l2, log = l1 ++ e :: l2 → Just c l1 e

theorem Hist.snoc {c : Cfg} {log : List Event} {e : Event} (h : Hist c log) (he : Just c log e) : Hist c (log ++ [e]) := by
  intro l1 x l2 hl
  rcases List.eq_nil_or_concat l2 with rfl | ⟨l3, y, rfl⟩
  · obtain ⟨rfl, hx⟩ := List.append_inj' hl rfl
    cases hx
    exact he
  · rw [List.concat_eq_append, ← List.cons_append, ← List.append_assoc] at hl
    obtain ⟨rfl, -⟩ := List.append_inj' hl rfl
    exact h _ _ _ rfl

theorem Hist.snoc2 {c : Cfg} {log : List Event} {e f : Event} (h : Hist c log) (he : Just c log e) (hf : Just c (log ++ [e]) f) : Hist c (log ++ [e, f]) := by
  have := (h.snoc he).snoc hf
  rwa [List.append_assoc] at this

section basics

theorem bind_eq {α β : Type} {a : Outcome α} {f : α → Outcome β} {x : β} (h : (a >>= f) = .ok x) : ∃ y, a = .ok y ∧ f y = .ok x := by
  cases a with
  | ok y => exact ⟨y, rfl, h⟩
  | ub => cases h

theorem upd_same {α : Type} {f : Nat → α} {k : Nat} {v : α} : upd f k v k = v := by simp [upd]
theorem upd_ne {α : Type} {f : Nat → α} {k i : Nat} {v : α} (h : i ≠ k) : upd f k v i = f i := by simp [upd, h]

theorem toU8_toI8 {x : Nat} (h : x < 256) : toU8 (toI8 x) = x := by
  unfold toU8 toI8
  split <;> omega

theorem toU8_lt (x : Int) : toU8 x < 256 := by unfold toU8; omega

theorem toU8_nat {x : Nat} (h : x < 256) : toU8 (x : Int) = x := by unfold toU8; omega

theorem reverse_lsb (b : Byte) : ∀ i, i < 8 → (reverseBits b).getLsbD i = b.getLsbD (7 - i) := by
  revert b; decide +kernel

theorem reverse_invol (b : Byte) : reverseBits (reverseBits b) = b := by
  revert b; decide +kernel

theorem length_leBytes (n v : Nat) : (leBytes n v).length = n := by
  induction n generalizing v with
  | zero => rfl
  | succ n ih => simp [leBytes, ih]

theorem leVal_leBytes {n v : Nat} (h : v < 256 ^ n) : leVal (leBytes n v) = v := by
  induction n generalizing v with
  | zero => simp at h; subst h; rfl
  | succ n ih =>
    simp only [leBytes, leVal, BitVec.toNat_ofNat]
    rw [ih (by rw [Nat.pow_succ] at h; omega)]
    omega

theorem leVal_lt (l : List Byte) : leVal l < 256 ^ l.length := by
  induction l with
  | nil => simp [leVal]
  | cons b l ih =>
    have := b.isLt
    simp only [leVal, List.length_cons, Nat.pow_succ]
    omega

/-- The frame, field by field. -/
theorem frame_parts (dst src : Nat) (d e : Byte) (p rest : List Byte) :
    slice (frame dst src d e p ++ rest) 12 2 = .ok (beBytes 2 (3 + p.length)) ∧ rd (frame dst src d e p ++ rest) 14 = .ok d ∧ rd (frame dst src d e p ++ rest) 15 = .ok e ∧
      slice (frame dst src d e p ++ rest) 6 6 = .ok (leBytes 6 src) ∧ slice (frame dst src d e p ++ rest) 17 p.length = .ok p := by
  have F := fun i hi => slice_fields [leBytes 6 dst, leBytes 6 src, beBytes 2 (3 + p.length), [d], [e], [(3 : Byte)]] (p ++ rest) i hi
  have f1 := F 1 (by simp)
  have f2 := F 2 (by simp)
  have f3 := F 3 (by simp)
  have f4 := F 4 (by simp)
  clear F
  have ef : [leBytes 6 dst, leBytes 6 src, beBytes 2 (3 + p.length), [d], [e], [(3 : Byte)]].flatten ++ (p ++ rest) = frame dst src d e p ++ rest := by
    simp [frame]
  rw [ef] at f1 f2 f3 f4
  have f5 : slice (frame dst src d e p ++ rest) 17 p.length = .ok p := by
    rw [← ef]
    exact slice_mid (by simp [length_leBytes]) rfl
  generalize frame dst src d e p ++ rest = m at *
  simp [length_leBytes] at f1 f2 f3 f4
  exact ⟨f2, rd_of_slice f3, rd_of_slice f4, f1, f5⟩

theorem frame_is {dst src : Nat} (hd : dst < 2 ^ 48) (hs : src < 2 ^ 48) {dsap ssap : Nat} (h1 : dsap < 256) (h2 : ssap < 256) (p : List Byte) :
    IsFrame (frame dst src (reverseBits (BitVec.ofNat 8 dsap)) (reverseBits (BitVec.ofNat 8 ssap)) p) dst src dsap ssap p := by
  have e : ∀ d e : Byte, frame dst src d e p = leBytes 6 dst ++ (leBytes 6 src ++ (beBytes 2 (3 + p.length) ++ (d :: e :: 3 :: p))) := by
    intro d e; simp [frame]
  have l1 := length_leBytes 6 dst
  have l2 := length_leBytes 6 src
  have l3 := length_beBytes 2 (3 + p.length)
  have hb : ∀ x i : Nat, i < 8 → (reverseBits (BitVec.ofNat 8 x)).getLsbD i = x.testBit (7 - i) := by
    intro x i hi
    rw [reverse_lsb _ i hi, BitVec.getLsbD_ofNat]
    simp
    omega
  refine ⟨?_, ?_, ?_, ?_, ?_⟩
  · rw [e, List.take_left' l1, leVal_leBytes (by simpa using hd)]
  · rw [e, List.drop_left' l1, List.take_left' l2, leVal_leBytes (by simpa using hs)]
  · refine ⟨reverseBits (BitVec.ofNat 8 dsap), ?_, fun i hi => hb dsap i hi⟩
    rw [e, List.getElem?_append_right (by omega), List.getElem?_append_right (by omega), List.getElem?_append_right (by omega)]
    simp [l1, l2, l3]
  · refine ⟨reverseBits (BitVec.ofNat 8 ssap), ?_, fun i hi => hb ssap i hi⟩
    rw [e, List.getElem?_append_right (by omega), List.getElem?_append_right (by omega), List.getElem?_append_right (by omega)]
    simp [l1, l2, l3]
  · rw [e, show leBytes 6 dst ++ (leBytes 6 src ++ (beBytes 2 (3 + p.length) ++ (reverseBits (BitVec.ofNat 8 dsap) :: reverseBits (BitVec.ofNat 8 ssap) :: 3 :: p)))
      = (leBytes 6 dst ++ (leBytes 6 src ++ (beBytes 2 (3 + p.length) ++ [reverseBits (BitVec.ofNat 8 dsap), reverseBits (BitVec.ofNat 8 ssap), 3]))) ++ p by simp]
    exact List.drop_left' (by simp [l1, l2])

theorem slice_length {b r : List Byte} {o n : Nat} (h : slice b o n = .ok r) : r.length = n := by
  unfold slice at h
  split at h
  · cases h; simp; omega
  · cases h

end basics

end Ouro.EthLlc
