import Verif.Spec.FlowCrypt
import Verif.Proof.FrctNet

namespace Ouro.Frct

open Ouro Ouro.Seqno

/-- The end that writes has learnt nothing from the other one. -/
structure Deaf (d : Bool) (r : Nat) (s : Sys) : Prop where
  net : ∀ q ∈ s.net (!d), q.pkt.data = false
  rxm : s.rxm (!d) = []
  frtx : (s.ep d).snd.frtx = true
  r : (s.ep d).r = r * BILLION
  win : ∃ n, n ≤ (s.dir d).sent.length ∧ (s.ep d).snd.seqno = (s.ep d).snd.lwe + BitVec.ofNat 32 n ∧
    ∀ x ∈ s.rxm d, ∃ i, i < n ∧ x.rxm.seqno = (s.ep d).snd.lwe + BitVec.ofNat 32 i
  small : (s.dir d).sent.length < 2 ^ 31
  all : s.down d = false → (s.rxm d).length + (s.dir d).lost.length = (s.dir d).sent.length

/-- Steps that leave the writer's side alone. -/
theorem Deaf.same {d : Bool} {r : Nat} {s s' : Sys} (h : Deaf d r s) (hn : ∀ q ∈ s'.net (!d), q ∈ s.net (!d) ∨ q.pkt.data = false)
    (hx : s'.rxm = s.rxm) (hf : (s'.ep d).snd.frtx = (s.ep d).snd.frtx) (hr : (s'.ep d).r = (s.ep d).r)
    (hl : (s'.ep d).snd.lwe = (s.ep d).snd.lwe) (hs : (s'.ep d).snd.seqno = (s.ep d).snd.seqno)
    (hd : (s'.dir d).sent = (s.dir d).sent) (ho : (s'.dir d).lost = (s.dir d).lost) (hw : s'.down = s.down) : Deaf d r s' where
  net q hq := (hn q hq).elim (h.net q) id
  rxm := by rw [hx]; exact h.rxm
  frtx := by rw [hf]; exact h.frtx
  r := by rw [hr]; exact h.r
  win := by rw [hl, hs, hd, hx]; exact h.win
  small := by rw [hd]; exact h.small
  all := by rw [hw, hx, hd, ho]; exact h.all

theorem ofNat_sub {l : W} {i n : Nat} (h : i < n) (hn : n < 2 ^ 31) : before (l + BitVec.ofNat 32 i) l = false := by
  unfold before
  have e : l + BitVec.ofNat 32 i - l = BitVec.ofNat 32 i := by rw [BitVec.add_comm, BitVec.add_sub_cancel]
  rw [e]
  have ht : (BitVec.ofNat 32 i).toNat = i := by rw [BitVec.toNat_ofNat, Nat.mod_eq_of_lt (by omega)]
  simp only [decide_eq_false_iff_not, not_lt]
  rw [BitVec.toInt_eq_toNat_of_lt (by rw [ht]; omega)]
  omega

/-- A timer of the writer never finds its packet acknowledged. -/
theorem Deaf.not_acked {d : Bool} {r : Nat} {s : Sys} (h : Deaf d r s) {x : Entry} (hx : x ∈ s.rxm d) :
    before x.rxm.seqno (s.ep d).snd.lwe = false := by
  obtain ⟨n, h1, _, h3⟩ := h.win
  obtain ⟨i, hi, e⟩ := h3 x hx
  rw [e]
  exact ofNat_sub hi (by have := h.small; omega)

theorem mem_emit {s : Sys} {d : Bool} {p : Option Pkt} {now : Int} {q : Sent} (h : q ∈ emit s d p now) (hp : ∀ x, p = some x → x.data = false) :
    q ∈ s.net d ∨ q.pkt.data = false := by
  unfold emit at h
  split at h
  · exact Or.inl h
  · rename_i p
    rcases List.mem_append.1 h with h | h
    · exact Or.inl h
    · rw [List.mem_singleton] at h; subst h; exact Or.inr (hp p rfl)

theorem sendAck_data {e : Ep} {now : Int} : ∀ x, (sendAck e now).2 = some x → x.data = false := by
  unfold sendAck; intro x
  split_ifs <;> simp only [reduceCtorEq, Option.some.injEq, false_imp_iff]
  rintro rfl; rfl

theorem sendAck_snd (e : Ep) (now : Int) : (sendAck e now).1.snd = e.snd ∧ (sendAck e now).1.r = e.r := by
  unfold sendAck; split_ifs <;> exact ⟨rfl, rfl⟩

theorem isWindowOpen_data {e : Ep} {now : Int} : ∀ x, (isWindowOpen e now).2.2 = some x → x.data = false := by
  unfold isWindowOpen; intro x
  dsimp only
  split_ifs <;> simp only [reduceCtorEq, Option.some.injEq, false_imp_iff]
  all_goals rintro rfl; rfl

theorem isWindowOpen_snd (e : Ep) (now : Int) : (isWindowOpen e now).1.snd = e.snd ∧ (isWindowOpen e now).1.r = e.r := by
  unfold isWindowOpen; dsimp only; split_ifs <;> exact ⟨rfl, rfl⟩

theorem dealloc_data {e : Ep} {now : Int} : ∀ x, (dealloc e now).2 = some x → x.data = false := by
  unfold dealloc; intro x
  dsimp only
  split_ifs <;> simp only [reduceCtorEq, Option.some.injEq, false_imp_iff]
  all_goals rintro rfl; rfl

theorem rcv_data {e : Ep} {p : Pkt} {now : Int} : ∀ x, (rcv e p now).2.2 = some x → x.data = false := by
  unfold rcv; intro x
  split
  · intro h; cases h
  · split
    · rintro ⟨⟩; rfl
    · intro h; cases h

theorem queuedPdu_snd (e : Ep) : (queuedPdu e).1.snd = e.snd ∧ (queuedPdu e).1.r = e.r := by
  unfold queuedPdu; dsimp only; split <;> exact ⟨rfl, rfl⟩

theorem backoff_snd (e : Ep) (x : Rxm) : (backoff e x).snd = e.snd ∧ (backoff e x).r = e.r := by
  unfold backoff; split <;> exact ⟨rfl, rfl⟩

theorem deaf_init (d : Bool) (a r mpl : Nat) (now : Int) : Deaf d r (Sys.init a r mpl now) where
  net q hq := by cases hq
  rxm := rfl
  frtx := rfl
  r := rfl
  win := ⟨0, Nat.le_refl _, rfl, fun x hx => by cases hx⟩
  small := by show 0 < _; decide
  all _ := rfl

theorem bool_cases (d e : Bool) : e = d ∨ e = !d := by cases d <;> cases e <;> simp

theorem deaf_step {d : Bool} {r : Nat} {s s' : Sys} {op : Op} (h : Deaf d r s) (ho : OkOneWay d s op) (hs : step s op = .ok s') : Deaf d r s' := by
  cases op with
  | write e b now rnd armed out =>
    obtain ⟨rfl, hlen⟩ := ho
    simp only [step, stepWrite] at hs
    split at hs
    · cases hs
    · rename_i ep p hsnd
      cases hs
      obtain ⟨n, h1, h2, h3⟩ := h.win
      -- the new window
      have key : ∃ n' : Nat, n' ≤ (s.dir e).sent.length + 1 ∧ ep.snd.seqno = ep.snd.lwe + BitVec.ofNat 32 n' ∧ ep.snd.frtx = true ∧
          ep.r = (s.ep e).r ∧ (∃ i, i < n' ∧ p.seqno = ep.snd.lwe + BitVec.ofNat 32 i) ∧
          ∀ x ∈ s.rxm e, ∃ i, i < n' ∧ x.rxm.seqno = ep.snd.lwe + BitVec.ofNat 32 i := by
        unfold snd newRun at hsnd
        dsimp only at hsnd
        split at hsnd
        · split at hsnd
          · rename_i hi heq
            simp only [Outcome.bind_ok] at hsnd
            cases hsnd
            have hn0 : n = 0 := by
              rw [h2] at heq
              have e1 : (s.ep e).snd.lwe + BitVec.ofNat 32 n - (s.ep e).snd.lwe = 0#32 := by rw [heq, BitVec.sub_self]
              rw [BitVec.add_comm, BitVec.add_sub_cancel] at e1
              have e2 := congrArg BitVec.toNat e1
              rw [BitVec.toNat_ofNat, Nat.mod_eq_of_lt (by have := h.small; omega)] at e2
              simpa using e2
            have hf := h.frtx
            refine ⟨1, by omega, ?_, ?_, ?_, ⟨0, by omega, ?_⟩, ?_⟩
            · simp only [sndEp, hf, if_true]
            · simp only [sndEp, hf]
            · simp only [sndEp]
            · simp only [sndEp, sndPkt, hf, if_true]; simp
            · intro x hx; obtain ⟨i, hi, _⟩ := h3 x hx; omega
          · cases hsnd
        · simp only [Outcome.bind_ok] at hsnd
          cases hsnd
          have hf := h.frtx
          refine ⟨n + 1, by omega, ?_, ?_, ?_, ⟨n, by omega, ?_⟩, ?_⟩
          · simp only [sndEp, hf, if_true, h2]
            rw [BitVec.add_assoc, ← BitVec.ofNat_add]
          · simp only [sndEp, hf]
          · simp only [sndEp]
          · simp only [sndEp, sndPkt, hf, if_true, h2]
          · intro x hx
            obtain ⟨i, hi, e1⟩ := h3 x hx
            exact ⟨i, by omega, by simpa only [sndEp, hf, if_true] using e1⟩
      obtain ⟨n', k1, k2, k3, k4, ⟨j, hj, k5⟩, k6⟩ := key
      have hd : ∀ f now' rnd' arm, (dirWrite (s.dir e) f b now' rnd' arm).sent = (s.dir e).sent ++ [b] := fun _ _ _ _ => rfl
      refine ⟨?_, ?_, ?_, ?_, ⟨n', ?_, ?_, ?_⟩, ?_, ?_⟩
      · intro q hq
        apply h.net q
        dsimp only at hq
        split at hq
        · rwa [upd_not] at hq
        · exact hq
      · dsimp only
        split
        · rw [upd_not]; exact h.rxm
        · exact h.rxm
      · simpa only [upd_same] using k3
      · simp only [upd_same]; rw [k4]; exact h.r
      · simp only [upd_same, hd, List.length_append, List.length_singleton]; exact k1
      · simpa only [upd_same] using k2
      · intro x hx
        simp only [upd_same]
        dsimp only at hx
        split at hx
        · rw [upd_same] at hx
          rcases List.mem_append.1 hx with hx | hx
          · exact k6 x hx
          · rw [List.mem_singleton] at hx; subst hx; exact ⟨j, hj, k5⟩
        · exact k6 x hx
      · simp only [upd_same, hd, List.length_append, List.length_singleton]; exact hlen
      · intro hdn
        have := h.all hdn
        simp only [upd_same, hd, List.length_append, List.length_singleton, k3, Bool.true_and]
        cases armed <;> simp [dirWrite] <;> omega
  | recv e k now =>
    simp only [step] at hs
    rcases bool_cases d e with rfl | rfl
    · cases hq : (s.net (!e))[k]? with
      | none => rw [hq] at hs; cases hs; exact h
      | some q =>
        have := ho rfl q hq
        rw [h.net q (List.mem_of_getElem? hq)] at this
        cases this
    · cases hq : (s.net (!!d))[k]? with
      | none => rw [hq] at hs; cases hs; exact h
      | some q =>
        rw [hq] at hs
        cases hs
        refine h.same ?_ rfl ?_ ?_ ?_ ?_ ?_ ?_ rfl
        · intro x hx
          simp only [stepRecv, upd_same] at hx
          exact mem_emit hx rcv_data
        · simp only [stepRecv, upd_not']
        · simp only [stepRecv, upd_not']
        · simp only [stepRecv, upd_not']
        · simp only [stepRecv, upd_not']
        · simp only [stepRecv, Bool.not_not, upd_same]; unfold dirRun; split <;> rfl
        · simp only [stepRecv, Bool.not_not, upd_same]; unfold dirRun; split <;> rfl
  | read e =>
    simp only [step] at hs
    cases hs
    unfold stepRead
    split
    · exact h
    · rename_i ep b hq
      have hs2 := queuedPdu_snd (s.ep e)
      rw [hq] at hs2
      dsimp only at hs2
      refine h.same (fun q hq => Or.inl hq) rfl ?_ ?_ ?_ ?_ ?_ ?_ rfl
      all_goals
        rcases bool_cases d e with rfl | rfl
        · simp only [upd_same, upd_not, upd_not', hs2.1, hs2.2]
        · simp only [upd_same, upd_not, upd_not', Bool.not_not]
  | ack e now =>
    simp only [step] at hs
    cases hs
    have hs2 := sendAck_snd (s.ep e) now
    refine h.same ?_ rfl ?_ ?_ ?_ ?_ rfl rfl rfl
    · intro q hq
      dsimp only at hq
      rcases bool_cases d e with rfl | rfl
      · rw [upd_not] at hq; exact Or.inl hq
      · rw [upd_same] at hq; exact mem_emit hq sendAck_data
    all_goals
      rcases bool_cases d e with rfl | rfl
      · simp only [upd_same, hs2.1, hs2.2]
      · simp only [upd_not']
  | window e now =>
    simp only [step] at hs
    cases hs
    have hs2 := isWindowOpen_snd (s.ep e) now
    refine h.same ?_ rfl ?_ ?_ ?_ ?_ rfl rfl rfl
    · intro q hq
      dsimp only at hq
      rcases bool_cases d e with rfl | rfl
      · rw [upd_not] at hq; exact Or.inl hq
      · rw [upd_same] at hq; exact mem_emit hq isWindowOpen_data
    all_goals
      rcases bool_cases d e with rfl | rfl
      · simp only [upd_same, hs2.1, hs2.2]
      · simp only [upd_not']
  | close e now =>
    simp only [step] at hs
    cases hs
    refine h.same ?_ rfl rfl rfl rfl rfl rfl rfl rfl
    intro q hq
    dsimp only at hq
    rcases bool_cases d e with rfl | rfl
    · rw [upd_not] at hq; exact Or.inl hq
    · rw [upd_same] at hq; exact mem_emit hq dealloc_data
  | flags e f g l =>
    simp only [step] at hs
    cases hs
    refine h.same (fun q hq => Or.inl hq) rfl ?_ ?_ ?_ ?_ rfl rfl rfl
    all_goals
      rcases bool_cases d e with rfl | rfl
      · simp [upd_same, setflags]
      · simp only [upd_not']
  | expire e k now alloc out =>
    simp only [step] at hs
    rcases bool_cases d e with rfl | rfl
    · cases hx : (s.rxm e)[k]? with
      | none => rw [hx] at hs; cases hs; exact h
      | some x =>
        rw [hx] at hs
        cases hs
        have hmem := List.mem_of_getElem? hx
        have hna := h.not_acked hmem
        obtain ⟨n, h1, h2, h3⟩ := h.win
        have hb := backoff_snd (s.ep e) x.rxm
        -- what the expiry does to the writer
        have key : ∃ ep res, expire (s.ep e) x.rxm now = (ep, res) ∧ ep.snd = (s.ep e).snd ∧ ep.r = (s.ep e).r ∧ res ≠ .cleanup := by
          unfold expire
          rw [hna]
          simp only [Bool.false_eq_true, if_false]
          split
          · exact ⟨_, _, rfl, rfl, rfl, by simp⟩
          · split
            · exact ⟨_, _, rfl, hb.1, hb.2, by simp⟩
            · exact ⟨_, _, rfl, hb.1, hb.2, by simp⟩
        obtain ⟨ep, res, k1, k2, k3, k4⟩ := key
        have gone : ∀ s' : Sys, s'.net = s.net → s'.ep = upd s.ep e ep → s'.rxm = upd s.rxm e ((s.rxm e).eraseIdx k) → s'.dir = s.dir →
            s'.down = upd s.down e true → Deaf e r s' := by
          intro s' e1 e2 e3 e4 e5
          refine ⟨?_, ?_, ?_, ?_, ⟨n, ?_, ?_, ?_⟩, ?_, ?_⟩
          · rw [e1]; exact h.net
          · rw [e3, upd_not]; exact h.rxm
          · rw [e2, upd_same, k2]; exact h.frtx
          · rw [e2, upd_same, k3]; exact h.r
          · rw [e4]; exact h1
          · rw [e2, upd_same, k2]; exact h2
          · rw [e3, upd_same, e2, upd_same, k2]
            intro y hy
            exact h3 y (List.mem_of_mem_eraseIdx hy)
          · rw [e4]; exact h.small
          · rw [e5, upd_same]; intro hc; cases hc
        unfold stepExpire
        rw [k1]
        cases res with
        | cleanup => exact absurd rfl k4
        | down => exact gone _ rfl rfl rfl rfl rfl
        | resend p =>
          dsimp only
          split
          · refine h.same (fun q hq => Or.inl hq) rfl ?_ ?_ ?_ ?_ rfl rfl rfl
            · simp only [upd_same, k2]
            · simp only [upd_same, k3]
            · simp only [upd_same, k2]
            · simp only [upd_same, k2]
          · split
            · exact gone _ rfl rfl rfl rfl rfl
            · refine ⟨?_, ?_, ?_, ?_, ⟨n, h1, ?_, ?_⟩, h.small, ?_⟩
              · simp only [upd_not]; exact h.net
              · simp only [upd_not]; exact h.rxm
              · simp only [upd_same, k2]; exact h.frtx
              · simp only [upd_same, k3]; exact h.r
              · simp only [upd_same, k2]; exact h2
              · simp only [upd_same, k2]
                intro y hy
                rcases List.mem_or_eq_of_mem_set hy with hy | rfl
                · exact h3 y hy
                · exact h3 x hmem
              · intro hd
                simp only [upd_same, List.length_set]
                exact h.all hd
    · rw [h.rxm] at hs
      simp only [List.getElem?_nil] at hs
      cases hs
      exact h

theorem deaf_reach {d : Bool} {a r mpl : Nat} {s : Sys} (h : OneWay d a r mpl s) : Deaf d r s := by
  induction h with
  | init now => exact deaf_init ..
  | step _ ho hs ih => exact deaf_step ih ho hs

end Ouro.Frct
