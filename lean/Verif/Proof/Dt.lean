import Verif.Model.Dt
import Verif.Proof.Bytes
import Verif.Spec.DtWire

namespace Ouro.Dt

open Spec.DtWire

theorem bytes_eq (n v : Nat) : bytes n v = leBytes n v := by
  induction n generalizing v with
  | zero => rfl
  | succ n ih =>
    simp only [leBytes, ← ih]
    unfold bytes
    rw [List.range_succ_eq_map, List.map_cons, List.map_map]
    congr 1
    · simp [byteOf]
    · apply List.map_congr_left
      intro i _
      simp only [Function.comp, byteOf]
      rw [Nat.pow_succ', Nat.div_div_eq_div_mul]

/-- A packet split into its header fields. -/
def raw (A : List Byte) (q t e : Byte) (E rest : List Byte) : List Byte := A ++ ([q] ++ ([t] ++ ([e] ++ (E ++ rest))))

theorem encode_raw (n dst : Nat) (q t e : Byte) (eid : Nat) (p : List Byte) :
    encode n dst q t e eid p = raw (leBytes n dst) q t e (leBytes 8 eid) p := by
  simp [encode, raw, bytes_eq]

/-- every packet that is long enough is of this form -/
theorem exists_raw (n : Nat) (pkt : List Byte) (h : n + 11 ≤ pkt.length) :
    ∃ A q t e E rest, A.length = n ∧ E.length = 8 ∧ pkt = raw A q t e E rest := by
  refine ⟨pkt.take n, pkt[n], pkt[n + 1], pkt[n + 2], (pkt.drop (n + 3)).take 8, pkt.drop (n + 11), ?_, ?_, ?_⟩
  · simp; omega
  · simp; omega
  · unfold raw
    have e1 : pkt.drop n = pkt[n] :: pkt.drop (n + 1) := List.drop_eq_getElem_cons (by omega)
    have e2 : pkt.drop (n + 1) = pkt[n + 1] :: pkt.drop (n + 2) := List.drop_eq_getElem_cons (by omega)
    have e3 : pkt.drop (n + 2) = pkt[n + 2] :: pkt.drop (n + 3) := List.drop_eq_getElem_cons (by omega)
    have e4 : pkt.drop (n + 3) = (pkt.drop (n + 3)).take 8 ++ pkt.drop (n + 11) := by
      conv_lhs => rw [← List.take_append_drop 8 (pkt.drop (n + 3))]
      rw [List.drop_drop]
    conv_lhs => rw [← List.take_append_drop n pkt, e1, e2, e3, e4]
    rfl

theorem ser_raw (n : Nat) (hn : n ≤ 8) (m : Byte) (A : List Byte) (q t e : Byte) (E rest : List Byte) (hA : A.length = n)
    (hE : E.length = 8) (pci : Pci) :
    ser (mkInfo n m) (raw A q t e E rest) pci =
      .ok (raw (leBytes n pci.dst.toNat) pci.qc m pci.ecn (leBytes 8 pci.eid.toNat) rest) := by
  unfold ser raw
  have hb : ¬ (8 < (mkInfo n m).addrSize ∨ 8 < (mkInfo n m).eidSize) := by
    simp [mkInfo]; omega
  rw [if_neg hb]
  simp only [mkInfo]
  have h1 := patch_mid (pre := []) (mid := A) (bs := leBytes n pci.dst.toNat) (off := 0)
    (post := [q] ++ ([t] ++ ([e] ++ (E ++ rest)))) rfl (by simp [hA])
  simp only [List.nil_append] at h1
  rw [h1]
  simp only [Outcome.bind_ok]
  rw [patch_mid (by simp) (by simp)]
  simp only [Outcome.bind_ok]
  rw [← List.append_assoc (leBytes n pci.dst.toNat), patch_mid (by simp) (by simp)]
  simp only [Outcome.bind_ok]
  rw [← List.append_assoc (leBytes n pci.dst.toNat ++ [pci.qc]), patch_mid (by simp) (by simp)]
  simp only [Outcome.bind_ok]
  rw [← List.append_assoc (leBytes n pci.dst.toNat ++ [pci.qc] ++ [m]), patch_mid (by simp) (by simp [hE])]
  simp

theorem rd_mid {pre post : List Byte} {x : Byte} {off : Nat} (h : pre.length = off) : rd (pre ++ ([x] ++ post)) off = .ok x := by
  subst h
  simp [rd]

theorem wr_mid {pre post : List Byte} {x y : Byte} {off : Nat} (h : pre.length = off) :
    wr (pre ++ ([x] ++ post)) off y = .ok (pre ++ ([y] ++ post)) := by
  subst h
  simp [wr]

theorem rd_ttl {A : List Byte} {q t e : Byte} {E rest : List Byte} {n : Nat} (hA : A.length = n) :
    rd (raw A q t e E rest) (n + 1) = .ok t := by
  unfold raw; rw [← List.append_assoc]; exact rd_mid (by simp [hA])

theorem wr_ttl {A : List Byte} {q t e t' : Byte} {E rest : List Byte} {n : Nat} (hA : A.length = n) :
    wr (raw A q t e E rest) (n + 1) t' = .ok (raw A q t' e E rest) := by
  unfold raw; rw [← List.append_assoc, wr_mid (by simp [hA])]; simp

theorem rd_ecn {A : List Byte} {q t e : Byte} {E rest : List Byte} {n : Nat} (hA : A.length = n) :
    rd (raw A q t e E rest) (n + 1 + 1) = .ok e := by
  unfold raw; rw [← List.append_assoc, ← List.append_assoc]; exact rd_mid (by simp [hA])

theorem wr_ecn {A : List Byte} {q t e e' : Byte} {E rest : List Byte} {n : Nat} (hA : A.length = n) :
    wr (raw A q t e E rest) (n + 1 + 1) e' = .ok (raw A q t e' E rest) := by
  unfold raw; rw [← List.append_assoc, ← List.append_assoc, wr_mid (by simp [hA])]; simp

theorem des_raw (n : Nat) (hn : n ≤ 8) (m : Byte) (A : List Byte) (q t e : Byte) (E rest : List Byte) (hA : A.length = n)
    (hE : E.length = 8) :
    des (mkInfo n m) (raw A q t e E rest) =
      .ok (raw A q (t - 1) e E rest, ⟨BitVec.ofNat 64 (leVal A), q, t - 1, e, BitVec.ofNat 64 (leVal E)⟩) := by
  unfold des
  have hb : ¬ (8 < (mkInfo n m).addrSize ∨ 8 < (mkInfo n m).eidSize) := by
    simp [mkInfo]; omega
  rw [if_neg hb]
  simp only [mkInfo, rd_ttl hA, wr_ttl hA, rd_ecn hA, Outcome.bind_ok]
  have h1 : slice (raw A q (t - 1) e E rest) 0 n = .ok A := by
    have := slice_mid (pre := []) (mid := A) (off := 0) (n := n) (post := [q] ++ ([t - 1] ++ ([e] ++ (E ++ rest)))) rfl hA
    simpa [raw] using this
  have h2 : rd (raw A q (t - 1) e E rest) n = .ok q := rd_mid hA
  have h3 : slice (raw A q (t - 1) e E rest) (n + 1 + 1 + 1) 8 = .ok E := by
    unfold raw
    rw [← List.append_assoc, ← List.append_assoc, ← List.append_assoc]
    exact slice_mid (by simp [hA]) hE
  rw [h1, h2, h3]
  rfl

theorem shrink_raw (n : Nat) (m : Byte) (A : List Byte) (q t e : Byte) (E rest : List Byte) (hA : A.length = n)
    (hE : E.length = 8) : shrink (mkInfo n m) (raw A q t e E rest) = .ok rest := by
  unfold shrink
  rw [if_pos (by simp [raw, mkInfo, hA, hE]; omega)]
  congr 1
  have e1 : raw A q t e E rest = (A ++ [q] ++ [t] ++ [e] ++ E) ++ rest := by simp [raw]
  rw [e1]
  apply List.drop_left'
  simp [mkInfo, hA, hE]

/-- the decision, on the fields -/
theorem handler_raw (n : Nat) (hn : n ≤ 8) (m : Byte) (env : Env) (A : List Byte) (q t e : Byte) (E rest : List Byte)
    (hA : A.length = n) (hE : E.length = 8) :
    handler (mkInfo n m) env (raw A q t e E rest) = .ok (
      if BitVec.ofNat 64 (leVal A) ≠ env.addr then
        if t - 1 = 0 then .drop
        else if env.nhop (BitVec.ofNat 64 (leVal A)) < 0 then .drop
        else if env.write (env.nhop (BitVec.ofNat 64 (leVal A))) then
          .forward (env.nhop (BitVec.ofNat 64 (leVal A))) (raw A q (t - 1) (env.mark (env.nhop (BitVec.ofNat 64 (leVal A))) e) E rest)
        else .drop
      else if resFds ≤ leVal E then .flow (BitVec.ofNat 64 (leVal E)) e rest
      else if env.comps (leVal E) then .comp (leVal E) rest
      else .drop) := by
  have hlt : leVal E < 2 ^ 64 := by
    have := leVal_lt E
    rw [hE] at this
    exact this
  have hv : (BitVec.ofNat 64 (leVal E)).toNat = leVal E := by
    rw [BitVec.toNat_ofNat, Nat.mod_eq_of_lt hlt]
  unfold handler
  rw [des_raw n hn m A q t e E rest hA hE]
  simp only [Outcome.bind_ok, hv]
  have he : (mkInfo n m).ecnO = n + 1 + 1 := rfl
  by_cases h1 : BitVec.ofNat 64 (leVal A) ≠ env.addr
  · simp only [if_pos h1]
    by_cases h2 : t - 1 = 0
    · simp only [if_pos h2, Outcome.pure_eq]
    · simp only [if_neg h2]
      by_cases h3 : env.nhop (BitVec.ofNat 64 (leVal A)) < 0
      · simp only [if_pos h3, Outcome.pure_eq]
      · simp only [if_neg h3, he, rd_ecn hA, wr_ecn hA, Outcome.bind_ok, Outcome.pure_eq]
  · simp only [if_neg h1, he, rd_ecn hA, shrink_raw n m A q (t - 1) e E rest hA hE, Outcome.bind_ok, Outcome.pure_eq]
    by_cases h4 : resFds ≤ leVal E
    · simp only [if_pos h4]
    · simp only [if_neg h4]
      split <;> rfl

theorem relays_raw {ν : Type} (n : Nat) (hn : n ≤ 8) (m : Byte) (net : Net ν) (fuel : Nat) :
    ∀ (i : Nat) (x : ν) (A : List Byte) (q t e : Byte) (E rest : List Byte), A.length = n → E.length = 8 →
      ∃ k, relays (mkInfo n m) net fuel i x (raw A q t e E rest) = .ok k ∧ k ≤ (t - 1).toNat := by
  induction fuel with
  | zero => intro i x A q t e E rest _ _; exact ⟨0, rfl, Nat.zero_le _⟩
  | succ fuel ih =>
    intro i x A q t e E rest hA hE
    simp only [relays]
    rw [handler_raw n hn m _ A q t e E rest hA hE]
    simp only [Outcome.bind_ok]
    by_cases h1 : BitVec.ofNat 64 (leVal A) ≠ (net.env i x).addr
    · rw [if_pos h1]
      by_cases h2 : t - 1 = 0
      · rw [if_pos h2]; exact ⟨0, rfl, Nat.zero_le _⟩
      · rw [if_neg h2]
        by_cases h3 : (net.env i x).nhop (BitVec.ofNat 64 (leVal A)) < 0
        · rw [if_pos h3]; exact ⟨0, rfl, Nat.zero_le _⟩
        · rw [if_neg h3]
          by_cases h4 : (net.env i x).write ((net.env i x).nhop (BitVec.ofNat 64 (leVal A))) = true
          · rw [if_pos h4]
            obtain ⟨k, e1, e2⟩ := ih (i + 1) (net.link i x ((net.env i x).nhop (BitVec.ofNat 64 (leVal A)))) A q (t - 1)
              ((net.env i x).mark ((net.env i x).nhop (BitVec.ofNat 64 (leVal A))) e) E rest hA hE
            refine ⟨k + 1, by simp only [e1, Outcome.bind_ok, Outcome.pure_eq], ?_⟩
            have hne : (t - 1).toNat ≠ 0 := by
              intro h; exact h2 (BitVec.eq_of_toNat_eq h)
            have hlt := (t - 1).isLt
            have : ((t - 1) - 1).toNat = (t - 1).toNat - 1 := by
              exact BitVec.toNat_sub_of_le (by rw [BitVec.le_def]; show 1 ≤ _; omega)
            omega
          · rw [if_neg h4]; exact ⟨0, rfl, Nat.zero_le _⟩
    · rw [if_neg h1]
      refine ⟨0, ?_, Nat.zero_le _⟩
      by_cases h4 : resFds ≤ leVal E
      · rw [if_pos h4]; rfl
      · rw [if_neg h4]
        by_cases h5 : (net.env i x).comps (leVal E) = true
        · rw [if_pos h5]; rfl
        · rw [if_neg h5]; rfl

theorem fate_raw {ν : Type} (n : Nat) (hn : n ≤ 8) (m : Byte) (net : Net ν) (fuel : Nat) :
    ∀ (i : Nat) (x : ν) (A : List Byte) (q t e : Byte) (E rest : List Byte), A.length = n → E.length = 8 →
      ∃ r, fate (mkInfo n m) net fuel i x (raw A q t e E rest) = .ok r ∧
        ∀ y a, r = some (y, a) → a = .drop ∨ ∃ j, BitVec.ofNat 64 (leVal A) = (net.env j y).addr ∧
          ((resFds ≤ leVal E ∧ ∃ ecn, a = .flow (BitVec.ofNat 64 (leVal E)) ecn rest) ∨
           (leVal E < resFds ∧ (net.env j y).comps (leVal E) = true ∧ a = .comp (leVal E) rest)) := by
  induction fuel with
  | zero => intro i x A q t e E rest _ _; exact ⟨none, rfl, by intro y a h; cases h⟩
  | succ fuel ih =>
    intro i x A q t e E rest hA hE
    simp only [fate]
    rw [handler_raw n hn m _ A q t e E rest hA hE]
    simp only [Outcome.bind_ok]
    by_cases h1 : BitVec.ofNat 64 (leVal A) ≠ (net.env i x).addr
    · rw [if_pos h1]
      by_cases h2 : t - 1 = 0
      · rw [if_pos h2]
        exact ⟨_, rfl, by intro y a h; cases h; exact Or.inl rfl⟩
      · rw [if_neg h2]
        by_cases h3 : (net.env i x).nhop (BitVec.ofNat 64 (leVal A)) < 0
        · rw [if_pos h3]
          exact ⟨_, rfl, by intro y a h; cases h; exact Or.inl rfl⟩
        · rw [if_neg h3]
          by_cases h4 : (net.env i x).write ((net.env i x).nhop (BitVec.ofNat 64 (leVal A))) = true
          · rw [if_pos h4]
            exact ih (i + 1) (net.link i x ((net.env i x).nhop (BitVec.ofNat 64 (leVal A)))) A q (t - 1)
              ((net.env i x).mark ((net.env i x).nhop (BitVec.ofNat 64 (leVal A))) e) E rest hA hE
          · rw [if_neg h4]
            exact ⟨_, rfl, by intro y a h; cases h; exact Or.inl rfl⟩
    · rw [if_neg h1]
      have h1' : BitVec.ofNat 64 (leVal A) = (net.env i x).addr := by
        by_contra h; exact h1 h
      by_cases h4 : resFds ≤ leVal E
      · rw [if_pos h4]
        refine ⟨_, rfl, ?_⟩
        intro y a h
        cases h
        exact Or.inr ⟨i, h1', Or.inl ⟨h4, _, rfl⟩⟩
      · rw [if_neg h4]
        by_cases h5 : (net.env i x).comps (leVal E) = true
        · rw [if_pos h5]
          refine ⟨_, rfl, ?_⟩
          intro y a h
          cases h
          exact Or.inr ⟨i, h1', Or.inr ⟨by omega, h5, rfl⟩⟩
        · rw [if_neg h5]
          exact ⟨_, rfl, by intro y a h; cases h; exact Or.inl rfl⟩

theorem writePacket_sent {n : Nat} (hn : n ≤ 8) {m : Byte} {env : Env} {dst : BitVec 64} {qc : Byte} {eid : BitVec 64}
    {junk payload : List Byte} (hj : junk.length = n + 11) (hd : dst ≠ env.addr) (hf : 0 ≤ env.nhop dst)
    (hw : env.write (env.nhop dst) = true) :
    writePacket (mkInfo n m) env dst qc eid (some junk) payload =
      .ok (.sent (env.nhop dst) (raw (leBytes n dst.toNat) qc m (env.mark (env.nhop dst) 0) (leBytes 8 eid.toNat) payload)) := by
  obtain ⟨A, q, t, e, E, rest, hA, hE, hraw⟩ := exists_raw n junk (by omega)
  have hrest : rest = [] := by
    have := congrArg List.length hraw
    simp [raw, hA, hE] at this
    apply List.eq_nil_of_length_eq_zero; omega
  subst hrest
  have hjp : junk ++ payload = raw A q t e E payload := by rw [hraw]; simp [raw]
  unfold writePacket
  rw [if_neg hd]
  simp only
  rw [if_neg (by omega), hjp, ser_raw n hn m A q t e E payload hA hE]
  simp [hw]

end Ouro.Dt
