import Verif.Spec.Cep
import Verif.Proof.Tac

namespace Ouro.Cep

theorem dec_enc (l : List Byte) : ∀ f n, n < 128 ^ (f + 1) → dec (f + 1) (enc (f + 1) n ++ l) = some (n, l) := by
  intro f
  induction f with
  | zero =>
    intro n h
    have h' : n < 128 := by simpa using h
    simp [enc, dec, h', Nat.mod_eq_of_lt (show n < 256 by omega)]
  | succ f ih =>
    intro n h
    rw [enc]
    split
    · rename_i h'
      simp [dec, h', Nat.mod_eq_of_lt (show n < 256 by omega)]
    · have hd : n / 128 < 128 ^ (f + 1) := by
        rw [Nat.div_lt_iff_lt_mul (by norm_num)]
        rwa [pow_succ] at h
      have hb : (BitVec.ofNat 8 (n % 128 + 128)).toNat = n % 128 + 128 := by
        simp only [BitVec.toNat_ofNat]
        omega
      simp only [List.cons_append]
      rw [dec, hb, if_neg (by omega), ih _ hd]
      simp only [Option.map_some, Option.some.injEq, Prod.mk.injEq, and_true]
      omega

theorem dec_len (f : Nat) : ∀ (l r : List Byte) (n : Nat), dec f l = some (n, r) → r.length < l.length := by
  induction f with
  | zero => intro l r n h; simp [dec] at h
  | succ f ih =>
    intro l r n h
    cases l with
    | nil => simp [dec] at h
    | cons b l =>
      rw [dec] at h
      split at h
      · simp only [Option.some.injEq, Prod.mk.injEq] at h
        rw [← h.2]
        simp
      · cases hd : dec f l with
        | none => simp [hd] at h
        | some q =>
          simp only [hd, Option.map_some, Option.some.injEq, Prod.mk.injEq] at h
          have := ih l q.2 q.1 hd
          rw [← h.2]
          simp only [List.length_cons]
          omega

theorem field_num (k n : Nat) (r : List Byte) (hk : k < 2 ^ 29) (hn : n < 2 ^ 64) : field (fNum k n ++ r) = some (k, .num n, r) := by
  unfold field fNum
  rw [List.append_assoc, dec_enc _ 4 _ (by norm_num; omega)]
  simp only [Nat.mul_mod_left]
  rw [dec_enc _ 9 _ (lt_trans hn (by norm_num))]
  simp

theorem field_str (k : Nat) (l r : List Byte) (hk : k < 2 ^ 29) (hl : l.length < 2 ^ 31) : field (fStr k l ++ r) = some (k, .str l, r) := by
  unfold field fStr
  rw [List.append_assoc, dec_enc _ 4 _ (by norm_num; omega)]
  have h2 : (k * 8 + 2) % 8 = 2 := by omega
  have h3 : (k * 8 + 2) / 8 = k := by omega
  simp only [h2, h3]
  rw [List.append_assoc, dec_enc _ 4 _ (lt_trans hl (by norm_num))]
  simp

theorem fields_step (f : Nat) (l r : List Byte) (k : Nat) (v : Val) (m m' : Msg) (h : field l = some (k, v, r)) (hp : m.put k v = some m') :
    fields (f + 1) l m = fields f r m' := by
  cases l with
  | nil => simp [field, dec] at h
  | cons b l => simp [fields, h, hp]

theorem enc_pos (f n : Nat) : 0 < (enc (f + 1) n).length := by
  rw [enc]; split <;> simp

theorem fNum_pos (k n : Nat) : 0 < (fNum k n).length := by
  have : 0 < (enc 5 (k * 8)).length := enc_pos 4 _
  simp only [fNum, List.length_append]; omega

theorem fStr_pos (k : Nat) (l : List Byte) : 0 < (fStr k l).length := by
  have : 0 < (enc 5 (k * 8 + 2)).length := enc_pos 4 _
  simp only [fStr, List.length_append]; omega

theorem fields_nil (f : Nat) (m : Msg) : fields f [] m = some m := by cases f <;> rfl

theorem fields_extra (m : Msg) : ∀ (ex : List (Nat × Nat)) (f : Nat), (∀ e ∈ ex, e.1 ∉ [1, 2, 3, 5, 8] ∧ e.1 < 2 ^ 29 ∧ e.2 < 2 ^ 64) →
    (extra ex).length ≤ f → fields f (extra ex) m = some m := by
  intro ex
  induction ex with
  | nil => intro f _ _; exact fields_nil f m
  | cons e ex ih =>
    intro f he hf
    have h0 := he e (by simp)
    have hx : extra (e :: ex) = fNum e.1 e.2 ++ extra ex := by simp [extra]
    rw [hx] at hf ⊢
    have := fNum_pos e.1 e.2
    rw [List.length_append] at hf
    obtain ⟨g, rfl⟩ : ∃ g, f = g + 1 := ⟨f - 1, by omega⟩
    rw [fields_step g _ _ _ _ m m (field_num e.1 e.2 _ h0.2.1 h0.2.2)]
    · exact ih g (fun q hq => he q (by simp [hq])) (by omega)
    · have hk := h0.1
      simp only [List.mem_cons, List.not_mem_nil, or_false, not_or] at hk
      unfold Msg.put
      split <;> simp_all

theorem low_signExtend (x : BitVec 32) : BitVec.ofNat 32 (x.signExtend 64).toNat = x := by
  have h : BitVec.ofNat 32 (x.signExtend 64).toNat = (x.signExtend 64).setWidth 32 := by
    apply BitVec.eq_of_toNat_eq
    simp
  rw [h]
  apply BitVec.eq_of_getLsbD_eq
  intro i hi
  simp only [BitVec.getLsbD_setWidth, BitVec.getLsbD_signExtend]
  have : i < 64 := by omega
  simp [hi, this]

theorem unpack_pack (i : Info) (ex : List (Nat × Nat)) (hex : ∀ e ∈ ex, e.1 ∉ [1, 2, 3, 5, 8] ∧ e.1 < 2 ^ 29 ∧ e.2 < 2 ^ 64)
    (hn : i.name.length < 2 ^ 31) (hp : i.proto.length < 2 ^ 31) :
    unpack (pack i ++ extra ex) = some (i.name, i.proto, (i.version.signExtend 64).toNat, (i.syn.signExtend 64).toNat, i.addr.toNat) := by
  have h1 := fStr_pos 1 i.name
  have h2 := fStr_pos 2 i.proto
  have h3 := fNum_pos 3 (i.version.signExtend 64).toNat
  have h4 := fNum_pos 5 (i.syn.signExtend 64).toNat
  have h5 := fNum_pos 8 i.addr.toNat
  have hl : (extra ex).length + 5 ≤ (pack i ++ extra ex).length := by
    simp only [pack, List.length_append]; omega
  obtain ⟨g, hg⟩ : ∃ g, (pack i ++ extra ex).length = g + 5 := ⟨(pack i ++ extra ex).length - 5, by omega⟩
  unfold unpack
  rw [hg]
  have e : pack i ++ extra ex = fStr 1 i.name ++ (fStr 2 i.proto ++ (fNum 3 (i.version.signExtend 64).toNat ++
      (fNum 5 (i.syn.signExtend 64).toNat ++ (fNum 8 i.addr.toNat ++ extra ex)))) := by simp [pack]
  rw [e, fields_step _ _ _ _ _ _ _ (field_str 1 _ _ (by norm_num) hn) rfl, fields_step _ _ _ _ _ _ _ (field_str 2 _ _ (by norm_num) hp) rfl,
    fields_step _ _ _ _ _ _ _ (field_num 3 _ _ (by norm_num) (BitVec.isLt _)) rfl,
    fields_step _ _ _ _ _ _ _ (field_num 5 _ _ (by norm_num) (BitVec.isLt _)) rfl,
    fields_step _ _ _ _ _ _ _ (field_num 8 _ _ (by norm_num) (BitVec.isLt _)) rfl, fields_extra _ ex g hex (by omega)]

theorem cstr_of (l : List Byte) (h : (0 : Byte) ∉ l) : cstr l = l := by
  unfold cstr
  induction l with
  | nil => rfl
  | cons b l ih =>
    simp only [List.mem_cons, not_or] at h
    rw [List.takeWhile_cons_of_pos (by simpa using Ne.symm h.1), ih h.2]

theorem rcv_extra (i : Info) (h : Ok i) (ex : List (Nat × Nat)) (hex : ∀ e ∈ ex, e.1 ∉ [1, 2, 3, 5, 8] ∧ e.1 < 2 ^ 29 ∧ e.2 < 2 ^ 64)
    (hf : (pack i ++ extra ex).length ≤ bufSize) : rcv (pack i ++ extra ex) = .ok (some i) := by
  unfold rcv readMsg
  rw [List.take_of_length_le hf, unpack_pack i ex hex (lt_of_le_of_lt h.nameLen (by norm_num [strLen])) (lt_of_le_of_lt h.protoLen (by norm_num [strLen]))]
  simp only [strcpy, cstr_of _ h.name, cstr_of _ h.proto]
  rw [if_neg (by have := h.nameLen; omega), if_pos h.nameLen, if_pos h.protoLen]
  simp only [low_signExtend]
  simp

theorem rcv_pack (i : Info) (h : Ok i) (hf : Fits i) : rcv (pack i) = .ok (some i) := by
  have := rcv_extra i h [] (by simp) (by simpa [extra, Fits] using hf)
  simpa [extra] using this

theorem field_len (l r s : List Byte) (k : Nat) (h : field l = some (k, .str s, r)) : s.length + 2 ≤ l.length := by
  unfold field at h
  cases hd : dec 5 l with
  | none => simp [hd] at h
  | some q =>
    obtain ⟨t, r'⟩ := q
    have h1 := dec_len _ _ _ _ hd
    simp only [hd] at h
    split at h
    · cases hd' : dec 10 r' <;> simp [hd'] at h
    · split at h <;> simp at h
    · cases hd' : dec 5 r' with
      | none => simp [hd'] at h
      | some q =>
        have h2 := dec_len _ _ _ _ hd'
        simp only [hd'] at h
        split at h
        · simp only [Option.some.injEq, Prod.mk.injEq, Val.str.injEq] at h
          rw [← h.2.1, List.length_take]
          omega
        · simp at h
    · split at h <;> simp at h
    · simp at h

theorem field_rest (l r : List Byte) (k : Nat) (v : Val) (h : field l = some (k, v, r)) : r.length < l.length := by
  unfold field at h
  cases hd : dec 5 l with
  | none => simp [hd] at h
  | some q =>
    obtain ⟨t, r'⟩ := q
    have h1 := dec_len _ _ _ _ hd
    simp only [hd] at h
    split at h
    · cases hd' : dec 10 r' with
      | none => simp [hd'] at h
      | some q =>
        have h2 := dec_len _ _ _ _ hd'
        simp only [hd', Option.map_some, Option.some.injEq, Prod.mk.injEq] at h
        rw [← h.2.2]; omega
    · split at h
      · simp only [Option.some.injEq, Prod.mk.injEq] at h
        rw [← h.2.2, List.length_drop]; omega
      · simp at h
    · cases hd' : dec 5 r' with
      | none => simp [hd'] at h
      | some q =>
        have h2 := dec_len _ _ _ _ hd'
        simp only [hd'] at h
        split at h
        · simp only [Option.some.injEq, Prod.mk.injEq] at h
          rw [← h.2.2, List.length_drop]; omega
        · simp at h
    · split at h
      · simp only [Option.some.injEq, Prod.mk.injEq] at h
        rw [← h.2.2, List.length_drop]; omega
      · simp at h
    · simp at h

/-- The strings found are at most `n` long. -/
def Short (n : Nat) (m : Msg) : Prop := (∀ s, m.name = some s → s.length ≤ n) ∧ (∀ s, m.proto = some s → s.length ≤ n)

theorem put_short (n : Nat) (m m' : Msg) (k : Nat) (v : Val) (h : m.put k v = some m') (hm : Short n m) (hv : ∀ s, v = .str s → s.length ≤ n) :
    Short n m' := by
  unfold Msg.put at h
  split at h
  · cases h; exact ⟨fun s hs => by cases hs; exact hv _ rfl, hm.2⟩
  · cases h; exact ⟨hm.1, fun s hs => by cases hs; exact hv _ rfl⟩
  · cases h; exact hm
  · cases h; exact hm
  · cases h; exact hm
  · split at h
    · cases h
    · cases h; exact hm

theorem fields_short (n : Nat) : ∀ (f : Nat) (l : List Byte) (m m' : Msg), l.length ≤ n + 2 → Short n m → fields f l m = some m' → Short n m' := by
  intro f
  induction f with
  | zero =>
    intro l m m' _ hm h
    cases l with
    | nil => simp only [fields, Option.some.injEq] at h; exact h ▸ hm
    | cons b l => simp [fields] at h
  | succ f ih =>
    intro l m m' hl hm h
    cases l with
    | nil => simp only [fields, Option.some.injEq] at h; exact h ▸ hm
    | cons b l =>
      rw [fields] at h
      cases hf : field (b :: l) with
      | none => simp [hf] at h
      | some q =>
        obtain ⟨k, v, r⟩ := q
        simp only [hf] at h
        cases hp : m.put k v with
        | none => simp [hp] at h
        | some m1 =>
          simp only [hp] at h
          have hr := field_rest _ _ _ _ hf
          refine ih r m1 m' (by omega) (put_short n m m1 k v hp hm ?_) h
          rintro s rfl
          have := field_len _ _ _ _ hf
          omega

theorem unpack_short (n : Nat) (l : List Byte) (hl : l.length ≤ n + 2) (a b : List Byte) (v s d : Nat) (h : unpack l = some (a, b, v, s, d)) :
    a.length ≤ n ∧ b.length ≤ n := by
  unfold unpack at h
  split at h
  · rename_i heq
    have := fields_short n _ _ _ _ hl ⟨by simp, by simp⟩ heq
    simp only [Option.some.injEq, Prod.mk.injEq] at h
    obtain ⟨rfl, rfl, -⟩ := h
    exact ⟨this.1 _ rfl, this.2 _ rfl⟩
  · simp at h

theorem cstr_le (l : List Byte) : (cstr l).length ≤ l.length := by
  unfold cstr
  exact (List.takeWhile_sublist _).length_le

theorem lookup_some (comps : List Info) (hd : comps.Pairwise (fun a b => a.name ≠ b.name)) (n : List Byte) (c : Info) :
    lookup comps n = some c ↔ c ∈ comps ∧ c.name = n := by
  induction comps with
  | nil => simp [lookup]
  | cons a l ih =>
    rw [List.pairwise_cons] at hd
    unfold lookup at ih ⊢
    rw [List.find?_cons]
    by_cases ha : a.name = n
    · simp only [ha, decide_true, Option.some.injEq, List.mem_cons]
      constructor
      · rintro rfl; exact ⟨Or.inl rfl, ha⟩
      · rintro ⟨rfl | hm, hn⟩
        · rfl
        · exact absurd (ha.trans hn.symm) (hd.1 c hm)
    · simp only [ha, decide_false, List.mem_cons]
      rw [ih hd.2]
      constructor
      · rintro ⟨hm, hn⟩; exact ⟨Or.inr hm, hn⟩
      · rintro ⟨rfl | hm, hn⟩
        · exact absurd hn ha
        · exact ⟨hm, hn⟩

theorem ok_fail : Ok failInfo := ⟨by simp [failInfo], by simp [failInfo], by simp [failInfo], by simp [failInfo], by decide⟩

theorem fits_fail : Fits failInfo := by unfold Fits; decide +kernel

theorem snd_ok (i : Info) (h : Ok i) : snd i = some (pack i) := by simp [snd, h.syn]

theorem accepts_pack (mine i : Info) (h : Ok i) (hf : Fits i) : accepts mine (some (pack i)) = .ok (if Same mine i then some i else none) := by
  unfold accepts
  simp only [rcv_pack i h hf]
  by_cases hs : mine.proto = i.proto ∧ mine.version = i.version ∧ mine.syn = i.syn
  · rw [if_pos hs, if_pos (show Same mine i from hs)]
  · rw [if_neg hs, if_neg (show ¬ Same mine i from hs)]

/-- What a connection comes to. -/
theorem connect_eq (mine : Info) (comps : List Info) (h : Ok mine) (hf : Fits mine) (hc : ∀ c ∈ comps, Ok c ∧ Fits c) :
    connect mine comps = .ok (match lookup comps mine.name with
      | none => (if Same mine failInfo then some failInfo else none, none)
      | some c => (if Same mine c then some c else none, some mine)) := by
  unfold connect answer
  simp only [snd_ok mine h, rcv_pack mine h hf]
  cases hl : lookup comps mine.name with
  | none => simp only [snd_ok _ ok_fail, accepts_pack mine _ ok_fail fits_fail]
  | some c =>
    have hm : c ∈ comps := List.mem_of_find?_eq_some hl
    simp only [snd_ok _ (hc c hm).1, accepts_pack mine _ (hc c hm).1 (hc c hm).2]

end Ouro.Cep
