import Verif.Spec.SerdesIrm
import Verif.Proof.Tac

/-!
# Lemmas for C82
-/

namespace Ouro.SerdesIrm

open Ouro.Protobuf

theorem decVarint_enc (n : Nat) : ∀ r, decVarint (encVarint n ++ r) = some (n, r) := by
  induction n using Nat.strongRecOn with
  | _ n ih =>
    intro r
    rw [encVarint]
    split
    · rename_i h
      simp only [List.cons_append, List.nil_append, decVarint]
      rw [UInt8.toNat_ofNat', Nat.mod_eq_of_lt (by omega), if_pos h]
    · rename_i h
      simp only [List.cons_append, decVarint]
      rw [UInt8.toNat_ofNat', Nat.mod_eq_of_lt (by omega), if_neg (by omega), ih (n / 128) (by omega)]
      simp only [Option.some.injEq, Prod.mk.injEq, and_true]
      omega

theorem encVarint_ne (n : Nat) : encVarint n ≠ [] := by
  rw [encVarint]
  split <;> simp

theorem decField_enc (x : Field) (r : Str) : decField (encField x ++ r) = some (x, r) := by
  obtain ⟨k, v⟩ := x
  cases v with
  | num n =>
    simp only [encField, decField, List.append_assoc, decVarint_enc]
    rw [if_pos (by omega), show 8 * k / 8 = k by omega]
  | bytes b =>
    simp only [encField, decField, List.append_assoc, decVarint_enc]
    rw [if_neg (by omega), if_pos ⟨by omega, by simp⟩, show (8 * k + 2) / 8 = k by omega]
    simp

theorem encField_ne (x : Field) : encField x ≠ [] := by
  obtain ⟨k, v⟩ := x
  cases v <;> simp [encField, encVarint_ne]

theorem decFields_enc (l : List Field) : ∀ f, (encFields l).length ≤ f → decFields f (encFields l) = some l := by
  induction l with
  | nil => intro f _; cases f <;> rfl
  | cons x l ih =>
    intro f hf
    have e : encFields (x :: l) = encField x ++ encFields l := rfl
    rw [e] at hf ⊢
    have hx := List.length_pos_iff.2 (encField_ne x)
    rw [List.length_append] at hf
    cases f with
    | zero => omega
    | succ f =>
      obtain ⟨c, cs, hc⟩ := List.exists_cons_of_ne_nil (show encField x ++ encFields l ≠ [] by simp [encField_ne])
      have hd := decField_enc x (encFields l)
      rw [hc] at hd ⊢
      simp only [decFields, hd, ih f (by omega)]

theorem embedded_enc {α : Type} (f : List Field → Option α) (l : List Field) : embedded f (encFields l) = f l := by
  unfold embedded
  rw [decFields_enc l _ (Nat.le_refl _)]

theorem zag_zig (i : Int32) : zag (zig i) = i := by
  unfold zag zig
  by_cases h : 0 ≤ i.toInt
  · rw [if_pos h, if_pos (by omega)]
    rw [show (((2 * i.toInt).toNat / 2 : Nat) : Int) = i.toInt by omega, Int32.ofInt_toInt]
  · rw [if_neg h, if_neg (by omega)]
    rw [show -(((-2 * i.toInt - 1).toNat / 2 : Nat) : Int) - 1 = i.toInt by omega, Int32.ofInt_toInt]

theorem qos_fields (q : QosMsg) : qosOfFields (qosFields q) = some q := by
  obtain ⟨a, b, c, d, e, f, g, h, i⟩ := q
  simp [qosOfFields, qosFields, numAt, field]

theorem flow_fields (m : FlowInfoMsg) : flowOfFields (flowFields m) = some m := by
  obtain ⟨a, b, c, d, e, f⟩ := m
  simp [flowOfFields, flowFields, numAt, bytesAt, field, embedded_enc, qos_fields]

theorem ipcp_fields (m : IpcpInfoMsg) : ipcpOfFields (ipcpFields m) = some m := by
  obtain ⟨a, b, c, d⟩ := m
  simp [ipcpOfFields, ipcpFields, numAt, bytesAt, field]

theorem time_fields (m : TimespecMsg) : timeOfFields (timeFields m) = some m := by
  obtain ⟨a, b⟩ := m
  simp [timeOfFields, timeFields, numAt, field]

theorem filter_opt (k j : Nat) (v : Option WVal) : (opt j v).filter (fun x => x.1 == k) = if j = k then opt j v else [] := by
  cases v <;> simp [opt, List.filter_cons]

theorem last_opt (k : Nat) (v : Option WVal) : (opt k v).getLast?.map Prod.snd = v := by cases v <;> simp [opt]

theorem fields_of (m : IrmMsg) : ofFields m.fields = some m := by
  obtain ⟨code, prog, pid, flow, ipcp, response, dst, hash, timeo, pk, key, result⟩ := m
  have f1 : numAt 1 (IrmMsg.fields ⟨code, prog, pid, flow, ipcp, response, dst, hash, timeo, pk, key, result⟩) = some code.toNat := by
    simp [numAt, field, IrmMsg.fields, filter_opt, List.filter_cons]
  have hf : ∀ k, k ≠ 1 → field k (IrmMsg.fields ⟨code, prog, pid, flow, ipcp, response, dst, hash, timeo, pk, key, result⟩) =
      (if k = 2 then prog.map .bytes else if k = 3 then pid.map fun i => .num (zig i) else if k = 5 then flow.map fun f => .bytes (encFields (flowFields f))
       else if k = 6 then ipcp.map fun f => .bytes (encFields (ipcpFields f)) else if k = 9 then response.map fun i => .num (zig i) else if k = 10 then dst.map .bytes
       else if k = 11 then hash.map .bytes else if k = 18 then timeo.map fun f => .bytes (encFields (timeFields f)) else if k = 22 then pk.map .bytes
       else if k = 23 then key.map .bytes else if k = 26 then result.map fun i => .num (zig i) else none) := by
    intro k hk
    simp only [field, IrmMsg.fields, List.filter_cons, List.filter_append, filter_opt, beq_iff_eq]
    rw [if_neg (Ne.symm hk)]
    by_cases h2 : k = 2
    · subst h2; simp [last_opt]
    by_cases h3 : k = 3
    · subst h3; simp [last_opt]
    by_cases h5 : k = 5
    · subst h5; simp [last_opt]
    by_cases h6 : k = 6
    · subst h6; simp [last_opt]
    by_cases h9 : k = 9
    · subst h9; simp [last_opt]
    by_cases h10 : k = 10
    · subst h10; simp [last_opt]
    by_cases h11 : k = 11
    · subst h11; simp [last_opt]
    by_cases h18 : k = 18
    · subst h18; simp [last_opt]
    by_cases h22 : k = 22
    · subst h22; simp [last_opt]
    by_cases h23 : k = 23
    · subst h23; simp [last_opt]
    by_cases h26 : k = 26
    · subst h26; simp [last_opt]
    simp [h2, h3, h5, h6, h9, h10, h11, h18, h22, h23, h26, Ne.symm h2, Ne.symm h3, Ne.symm h5, Ne.symm h6, Ne.symm h9, Ne.symm h10, Ne.symm h11, Ne.symm h18, Ne.symm h22,
      Ne.symm h23, Ne.symm h26]
  generalize IrmMsg.fields ⟨code, prog, pid, flow, ipcp, response, dst, hash, timeo, pk, key, result⟩ = l at *
  have b2 : bytesAt 2 l = prog := by unfold bytesAt; rw [hf 2 (by decide)]; cases prog <;> rfl
  have b10 : bytesAt 10 l = dst := by unfold bytesAt; rw [hf 10 (by decide)]; cases dst <;> rfl
  have b11 : bytesAt 11 l = hash := by unfold bytesAt; rw [hf 11 (by decide)]; cases hash <;> rfl
  have b22 : bytesAt 22 l = pk := by unfold bytesAt; rw [hf 22 (by decide)]; cases pk <;> rfl
  have b23 : bytesAt 23 l = key := by unfold bytesAt; rw [hf 23 (by decide)]; cases key <;> rfl
  have n3 : (numAt 3 l).map zag = pid := by unfold numAt; rw [hf 3 (by decide)]; cases pid <;> simp [zag_zig]
  have n9 : (numAt 9 l).map zag = response := by unfold numAt; rw [hf 9 (by decide)]; cases response <;> simp [zag_zig]
  have n26 : (numAt 26 l).map zag = result := by unfold numAt; rw [hf 26 (by decide)]; cases result <;> simp [zag_zig]
  have e5 : optEmbedded flowOfFields (bytesAt 5 l) = some flow := by
    unfold bytesAt; rw [hf 5 (by decide)]; cases flow <;> simp [optEmbedded, embedded_enc, flow_fields]
  have e6 : optEmbedded ipcpOfFields (bytesAt 6 l) = some ipcp := by
    unfold bytesAt; rw [hf 6 (by decide)]; cases ipcp <;> simp [optEmbedded, embedded_enc, ipcp_fields]
  have e18 : optEmbedded timeOfFields (bytesAt 18 l) = some timeo := by
    unfold bytesAt; rw [hf 18 (by decide)]; cases timeo <;> simp [optEmbedded, embedded_enc, time_fields]
  simp [ofFields, f1, b2, b10, b11, b22, b23, n3, n9, n26, e5, e6, e18]

theorem unpack_pack (m : IrmMsg) : unpack (pack m) = some m := by
  unfold unpack pack
  rw [embedded_enc, fields_of]

theorem pack_pos (m : IrmMsg) : 0 < (pack m).length := by
  have : pack m = encField (1, .num m.code.toNat) ++ encFields m.fields.tail := rfl
  rw [this, List.length_append]
  have := List.length_pos_iff.2 (encField_ne (1, .num m.code.toNat))
  omega

theorem mem_fields (x : Field) (l : List Field) (h : x ∈ l) : (encField x).length ≤ (encFields l).length := by
  induction l with
  | nil => simp at h
  | cons y l ih =>
    have e : encFields (y :: l) = encField y ++ encFields l := rfl
    rw [e, List.length_append]
    rcases List.mem_cons.1 h with rfl | h
    · omega
    · have := ih h
      omega

theorem bytes_len (k : Nat) (b : Str) : b.length + 2 ≤ (encField (k, .bytes b)).length := by
  simp only [encField, List.length_append]
  have h1 := List.length_pos_iff.2 (encVarint_ne (8 * k + 2))
  have h2 := List.length_pos_iff.2 (encVarint_ne b.length)
  omega

/-- The message of a request and the memory of the caller it points to. -/
def msgOf : Req → IrmMsg × List Blk
  | .accept f t => ({ code := 21, flow := some (flowToMsg f), timeo := t.map timespecToMsg }, [])
  | .alloc f d t => ({ code := 20, flow := some (flowToMsg f), dst := some d, timeo := t.map timespecToMsg }, [])
  | .join f d t => ({ code := 22, flow := some (flowToMsg f), dst := some d, timeo := t.map timespecToMsg }, [])
  | .dealloc f t => ({ code := 23, flow := some (flowToMsg f), timeo := some (timespecToMsg t) }, [])
  | .ipcpDealloc f => ({ code := 24, flow := some (flowToMsg f) }, [])
  | .created i => ({ code := 2, ipcp := some (ipcpToMsg i) }, [])
  | .announce p g => ({ code := 11, pid := some p, prog := some g }, [])
  | .exit p => ({ code := 12, pid := some p }, [])
  | .arrived d f x => ({ code := 25, flow := some (flowToMsg f), hash := some d, pk := some x }, [.dst, .data])
  | .reply f r x => ({ code := 26, flow := some (flowToMsg f), pk := some x, response := some r }, [.data])

theorem ser_cases (e : Env) (b : Buf) (q : Req) : q.ser e b = nomem b ∨ q.ser e b = finish b (msgOf q).1 (msgOf q).2 := by
  cases q <;> simp only [Req.ser, flowAccept, flowAlloc, flowJoin, flowAllocSer, flowDealloc, ipcpFlowDealloc, ipcpCreateR, procAnnounce, procExit, flowReqArr,
    flowAllocReply, msgOf] <;> (repeat' split) <;> simp

theorem ser_ok (b : Buf) (q : Req) : q.ser ⟨true, true, true, true⟩ b = finish b (msgOf q).1 (msgOf q).2 := by
  cases q <;> simp [Req.ser, flowAccept, flowAlloc, flowJoin, flowAllocSer, flowDealloc, ipcpFlowDealloc, ipcpCreateR, procAnnounce, procExit, flowReqArr, flowAllocReply, msgOf]

theorem finish_eq (b : Buf) (m : IrmMsg) (own : List Blk) (hb : b.len ≤ b.mem.length) :
    finish b m own = .ok (if (pack m).length ≤ b.len then ⟨0, ⟨pack m ++ b.mem.drop (pack m).length, (pack m).length⟩, []⟩ else ⟨-ENOMEM, b, own⟩) := by
  have := pack_pos m
  unfold finish packInto
  by_cases h : (pack m).length ≤ b.len
  · rw [if_neg (by omega), if_pos h, if_pos (by omega)]
    rfl
  · rw [if_pos (by omega), if_neg h]

theorem varint_len (k : Nat) : ∀ n, 0 < k → n < 128 ^ k → (encVarint n).length ≤ k := by
  induction k with
  | zero => intro n h; omega
  | succ k ih =>
    intro n _ hn
    rw [encVarint]
    split
    · simp
    · rename_i h
      have hk : 0 < k := by
        rcases Nat.eq_zero_or_pos k with rfl | h'
        · simp at hn; omega
        · exact h'
      have := ih (n / 128) hk (by rw [Nat.pow_succ] at hn; omega)
      simp
      omega

theorem len32 (n : UInt32) : (encVarint n.toNat).length ≤ 5 := varint_len 5 _ (by decide) (by have := n.toNat_lt; omega)

theorem len64 (n : UInt64) : (encVarint n.toNat).length ≤ 10 := varint_len 10 _ (by decide) (by have := n.toNat_lt; omega)

theorem len_small (n : Nat) (h : n < 128 ^ 2) : (encVarint n).length ≤ 2 := varint_len 2 _ (by decide) h

theorem len_zig (i : Int32) : (encVarint (zig i)).length ≤ 5 := by
  refine varint_len 5 _ (by decide) ?_
  have h1 := i.toInt_lt
  have h2 := i.le_toInt
  unfold zig
  split <;> omega

theorem len_num (k n c : Nat) (hk : k < 100) (h : (encVarint n).length ≤ c) : (encField (k, .num n)).length ≤ 2 + c := by
  simp only [encField, List.length_append]
  have := len_small (8 * k) (by omega)
  omega

theorem len_bytes (k : Nat) (b : Str) (hk : k < 100) (h : b.length < 128 ^ 2) : (encField (k, .bytes b)).length ≤ 4 + b.length := by
  simp only [encField, List.length_append]
  have h1 := len_small (8 * k + 2) (by omega)
  have h2 := len_small b.length h
  omega

theorem len_cons (x : Field) (l : List Field) : (encFields (x :: l)).length = (encField x).length + (encFields l).length := by
  show (encField x ++ encFields l).length = _
  rw [List.length_append]

theorem len_append (l l' : List Field) : (encFields (l ++ l')).length = (encFields l).length + (encFields l').length := by
  simp [encFields, List.flatMap_append]

theorem len_qos (q : QosMsg) : (encFields (qosFields q)).length ≤ 68 := by
  simp only [qosFields, len_cons]
  have h1 := len_num 1 _ _ (by decide) (len32 q.delay)
  have h2 := len_num 2 _ _ (by decide) (len64 q.bandwidth)
  have h3 := len_num 3 _ _ (by decide) (len32 q.availability)
  have h4 := len_num 4 _ _ (by decide) (len32 q.loss)
  have h5 := len_num 5 _ _ (by decide) (len32 q.ber)
  have h6 := len_num 6 _ _ (by decide) (len32 q.inOrder)
  have h7 := len_num 7 _ _ (by decide) (len32 q.maxGap)
  have h8 := len_num 8 _ _ (by decide) (len32 q.cypherS)
  have h9 := len_num 9 _ _ (by decide) (len32 q.timeout)
  have h0 : (encFields []).length = 0 := rfl
  omega

theorem len_flow (m : FlowInfoMsg) : (encFields (flowFields m)).length ≤ 107 := by
  simp only [flowFields, len_cons]
  have h1 := len_num 1 _ _ (by decide) (len32 m.id)
  have h2 := len_num 2 _ _ (by decide) (len32 m.nPid)
  have h3 := len_num 3 _ _ (by decide) (len32 m.n1Pid)
  have h4 := len_num 4 _ _ (by decide) (len32 m.mpl)
  have h5 := len_num 5 _ _ (by decide) (len32 m.state)
  have hq := len_qos m.qos
  have h6 := len_bytes 6 (encFields (qosFields m.qos)) (by decide) (by omega)
  have h0 : (encFields []).length = 0 := rfl
  omega

theorem len_time (m : TimespecMsg) : (encFields (timeFields m)).length ≤ 19 := by
  simp only [timeFields, len_cons]
  have h1 := len_num 1 _ _ (by decide) (len64 m.sec)
  have h2 := len_num 2 _ _ (by decide) (len32 m.nsec)
  have h0 : (encFields []).length = 0 := rfl
  omega

theorem len_ipcp (m : IpcpInfoMsg) (h : m.name.length < 128 ^ 2) : (encFields (ipcpFields m)).length ≤ 25 + m.name.length := by
  simp only [ipcpFields, len_cons]
  have h1 := len_num 1 _ _ (by decide) (len32 m.type)
  have h2 := len_bytes 2 m.name (by decide) h
  have h3 := len_num 3 _ _ (by decide) (len32 m.pid)
  have h4 := len_num 4 _ _ (by decide) (len32 m.state)
  have h0 : (encFields []).length = 0 := rfl
  omega

/-- The bytes in the strings of a message. -/
def strs (m : IrmMsg) : Nat :=
  (m.prog.getD []).length + (m.dst.getD []).length + (m.hash.getD []).length + (m.pk.getD []).length + (m.key.getD []).length + (m.ipcp.map fun i => i.name.length).getD 0

theorem len_opt_bytes (k : Nat) (o : Option Str) (hk : k < 100) (h : (o.getD []).length < 128 ^ 2) : (encFields (opt k (o.map .bytes))).length ≤ 4 + (o.getD []).length := by
  cases o with
  | none => simp [opt, encFields]
  | some b =>
    have := len_bytes k b hk h
    simpa [opt, encFields] using this

theorem len_opt_zig (k : Nat) (o : Option Int32) (hk : k < 100) : (encFields (opt k (o.map fun i => .num (zig i)))).length ≤ 7 := by
  cases o with
  | none => simp [opt, encFields]
  | some i =>
    have := len_num k _ _ hk (len_zig i)
    simpa [opt, encFields] using this

theorem len_pack (m : IrmMsg) (h : strs m ≤ 10000) : (pack m).length ≤ 240 + strs m := by
  unfold pack IrmMsg.fields
  simp only [len_cons, len_append]
  unfold strs at *
  have h1 := len_num 1 _ _ (by decide) (len32 m.code)
  have h2 := len_opt_bytes 2 m.prog (by decide) (by omega)
  have h3 := len_opt_zig 3 m.pid (by decide)
  have h5 : (encFields (opt 5 (m.flow.map fun f => .bytes (encFields (flowFields f))))).length ≤ 111 := by
    cases m.flow with
    | none => simp [opt, encFields]
    | some f =>
      have a := len_flow f
      have b := len_bytes 5 _ (by decide) (show (encFields (flowFields f)).length < 128 ^ 2 by omega)
      simp only [Option.map_some, opt, len_cons]
      have h0 : (encFields []).length = 0 := rfl
      omega
  have h6 : (encFields (opt 6 (m.ipcp.map fun f => .bytes (encFields (ipcpFields f))))).length ≤ 29 + (m.ipcp.map fun i => i.name.length).getD 0 := by
    cases hi : m.ipcp with
    | none => simp [opt, encFields]
    | some f =>
      rw [hi] at h
      simp only [Option.map_some, Option.getD_some] at h ⊢
      have a := len_ipcp f (by omega)
      have b := len_bytes 6 _ (by decide) (show (encFields (ipcpFields f)).length < 128 ^ 2 by omega)
      simp only [opt, len_cons]
      have h0 : (encFields []).length = 0 := rfl
      omega
  have h9 := len_opt_zig 9 m.response (by decide)
  have h10 := len_opt_bytes 10 m.dst (by decide) (by omega)
  have h11 := len_opt_bytes 11 m.hash (by decide) (by omega)
  have h18 : (encFields (opt 18 (m.timeo.map fun f => .bytes (encFields (timeFields f))))).length ≤ 23 := by
    cases m.timeo with
    | none => simp [opt, encFields]
    | some f =>
      have a := len_time f
      have b := len_bytes 18 _ (by decide) (show (encFields (timeFields f)).length < 128 ^ 2 by omega)
      simp only [Option.map_some, opt, len_cons]
      have h0 : (encFields []).length = 0 := rfl
      omega
  have h22 := len_opt_bytes 22 m.pk (by decide) (by omega)
  have h23 := len_opt_bytes 23 m.key (by decide) (by omega)
  have h26 := len_opt_zig 26 m.result (by decide)
  omega

end Ouro.SerdesIrm
