import Verif.Proof.SerdesIrm
import Verif.Props.Protobuf

/-!
# C82: the library and the IRM daemon understand each other
-/

namespace Ouro.SerdesIrm

open Ouro.Protobuf

/-- What one end packs the other unpacks, for every message. -/
theorem C82_wire (m : IrmMsg) : unpack (pack m) = some m := unpack_pack m

/-- If a request is serialised, the daemon that reads the buffer finds the request with its arguments and nothing else. -/
theorem C82_request_partial (e : Env) (b : Buf) (q : Req) (hq : q.Ok) (hb : b.len ≤ b.mem.length) (r : Res) (hr : q.ser e b = .ok r) (h0 : r.ret = 0) :
    ∃ m, unpack (r.buf.mem.take r.buf.len) = some m ∧ q.AsksFor m := by
  have hu : unpack (r.buf.mem.take r.buf.len) = some (msgOf q).1 := by
    rcases ser_cases e b q with h | h
    · rw [h] at hr
      simp only [nomem, Outcome.ok.injEq] at hr
      rw [← hr] at h0
      exact absurd h0 (show ¬ (-ENOMEM : Int) = 0 by decide)
    · rw [h, finish_eq _ _ _ hb, Outcome.ok.injEq] at hr
      split at hr
      · rw [← hr]
        simp [unpack_pack]
      · rw [← hr] at h0
        exact absurd h0 (show ¬ (-ENOMEM : Int) = 0 by decide)
  refine ⟨_, hu, ?_⟩
  have hf : ∀ f, FlowOk f → flowOfMsg (flowToMsg f) = f := fun f h => C47_flow_partial f h.1 h.2
  have ht : ∀ t, TimeOk t → timespecOfMsg (timespecToMsg t) = t := fun t h => C47_timespec t h.1 h.2
  have hto : ∀ t : Option Timespec, (∀ x ∈ t, TimeOk x) → (t.map timespecToMsg).map timespecOfMsg = t := by
    intro t h
    cases t with
    | none => rfl
    | some t => simp [ht t (h t rfl)]
  cases q with
  | accept f t => exact ⟨_, _, rfl, hf f hq.1, hto t hq.2⟩
  | alloc f d t => exact ⟨_, _, rfl, hf f hq.1, hto t hq.2⟩
  | join f d t => exact ⟨_, _, rfl, hf f hq.1, hto t hq.2⟩
  | dealloc f t => exact ⟨_, _, rfl, hf f hq.1, ht t hq.2⟩
  | ipcpDealloc f => exact ⟨_, rfl, hf f hq⟩
  | created i => exact ⟨_, rfl, C47_ipcp i hq⟩
  | announce p g => exact rfl
  | exit p => exact rfl
  | arrived d f x => exact ⟨_, rfl, hf f hq⟩
  | reply f r x => exact ⟨_, rfl, hf f hq⟩

/-- Whatever is asked and whatever allocations fail, either the request is in the buffer, and nothing is written behind it or freed that belongs to the caller,
or the call says that there is no memory and the buffer is as it was. -/
theorem C82_outcome (e : Env) (b : Buf) (q : Req) (hb : b.len ≤ b.mem.length) : ∃ r, q.ser e b = .ok r ∧
    (r.ret = 0 ∧ r.freed = [] ∧ r.buf.len ≤ b.len ∧ r.buf.mem.length = b.mem.length ∧ r.buf.mem.drop r.buf.len = b.mem.drop r.buf.len ∨ r.ret = -12 ∧ r.buf = b) := by
  rcases ser_cases e b q with h | h
  · exact ⟨_, h, .inr ⟨rfl, rfl⟩⟩
  · rw [h, finish_eq _ _ _ hb]
    refine ⟨_, rfl, ?_⟩
    split
    · rename_i hl
      left
      refine ⟨rfl, rfl, hl, ?_, ?_⟩
      · simp only [List.length_append, List.length_drop]
        omega
      · simp
    · exact .inr ⟨rfl, rfl⟩

/-- With the buffer that dev.c has, a request whose strings have up to 10000 bytes is never refused for its size. -/
theorem C82_fits (b : Buf) (q : Req) (hb : b.len ≤ b.mem.length) (hs : b.len = 10240) (hq : q.strings ≤ 10000) :
    ∃ r, q.ser ⟨true, true, true, true⟩ b = .ok r ∧ r.ret = 0 := by
  have hm : strs (msgOf q).1 = q.strings := by cases q <;> simp [strs, msgOf, Req.strings, ipcpToMsg]
  have hl := len_pack (msgOf q).1 (by omega)
  rw [ser_ok, finish_eq _ _ _ hb, if_pos (by omega)]
  exact ⟨_, rfl, rfl⟩

/-- Requests other than those about the arrival of a flow free nothing of the caller. -/
theorem C82_caller_memory_partial (e : Env) (b : Buf) (q : Req) (hb : b.len ≤ b.mem.length) (h1 : ∀ d f x, q ≠ .arrived d f x) (h2 : ∀ f r x, q ≠ .reply f r x) (r : Res)
    (hr : q.ser e b = .ok r) : r.freed = [] := by
  have hm : (msgOf q).2 = [] := by
    cases q <;> first | rfl | exact absurd rfl (h1 _ _ _) | exact absurd rfl (h2 _ _ _)
  rcases ser_cases e b q with h | h
  · rw [h] at hr
    simp only [nomem, Outcome.ok.injEq] at hr
    rw [← hr]
  · rw [h, finish_eq _ _ _ hb, Outcome.ok.injEq, hm] at hr
    rw [← hr]
    split <;> rfl

/-- The request about a flow that arrives frees the hash and the data of its caller, which go on using them, if the data do not fit in the message; so does the
answer to an allocation with its data. -/
theorem C82_caller_memory_violated (b : Buf) (hb : b.len ≤ b.mem.length) (hs : b.len = 10240) (d : Str) (f : FlowInfo) (x : Str) (hx : 10240 ≤ x.length) (v : Int32) :
    (∃ r, (Req.arrived d f x).ser ⟨true, true, true, true⟩ b = .ok r ∧ r.ret = -12 ∧ r.freed = [.dst, .data]) ∧
    (∃ r, (Req.reply f v x).ser ⟨true, true, true, true⟩ b = .ok r ∧ r.ret = -12 ∧ r.freed = [.data]) := by
  constructor
  · have h1 : (encField (22, .bytes x)).length ≤ (pack (msgOf (.arrived d f x)).1).length := by
      unfold pack
      exact mem_fields _ _ (by simp [msgOf, IrmMsg.fields, opt])
    have h2 := bytes_len 22 x
    rw [ser_ok, finish_eq _ _ _ hb, if_neg (by omega)]
    exact ⟨_, rfl, rfl, rfl⟩
  · have h1 : (encField (22, .bytes x)).length ≤ (pack (msgOf (.reply f v x)).1).length := by
      unfold pack
      exact mem_fields _ _ (by simp [msgOf, IrmMsg.fields, opt])
    have h2 := bytes_len 22 x
    rw [ser_ok, finish_eq _ _ _ hb, if_neg (by omega)]
    exact ⟨_, rfl, rfl, rfl⟩

/-- What the program is told, and the flow and key it gets, are what the daemon answered, in all cases. -/
theorem C82_result (m : IrmMsg) (b : Buf) (hb : b.mem.take b.len = pack m) (sk : Bool) (r : Int) (f : Option FlowInfo) (k : Option Str) :
    flowResult b sk = (r, f, k) ↔ Told m sk r f k := by
  unfold flowResult
  rw [hb, unpack_pack]
  constructor
  · intro h
    cases hr : m.result with
    | none =>
      simp only [hr, Prod.mk.injEq] at h
      obtain ⟨rfl, rfl, rfl⟩ := h
      exact .noResult hr
    | some v =>
      simp only [hr] at h
      split at h
      · rename_i hv
        simp only [Prod.mk.injEq] at h
        obtain ⟨rfl, rfl, rfl⟩ := h
        exact .refused v hr hv
      · rename_i hv
        cases hf : m.flow with
        | none =>
          simp only [hf, Prod.mk.injEq] at h
          obtain ⟨rfl, rfl, rfl⟩ := h
          exact .noFlow v hr (by omega) hf
        | some fl =>
          simp only [hf] at h
          split at h
          · rename_i hc
            have hc2 : (flowOfMsg fl).qs.cypherS ≠ 0 := by
              intro e
              rw [e] at hc
              exact absurd hc.1 (by decide)
            cases hk : m.key with
            | none =>
              simp only [hk, Prod.mk.injEq] at h
              obtain ⟨rfl, rfl, rfl⟩ := h
              exact .noKey v fl hr (by omega) hf hc.2 hc2 (by simp [hk])
            | some ky =>
              simp only [hk] at h
              split at h
              · rename_i he
                simp only [Prod.mk.injEq] at h
                obtain ⟨rfl, rfl, rfl⟩ := h
                exact .noKey v fl hr (by omega) hf hc.2 hc2 (by simp [hk, he])
              · rename_i he
                simp only [Prod.mk.injEq] at h
                obtain ⟨rfl, rfl, rfl⟩ := h
                exact .secret v fl ky hr (by omega) hf hc.2 hc2 hk he
          · rename_i hc
            simp only [Prod.mk.injEq] at h
            obtain ⟨rfl, rfl, rfl⟩ := h
            refine .plain v fl hr (by omega) hf ?_
            cases sk with
            | false => exact .inl rfl
            | true =>
              right
              have : ¬ 0 < (flowOfMsg fl).qs.cypherS.toNat := fun h => hc ⟨h, rfl⟩
              exact UInt16.toNat_inj.1 (by simpa using this)
  · intro h
    have hpos : ∀ x : UInt16, x ≠ 0 → 0 < x.toNat := by
      intro x hx
      rcases Nat.eq_zero_or_pos x.toNat with h | h
      · exact absurd (UInt16.toNat_inj.1 (by simpa using h)) hx
      · exact h
    cases h with
    | noResult hr => simp [hr, EIRMD]
    | refused v hr hv => simp [hr, hv]
    | noFlow v hr hv hf => simp [hr, hf, Int.not_lt.2 hv, EBADF]
    | plain v fl hr hv hf hc =>
      simp only [hr, hf, Int.not_lt.2 hv, if_false]
      rw [if_neg]
      rintro ⟨h1, h2⟩
      rcases hc with hc | hc
      · rw [hc] at h2; exact absurd h2 (by decide)
      · rw [hc] at h1; exact absurd h1 (by decide)
    | secret v fl ky hr hv hf hs hc hk he =>
      simp only [hr, hf, hk, Int.not_lt.2 hv, if_false]
      rw [if_pos ⟨hpos _ hc, hs⟩, if_neg he]
    | noKey v fl hr hv hf hs hc hk =>
      simp only [hr, hf, Int.not_lt.2 hv, if_false]
      rw [if_pos ⟨hpos _ hc, hs⟩]
      cases hk' : m.key with
      | none => simp [ECRYPT]
      | some ky =>
        rw [hk'] at hk
        simp at hk
        simp [hk, ECRYPT]

/-- An answer without a flow: the result, or -EIRMD if there is none. -/
theorem C82_plain_result (m : IrmMsg) (b : Buf) (hb : b.mem.take b.len = pack m) : irmResult b = ((m.result.map Int32.toInt).getD (-1002)) := by
  unfold irmResult
  rw [hb, unpack_pack]
  cases h : m.result <;> simp [h, EIRMD]

/-- An answer that is no message is -EIRMD; an empty one, from a daemon that ended, is none. -/
theorem C82_garbage (b : Buf) (h : unpack (b.mem.take b.len) = none) (sk : Bool) : flowResult b sk = (-1002, none, none) ∧ irmResult b = -1002 ∧ unpack [] = none := by
  refine ⟨?_, ?_, rfl⟩
  · unfold flowResult
    rw [h]
    rfl
  · unfold irmResult
    rw [h]
    rfl

/-- The whole exchange: the daemon gets the request, and the program is told the answer, for every daemon whose answers fit in the buffer. -/
theorem C82_exchange_partial (daemon : IrmMsg → IrmMsg) (q : Req) (hq : q.Ok) (hs : q.strings ≤ 10000) (hd : ∀ m, q.AsksFor m → (pack (daemon m)).length ≤ 10240)
    (b : Buf) (hb : b.mem.length = 10240) (hl : b.len = 10240) (sk : Bool) :
    ∃ r b' m ret f k, q.ser ⟨true, true, true, true⟩ b = .ok r ∧ r.ret = 0 ∧ sendRecv (fun s => (unpack s).map fun m => pack (daemon m)) r.buf = .ok (0, b') ∧ q.AsksFor m ∧
      flowResult b' sk = (ret, f, k) ∧ Told (daemon m) sk ret f k := by
  obtain ⟨r, hr, h0⟩ := C82_fits b q (by omega) hl hs
  obtain ⟨m, hm, ha⟩ := C82_request_partial _ b q hq (by omega) r hr h0
  have hlen : r.buf.mem.length = 10240 := by
    obtain ⟨r', hr', h⟩ := C82_outcome ⟨true, true, true, true⟩ b q (by omega)
    rw [hr] at hr'
    cases hr'
    rcases h with h | h
    · rw [h.2.2.2.1, hb]
    · rw [h.2, hb]
  have hfit := hd m ha
  have htake : (pack (daemon m)).take sockBuf = pack (daemon m) := List.take_of_length_le hfit
  have hsr : sendRecv (fun s => (unpack s).map fun m => pack (daemon m)) r.buf =
      .ok (0, ⟨pack (daemon m) ++ r.buf.mem.drop (pack (daemon m)).length, (pack (daemon m)).length⟩) := by
    unfold sendRecv
    simp only [hm, Option.map_some, htake]
    rw [if_pos (by omega)]
  refine ⟨r, _, m, _, _, _, hr, h0, hsr, ha, rfl, ?_⟩
  exact (C82_result (daemon m) _ (by simp) sk _ _ _).1 rfl

/-- Memory is large enough for every answer when it is that of dev.c, also if the answer is larger; a socket that fails is reported. -/
theorem C82_socket (peer : Str → Option Str) (b : Buf) (hb : b.mem.length = 10240) :
    ∃ v b', sendRecv peer b = .ok (v, b') ∧ (v < 0 ↔ peer (b.mem.take b.len) = none) ∧ b'.mem.length = 10240 := by
  unfold sendRecv
  cases h : peer (b.mem.take b.len) with
  | none => exact ⟨-1, b, rfl, by simp, hb⟩
  | some a =>
    have hl : (a.take sockBuf).length ≤ 10240 := by simp [sockBuf]
    simp only
    rw [if_pos (by omega)]
    refine ⟨_, _, rfl, by simp, ?_⟩
    simp only [List.length_append, List.length_drop]
    omega

/-- The calls of irm.h pack a message without looking at its size: one with a program of 10240 bytes or more, which comes from the command line, is written
outside the array on the stack. -/
theorem C82_overflow_violated (peer : Str → Option Str) (m : IrmMsg) (p : Str) (hm : m.prog = some p) (hp : 10240 ≤ p.length) : sendRecvIrm peer m = .ub := by
  have h1 : (encField (2, .bytes p)).length ≤ (pack m).length := by
    unfold pack
    exact mem_fields _ _ (by simp [IrmMsg.fields, opt, hm])
  have h2 := bytes_len 2 p
  unfold sendRecvIrm
  rw [if_pos (by unfold sockBuf; omega)]

/-- If both messages fit, these calls get the answer of the daemon. -/
theorem C82_irm_partial (daemon : IrmMsg → IrmMsg) (m : IrmMsg) (h1 : (pack m).length ≤ 10240) (h2 : (pack (daemon m)).length ≤ 10240) :
    sendRecvIrm (fun s => (unpack s).map fun x => pack (daemon x)) m = .ok (some (daemon m)) := by
  unfold sendRecvIrm
  rw [if_neg (by unfold sockBuf; omega)]
  simp only [unpack_pack, Option.map_some]
  rw [List.take_of_length_le (by unfold sockBuf; omega), unpack_pack]

/-- A flow. -/
def aFlow : FlowInfo := ⟨7, 1234, 99, 5, ⟨100, 1000000, 3, 1, 1, 1, 0, 256, 120000⟩, 2⟩

example : (Req.alloc aFlow [97, 98] (some ⟨5, 250000000⟩)).Ok ∧ (Req.alloc aFlow [97, 98] none).strings ≤ 10000 := by
  refine ⟨⟨⟨by decide, by decide⟩, ?_⟩, by decide⟩
  rintro x (h : some _ = some x)
  cases h
  exact ⟨by decide, by decide⟩

example : pack { code := 20, dst := some [97, 98], result := some (-3) } = [8, 20, 82, 2, 97, 98, 208, 1, 5] := by decide +kernel

example : (pack { code := 20, flow := some (flowToMsg aFlow) }).length = 40 ∧ ∃ r, (Req.ipcpDealloc aFlow).ser ⟨true, true, true, true⟩ ⟨List.replicate 50 0, 50⟩ = .ok r ∧ r.ret = 0 := by
  refine ⟨by decide +kernel, ?_⟩
  rw [ser_ok, finish_eq _ _ _ (by simp)]
  rw [if_pos (by decide +kernel)]
  exact ⟨_, rfl, rfl⟩

example : flowResult ⟨pack { code := 27, result := some 0, flow := some (flowToMsg aFlow), key := some [1, 2, 3] }, 100⟩ true = (0, some aFlow, some [1, 2, 3]) := by
  decide +kernel

end Ouro.SerdesIrm
