import Verif.Proof.Cep

/-!
# C78: connecting IPCPs tell each other who they are

The information each end has of the other is what the other sent; the ends of a connection agree on the protocol; no packet, from whomever, makes
either write outside its memory.
-/

namespace Ouro.Cep

/-- C78: what is sent is received, for all names, protocols, versions, syntaxes and addresses whose packet fits the buffer of the receiver. -/
theorem C78_roundtrip_partial (i : Info) (h : Ok i) (hf : Fits i) : ∃ p, snd i = some p ∧ rcv p = .ok (some i) :=
  ⟨pack i, snd_ok i h, rcv_pack i h hf⟩

example : Ok (unicastDt 0xffffffffffffffff) ∧ Fits (unicastDt 0xffffffffffffffff) :=
  ⟨⟨by decide +kernel, by decide +kernel, by decide +kernel, by decide +kernel, by decide +kernel⟩, by unfold Fits; decide +kernel⟩

/-- C78: the components of the code fit, for every address, also with versions that are sent as ten bytes. -/
theorem C78_fits (i : Info) (h : i.name.length + i.proto.length ≤ 80) : Fits i := by
  have len : ∀ f n, (enc f n).length ≤ f := by
    intro f
    induction f with
    | zero => intro n; simp [enc]
    | succ f ih =>
      intro n
      rw [enc]
      split
      · simp
      · simpa using ih _
  have small : ∀ n, n < 128 → (enc 5 n).length = 1 := by
    intro n hn
    rw [enc, if_pos hn]; rfl
  have h1 := len 10 (i.version.signExtend 64).toNat
  have h2 := len 10 (i.syn.signExtend 64).toNat
  have h3 := len 10 i.addr.toNat
  simp only [Fits, pack, fStr, fNum, List.length_append, bufSize]
  rw [small _ (by norm_num), small _ (by omega), small _ (by norm_num), small _ (by omega), small _ (by norm_num), small _ (by norm_num),
    small _ (by norm_num)]
  omega

example : ∀ a : BitVec 64, Fits (unicastDt a) ∧ Fits (management a) ∧ Fits enrolment ∧ Fits broadcastDt := fun a =>
  ⟨C78_fits _ (by show (unicastDt 0).name.length + (unicastDt 0).proto.length ≤ 80; decide +kernel),
    C78_fits _ (by show (management 0).name.length + (management 0).proto.length ≤ 80; decide +kernel), C78_fits _ (by decide +kernel), C78_fits _ (by decide +kernel)⟩

/-- C78: fields of later versions of the protocol are ignored: with any number of them after the known ones, what is received is the same, as long as all
fit the buffer. -/
theorem C78_extend (i : Info) (h : Ok i) (ex : List (Nat × Nat)) (hex : ∀ e ∈ ex, e.1 ∉ [1, 2, 3, 5, 8] ∧ e.1 < 2 ^ 29 ∧ e.2 < 2 ^ 64)
    (hf : (pack i ++ extra ex).length ≤ bufSize) : rcv (pack i ++ extra ex) = .ok (some i) :=
  rcv_extra i h ex hex hf

example : (pack enrolment ++ extra [(4, 1), (6, 2), (9, 12345678), (300, 7)]).length ≤ bufSize := by decide +kernel

/-- C78: whatever packet arrives, of any length and contents, nothing is written outside the two strings. -/
theorem C78_safe (pkt : List Byte) : rcv pkt ≠ .ub := by
  unfold rcv readMsg
  have hl : (pkt.take bufSize).length ≤ 126 + 2 := by rw [List.length_take]; simp [bufSize]
  split
  · simp
  · rename_i n p v s a hu
    have hs := unpack_short 126 _ hl n p v s a hu
    split
    · simp
    · have h1 := cstr_le n
      have h2 := cstr_le p
      have e1 : strcpy n = .ok (cstr n) := by unfold strcpy; exact if_pos (by unfold strLen; omega)
      have e2 : strcpy p = .ok (cstr p) := by unfold strcpy; exact if_pos (by unfold strLen; omega)
      rw [e1, e2]
      simp

/-- C78: and what is received fits, without a zero inside. -/
theorem C78_received (pkt : List Byte) (i : Info) (h : rcv pkt = .ok (some i)) :
    i.name.length ≤ strLen ∧ i.proto.length ≤ strLen ∧ (0 : Byte) ∉ i.name ∧ (0 : Byte) ∉ i.proto := by
  have nz : ∀ l : List Byte, (0 : Byte) ∉ cstr l := by
    intro l
    induction l with
    | nil => simp [cstr]
    | cons a l ih =>
      simp only [cstr, List.takeWhile_cons] at ih ⊢
      split
      · rename_i ha
        simp only [List.mem_cons, not_or]
        exact ⟨fun e => by rw [← e] at ha; simp at ha, ih⟩
      · exact List.not_mem_nil
  unfold rcv readMsg at h
  split at h
  · simp at h
  · split at h
    · simp at h
    · simp only [strcpy] at h
      split at h
      · rename_i hn hp
        split at hn <;> cases hn
        split at hp <;> cases hp
        cases h
        exact ⟨by assumption, by assumption, nz _, nz _⟩
      · cases h

example : ∃ i, rcv (pack enrolment) = .ok (some i) := ⟨enrolment, by decide +kernel⟩

/-- C78, violated: it is the size of the buffer alone that keeps the protocol from overflowing: the length of the name is checked, that of the protocol is
not, and with a buffer of 192 bytes a packet overflows it. -/
theorem C78_unchecked_violated : readMsg 192 (pack ⟨[1], List.replicate 129 1, 1, 0, 0⟩) = .ub ∧
    readMsg 192 (pack ⟨List.replicate 129 1, [1], 1, 0, 0⟩) = .ok none := by decide +kernel

/-- C78, violated: information that fits `struct conn_info` but not the buffer of the receiver is sent and refused. -/
theorem C78_long_violated : ∃ i, Ok i ∧ snd i = some (pack i) ∧ rcv (pack i) = .ok none :=
  ⟨⟨List.replicate 60 1, List.replicate 60 2, 1, 0, 0⟩,
    ⟨by decide +kernel, by decide +kernel, by decide +kernel, by decide +kernel, by decide +kernel⟩, by decide +kernel, by decide +kernel⟩

/-- C78: the end that connects has a connection exactly with the component of that name of the other end, and only if both have the same protocol, version
and syntax; it then has all the other told of itself, its address among it.  The other end has what the first told of itself. -/
theorem C78_connect_partial (mine : Info) (comps : List Info) (h : Ok mine) (hf : Fits mine) (hc : ∀ c ∈ comps, Ok c ∧ Fits c)
    (hd : comps.Pairwise (fun a b => a.name ≠ b.name)) (hp : mine.proto ≠ []) :
    ∃ here there, connect mine comps = .ok (here, there) ∧ (∀ c, here = some c ↔ c ∈ comps ∧ c.name = mine.name ∧ Same mine c) ∧
      (∀ i, there = some i ↔ i = mine ∧ ∃ c ∈ comps, c.name = mine.name) := by
  have hn : ¬ Same mine failInfo := fun hs => hp hs.1
  refine ⟨_, _, connect_eq mine comps h hf hc, ?_, ?_⟩
  · intro c
    have key := lookup_some comps hd mine.name
    cases hl : lookup comps mine.name with
    | none =>
      simp only [hn, if_false]
      constructor
      · simp
      · rintro ⟨hm, he, -⟩
        have := (key c).2 ⟨hm, he⟩
        rw [hl] at this
        cases this
    | some d =>
      have hdm := (key d).1 hl
      simp only
      constructor
      · intro he
        split at he
        · cases he
          exact ⟨hdm.1, hdm.2, by assumption⟩
        · cases he
      · rintro ⟨hm, he, hs⟩
        have := (key c).2 ⟨hm, he⟩
        rw [hl] at this
        cases this
        rw [if_pos hs]
  · intro i
    have key := lookup_some comps hd mine.name
    cases hl : lookup comps mine.name with
    | none =>
      simp only
      constructor
      · simp
      · rintro ⟨-, c, hm, he⟩
        have := (key c).2 ⟨hm, he⟩
        rw [hl] at this
        cases this
    | some d =>
      have hdm := (key d).1 hl
      simp only [Option.some.injEq]
      exact ⟨fun e => ⟨e.symm, d, hdm⟩, fun e => e.1.symm⟩

example : connect (unicastDt 7) [unicastDt 8, enrolment, management 8] = .ok (some (unicastDt 8), some (unicastDt 7)) ∧
    [unicastDt 8, enrolment, management 8].Pairwise (fun a b => a.name ≠ b.name) := by decide +kernel

/-- C78, violated: the end that answers does not look at the protocol: when they differ it has a connection and the other has none. -/
theorem C78_agree_violated : connect { unicastDt 7 with version := 2 } [unicastDt 8] = .ok (none, some { unicastDt 7 with version := 2 }) := by
  decide +kernel

/-- C78, violated: data transfer of a broadcast layer has no protocol.  The refusal of an IPCP without that component, with everything empty, is taken for
its answer: the end that connects has a connection and the other has none, whatever other components it has. -/
theorem C78_refusal_violated (comps : List Info) (hc : ∀ c ∈ comps, Ok c ∧ Fits c) (hn : ∀ c ∈ comps, c.name ≠ broadcastDt.name) :
    connect broadcastDt comps = .ok (some failInfo, none) := by
  have ho : Ok broadcastDt := ⟨by decide +kernel, by decide +kernel, by decide +kernel, by decide +kernel, by decide +kernel⟩
  have hl : lookup comps broadcastDt.name = none := by
    unfold lookup
    rw [List.find?_eq_none]
    intro c hm
    simpa using hn c hm
  rw [connect_eq _ _ ho (by unfold Fits; decide +kernel) hc, hl]
  have : Same broadcastDt failInfo := by decide +kernel
  simp [this]

example : enrolment.name ≠ broadcastDt.name ∧ Ok enrolment := ⟨by decide +kernel,
  ⟨by decide +kernel, by decide +kernel, by decide +kernel, by decide +kernel, by decide +kernel⟩⟩

end Ouro.Cep
