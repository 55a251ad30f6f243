import Verif.Proof.Pft
import Verif.Model.Pff
import Verif.Spec.NextHop
import Mathlib.Data.List.Rotate

/-!
# Lemmas for Props/Pff.lean
-/

namespace Ouro.Pff

open Ouro.Pft Spec.FiniteMap Spec.NextHop

/-- The request a call stands for. -/
def Op.req : Op → Req
  | .add a l => .add a l
  | .update a l => .update a l
  | .del a => .del a
  | .flush => .flush
  | .nhop a => .nhop a
  | .flow fd up => .flow fd up

/-- Callers pass non-empty lists (asserted in the code). -/
def Valid : Op → Prop
  | .add _ l => l ≠ []
  | .update _ l => l ≠ []
  | _ => True

instance : DecidablePred Valid := fun op => by cases op <;> unfold Valid <;> infer_instance

/-! ## Simple -/

/-- the table holds the first configured next hop -/
def RefS (p : Pft) (c : Conf) : Prop :=
  WF p ∧ (∀ a l, c a = some l → l ≠ []) ∧ ∀ a, get p a = (c a).map (fun l => ⟨a, [l.headD 0], 1⟩)

theorem refS_none {p : Pft} {c : Conf} (h : RefS p c) (a : BitVec 64) : (get p a).isSome = (c a).isSome := by
  rw [h.2.2 a]; cases c a <;> rfl

theorem refS_insert {p : Pft} {c : Conf} (h : RefS p c) (a : BitVec 64) (fd : Int) (l : List Int) :
    ∃ p' r, insert p a [fd] 1 true = .ok (p', r) ∧ (r ≠ 0 ↔ (c a).isSome) ∧
      RefS p' (if (c a).isNone then put c a (fd :: l) else c) := by
  obtain ⟨p', r, e1, w, e2, e3⟩ := insert_spec h.1 a [fd] 1 true (by decide)
  refine ⟨p', r, e1, ?_, w, ?_, ?_⟩
  · rw [e2, refS_none h]
    cases c a <;> simp [EPERM]
  · intro x l' hl
    split at hl
    · unfold put at hl
      split at hl
      · cases hl; simp
      · exact h.2.1 x l' hl
    · exact h.2.1 x l' hl
  · intro x
    rw [e3, h.2.2 a]
    cases hc : c a with
    | some l' => simpa [hc] using h.2.2 x
    | none =>
      simp only [Option.map_none, Option.isNone_none, and_self, if_true, put]
      split
      · rename_i e; subst e; rfl
      · exact h.2.2 x

theorem refS_delete {p : Pft} {c : Conf} (h : RefS p c) (a : BitVec 64) :
    ∃ p' r, delete p a = .ok (p', r) ∧ (r ≠ 0 ↔ ¬ (c a).isSome) ∧ RefS p' (remove c a) := by
  obtain ⟨p', r, e1, w, e2, e3⟩ := delete_spec h.1 a
  refine ⟨p', r, e1, ?_, w, ?_, ?_⟩
  · rw [e2, refS_none h]
    cases c a <;> simp
  · intro x l hl
    unfold remove at hl
    split at hl
    · cases hl
    · exact h.2.1 x l hl
  · intro x
    rw [e3]
    unfold remove
    split
    · rfl
    · exact h.2.2 x

theorem simple_step {p : Pft} {c : Conf} (h : RefS p c) (op : Op) (hv : Valid op) :
    ∃ p', Simple.step p op = .ok (p', simpleRet c op.req) ∧ RefS p' (confStep c op.req) := by
  cases op with
  | add a l =>
    cases l with
    | nil => exact absurd rfl hv
    | cons fd l =>
      obtain ⟨p', r, e1, e2, h'⟩ := refS_insert h a fd l
      refine ⟨p', ?_, h'⟩
      simp only [Simple.step, Simple.add, e1, Outcome.bind_ok, Outcome.pure_eq, Op.req, simpleRet, confRet]
      cases hc : c a <;> simp_all
  | update a l =>
    cases l with
    | nil => exact absurd rfl hv
    | cons fd l =>
      obtain ⟨p1, r1, e1, e2, h1⟩ := refS_delete h a
      obtain ⟨p2, r2, e3, e4, h2⟩ := refS_insert h1 a fd l
      have hra : remove c a a = none := by simp [remove]
      rw [hra] at e4 h2
      have hput : put (remove c a) a (fd :: l) = put c a (fd :: l) := by
        funext x; unfold put remove; split <;> rfl
      simp only [Option.isNone_none, if_true, hput] at h2
      simp only [Simple.step, Simple.update, e1, Outcome.bind_ok, Outcome.pure_eq, Op.req, simpleRet, confRet, confStep]
      cases hc : c a with
      | none =>
        have : r1 ≠ 0 := by rw [e2, hc]; simp
        rw [if_pos this]
        refine ⟨p1, rfl, ?_⟩
        have hrem : remove c a = c := by
          funext x; unfold remove; split
          · rename_i e; subst e; exact hc.symm
          · rfl
        rw [hrem] at h1
        simpa using h1
      | some l' =>
        have : ¬ r1 ≠ 0 := by rw [e2, hc]; simp
        rw [if_neg this, e3]
        have : ¬ r2 ≠ 0 := by rw [e4]; simp
        refine ⟨p2, ?_, by simpa using h2⟩
        simp only [Outcome.bind_ok]
        rw [if_neg this]; rfl
  | del a =>
    obtain ⟨p', r, e1, e2, h'⟩ := refS_delete h a
    refine ⟨p', ?_, h'⟩
    simp only [Simple.step, Simple.del, e1, Outcome.bind_ok, Outcome.pure_eq, Op.req, simpleRet, confRet]
    cases hc : c a <;> simp_all
  | flush =>
    obtain ⟨w, e⟩ := flush_spec h.1
    refine ⟨flush p, rfl, w, ?_, ?_⟩
    · intro a l hl; cases hl
    · intro a; rw [e]; rfl
  | nhop a =>
    refine ⟨p, ?_, h⟩
    simp only [Simple.step, Simple.nhop, lookup_eq h.1, Outcome.bind_ok, Outcome.pure_eq, Op.req, simpleRet]
    rw [h.2.2 a]
    cases hc : c a with
    | none => rfl
    | some l =>
      cases l with
      | nil => exact absurd rfl (h.2.1 a [] hc)
      | cons fd l => rfl
  | flow fd up => exact ⟨p, rfl, h⟩

/-! ## Multipath -/

/-- The table holds the configured list, rotated by the number of lookups. -/
def RefM (p : Pft) (c : MConf) : Prop :=
  WF p ∧ (∀ a l n, c a = some (l, n) → l ≠ []) ∧ ∀ a, get p a = (c a).map (fun q => ⟨a, q.1.rotate q.2, q.1.length⟩)

/-- What the code can take: in addition, `update` only with a single next hop. -/
def ValidM : Op → Prop
  | .add _ l => l ≠ []
  | .update _ l => l.length = 1
  | _ => True

instance : DecidablePred ValidM := fun op => by cases op <;> unfold ValidM <;> infer_instance

theorem refM_isSome {p : Pft} {c : MConf} (h : RefM p c) (a : BitVec 64) : (get p a).isSome = (c a).isSome := by
  rw [h.2.2 a]; cases c a <;> rfl

theorem refM_insert {p : Pft} {c : MConf} (h : RefM p c) (a : BitVec 64) (l : List Int) (hl : l ≠ []) :
    ∃ p' r, insert p a l l.length true = .ok (p', r) ∧ (r ≠ 0 ↔ (c a).isSome) ∧
      RefM p' (if (c a).isNone then put c a (l, 0) else c) := by
  obtain ⟨p', r, e1, w, e2, e3⟩ := insert_spec h.1 a l l.length true (by simpa using hl)
  refine ⟨p', r, e1, ?_, w, ?_, ?_⟩
  · rw [e2, refM_isSome h]
    cases c a <;> simp [EPERM]
  · intro x l' n hx
    split at hx
    · unfold put at hx
      split at hx
      · cases hx; exact hl
      · exact h.2.1 x l' n hx
    · exact h.2.1 x l' n hx
  · intro x
    rw [e3, h.2.2 a]
    cases hc : c a with
    | some l' => simpa [hc] using h.2.2 x
    | none =>
      simp only [Option.map_none, Option.isNone_none, and_self, if_true, put]
      split
      · rename_i e; subst e; simp
      · exact h.2.2 x

theorem refM_delete {p : Pft} {c : MConf} (h : RefM p c) (a : BitVec 64) :
    ∃ p' r, delete p a = .ok (p', r) ∧ (r ≠ 0 ↔ ¬ (c a).isSome) ∧ RefM p' (remove c a) := by
  obtain ⟨p', r, e1, w, e2, e3⟩ := delete_spec h.1 a
  refine ⟨p', r, e1, ?_, w, ?_, ?_⟩
  · rw [e2, refM_isSome h]
    cases c a <;> simp
  · intro x l n hl
    unfold remove at hl
    split at hl
    · cases hl
    · exact h.2.1 x l n hl
  · intro x
    rw [e3]
    unfold remove
    split
    · rfl
    · exact h.2.2 x

theorem remove_none {α : Type} {c : Map (BitVec 64) α} {a : BitVec 64} (hc : c a = none) : remove c a = c := by
  funext x; unfold remove; split
  · rename_i e; subst e; exact hc.symm
  · rfl

theorem put_remove {α : Type} (c : Map (BitVec 64) α) (a : BitVec 64) (v : α) : put (remove c a) a v = put c a v := by
  funext x; unfold put remove; split <;> rfl

theorem rotate_eq (l : List Int) : Multipath.rotate l = l.rotate 1 := by
  cases l with
  | nil => rfl
  | cons x l => simp [Multipath.rotate]

theorem multi_step {p : Pft} {c : MConf} (h : RefM p c) (op : Op) (hv : ValidM op) :
    ∃ p', Multipath.step p op = .ok (p', (multiStep c op.req).2) ∧ RefM p' (multiStep c op.req).1 := by
  cases op with
  | add a l =>
    obtain ⟨p', r, e1, e2, h'⟩ := refM_insert h a l hv
    cases l with
    | nil => exact absurd rfl hv
    | cons fd l =>
      simp only [Multipath.step, Multipath.add, e1, Outcome.bind_ok, Outcome.pure_eq, Op.req, multiStep]
      cases hc : c a with
      | none => simp_all
      | some q => simp_all
  | update a l =>
    match l, hv with
    | [fd], _ =>
      obtain ⟨p1, r1, e1, e2, h1⟩ := refM_delete h a
      obtain ⟨p2, r2, e3, e4, h2⟩ := refM_insert h1 a [fd] (by simp)
      have hra : remove c a a = none := by simp [remove]
      rw [hra] at e4 h2
      simp only [Option.isNone_none, if_true, put_remove] at h2
      simp only [Multipath.step, Multipath.update, e1, Outcome.bind_ok, Outcome.pure_eq, Op.req, multiStep]
      cases hc : c a with
      | none =>
        have : r1 ≠ 0 := by rw [e2, hc]; simp
        rw [if_pos this]
        rw [remove_none hc] at h1
        exact ⟨p1, rfl, h1⟩
      | some q =>
        have : ¬ r1 ≠ 0 := by rw [e2, hc]; simp
        rw [if_neg this]
        have e3' : insert p1 a [fd] 1 true = .ok (p2, r2) := e3
        rw [e3']
        have : ¬ r2 ≠ 0 := by rw [e4]; simp
        refine ⟨p2, ?_, h2⟩
        simp only [Outcome.bind_ok]
        rw [if_neg this]
  | del a =>
    obtain ⟨p', r, e1, e2, h'⟩ := refM_delete h a
    simp only [Multipath.step, Simple.del, e1, Outcome.bind_ok, Outcome.pure_eq, Op.req, multiStep]
    cases hc : c a with
    | none => rw [remove_none hc] at h'; simp_all
    | some q => simp_all
  | flush =>
    obtain ⟨w, e⟩ := flush_spec h.1
    refine ⟨flush p, rfl, w, ?_, ?_⟩
    · intro a l n hl; cases hl
    · intro a; rw [e]; rfl
  | nhop a =>
    simp only [Multipath.step, Multipath.nhop, lookup_eq h.1, Outcome.bind_ok, Outcome.pure_eq, Op.req, multiStep]
    rw [h.2.2 a]
    cases hc : c a with
    | none => exact ⟨p, rfl, h⟩
    | some q =>
      obtain ⟨l, n⟩ := q
      have hl := h.2.1 a l n hc
      have hpos : 0 < l.length := List.length_pos_iff.mpr hl
      obtain ⟨p', e1, w, e2⟩ := modify_spec h.1 a Multipath.rotate
      have e0 : rd (l.rotate n) 0 = .ok (l.getD (n % l.length) (-1)) := by
        have hm : n % l.length < l.length := Nat.mod_lt _ hpos
        rw [rd_ok (by rw [List.length_rotate]; exact hpos), List.getElem_rotate, List.getD_eq_getElem _ _ hm]
        simp
      simp only [Option.map_some, e0, Outcome.bind_ok, e1]
      refine ⟨p', rfl, w, ?_, ?_⟩
      · intro x l' n' hx
        unfold put at hx
        split at hx
        · cases hx; exact hl
        · exact h.2.1 x l' n' hx
      · intro x
        rw [e2]
        unfold put
        split
        · rename_i e; subst e
          rw [h.2.2 x, hc]
          simp [rotate_eq, List.rotate_rotate]
        · rename_i hne
          simp only [if_neg hne]
          exact h.2.2 x
  | flow fd up => exact ⟨p, rfl, h⟩

/-! ## Alternate -/

/-- The table holds a reordering of the configured list, and behind it the primary; the bookkeeping lists agree with the history. -/
structure RefA (s : Alternate.State) (c : Conf) (d : Int → Nat) : Prop where
  wf : WF s.pft
  ne : ∀ a l, c a = some l → l ≠ []
  none : ∀ a, c a = .none → get s.pft a = .none
  some : ∀ a l, c a = .some l → ∃ q, get s.pft a = .some ⟨a, q ++ [l.headD 0], l.length⟩ ∧ q.Perm l
  nodup : s.addrs.Nodup
  addrs : ∀ a, a ∈ s.addrs ↔ (c a).isSome
  down : ∀ x, s.down.count x = d x

theorem refA_isSome {s : Alternate.State} {c : Conf} {d : Int → Nat} (h : RefA s c d) (a : BitVec 64) :
    (get s.pft a).isSome = (c a).isSome := by
  cases hc : c a with
  | none => rw [h.none a hc]; rfl
  | some l => obtain ⟨q, e, _⟩ := h.some a l hc; rw [e]; rfl

theorem swap0_append (q : List Int) (x : Int) (i : Nat) (hi : i < q.length) :
    Alternate.swap0 (q ++ [x]) i = Alternate.swap0 q i ++ [x] := by
  unfold Alternate.swap0
  have h0 : 0 < q.length := by omega
  rw [List.getD_eq_getElem?_getD, List.getD_eq_getElem?_getD, List.getD_eq_getElem?_getD, List.getD_eq_getElem?_getD]
  rw [List.getElem?_append_left hi, List.getElem?_append_left h0]
  rw [List.set_append_left _ _ h0, List.set_append_left _ _ (by rw [List.length_set]; exact hi)]

theorem swap0_perm (q : List Int) (i : Nat) (hi : i < q.length) : (Alternate.swap0 q i).Perm q := by
  unfold Alternate.swap0
  have h0 : 0 < q.length := by omega
  rw [List.getD_eq_getElem _ _ hi, List.getD_eq_getElem _ _ h0]
  exact List.set_set_perm h0 hi

theorem swap0_head (q : List Int) (i : Nat) (hi : i < q.length) : (Alternate.swap0 q i).getD 0 0 = q.getD i 0 := by
  unfold Alternate.swap0
  have h0 : 0 < q.length := by omega
  by_cases hz : i = 0
  · subst hz
    rw [List.getD_eq_getElem _ _ (by simp; exact h0)]
    simp
  · rw [List.getD_eq_getElem _ _ (by simp; exact h0), List.getElem_set, if_neg hz]
    simp

/-- effect of "up" on an array -/
theorem onUp_spec (q l : List Int) (fd : Int) (hq : q.Perm l) (hl : l ≠ []) :
    ∃ q', Alternate.onUp l.length fd (q ++ [l.headD 0]) = q' ++ [l.headD 0] ∧ q'.Perm l ∧
      (l.headD 0 = fd → q'.getD 0 0 = fd) ∧ (l.headD 0 ≠ fd → q'.getD 0 0 = q.getD 0 0) := by
  have hlen : q.length = l.length := hq.length_eq
  have hpos : 0 < l.length := List.length_pos_iff.mpr hl
  have e1 : (q ++ [l.headD 0]).getD l.length 0 = l.headD 0 := by
    rw [List.getD_eq_getElem _ _ (by simp [hlen]), List.getElem_append_right (by omega)]
    simp
  have e2 : ∀ i, i < l.length → (q ++ [l.headD 0]).getD i 0 = q.getD i 0 := by
    intro i hi
    rw [List.getD_eq_getElem _ _ (by simp; omega), List.getElem_append_left (by omega), List.getD_eq_getElem _ _ (by omega)]
  unfold Alternate.onUp
  rw [e1, e2 0 hpos]
  by_cases hc : l.headD 0 = fd ∧ q.getD 0 0 ≠ fd
  · rw [if_pos hc]
    have hmem : fd ∈ q := by
      rw [hq.mem_iff, ← hc.1]
      cases l with
      | nil => exact absurd rfl hl
      | cons x l => simp
    cases hf : (List.range l.length).find? (fun i => (q ++ [l.headD 0]).getD i 0 == fd) with
    | none =>
      exfalso
      rw [List.find?_eq_none] at hf
      obtain ⟨i, hi, e⟩ := List.getElem_of_mem hmem
      have := hf i (by simp; omega)
      rw [e2 i (by omega), List.getD_eq_getElem _ _ hi] at this
      simp [e] at this
    | some i =>
      have hi : i < l.length := by simpa using List.mem_of_find?_eq_some hf
      have hv := List.find?_some hf
      simp only [beq_iff_eq] at hv
      rw [e2 i hi] at hv
      refine ⟨Alternate.swap0 q i, swap0_append _ _ _ (by omega), (swap0_perm q i (by omega)).trans hq, ?_, ?_⟩
      · intro _; rw [swap0_head _ _ (by omega), hv]
      · intro h; exact absurd hc.1 h
  · rw [if_neg hc]
    refine ⟨q, rfl, hq, ?_, fun _ => rfl⟩
    intro h
    by_contra h2
    exact hc ⟨h, h2⟩

/-- effect of "down" on an array -/
theorem onDown_spec (q l : List Int) (down : List Int) (fd : Int) (hq : q.Perm l) (hl : l ≠ []) (hfd : fd ∈ down) :
    ∃ q', Alternate.onDown down l.length fd (q ++ [l.headD 0]) = q' ++ [l.headD 0] ∧ q'.Perm l ∧
      (q.getD 0 0 ≠ fd → q'.getD 0 0 = q.getD 0 0) ∧
      (q.getD 0 0 = fd → q'.getD 0 0 ∉ down ∨ ((∀ x ∈ l, x ∈ down) ∧ q'.getD 0 0 = fd)) := by
  have hlen : q.length = l.length := hq.length_eq
  have hpos : 0 < l.length := List.length_pos_iff.mpr hl
  have e2 : ∀ i, i < l.length → (q ++ [l.headD 0]).getD i 0 = q.getD i 0 := by
    intro i hi
    rw [List.getD_eq_getElem _ _ (by simp; omega), List.getElem_append_left (by omega), List.getD_eq_getElem _ _ (by omega)]
  unfold Alternate.onDown
  rw [e2 0 hpos]
  by_cases hc : q.getD 0 0 = fd
  · rw [if_pos hc]
    cases hf : (List.range' 1 (l.length - 1)).find? (fun i => !down.contains ((q ++ [l.headD 0]).getD i 0)) with
    | none =>
      refine ⟨q, rfl, hq, fun h => absurd hc h, fun _ => Or.inr ⟨?_, hc⟩⟩
      rw [List.find?_eq_none] at hf
      intro x hx
      rw [← hq.mem_iff] at hx
      obtain ⟨i, hi, rfl⟩ := List.getElem_of_mem hx
      by_cases hz : i = 0
      · subst hz
        rw [List.getD_eq_getElem _ _ hi] at hc
        rw [hc]; exact hfd
      · have := hf i (by rw [List.mem_range'_1]; omega)
        rw [e2 i (by omega), List.getD_eq_getElem _ _ hi] at this
        simpa using this
    | some i =>
      have hi := List.mem_of_find?_eq_some hf
      rw [List.mem_range'_1] at hi
      have hv := List.find?_some hf
      rw [e2 i (by omega)] at hv
      refine ⟨Alternate.swap0 q i, swap0_append _ _ _ (by omega), (swap0_perm q i (by omega)).trans hq, fun h => absurd hc h,
        fun _ => Or.inl ?_⟩
      rw [swap0_head _ _ (by omega)]
      simpa using hv
  · rw [if_neg hc]
    exact ⟨q, rfl, hq, fun _ => rfl, fun h => absurd h hc⟩

theorem loop_spec (down : List Int) (fd : Int) (up : Bool) (as : List (BitVec 64)) (p : Pft) (hw : WF p) (hn : as.Nodup)
    (hs : ∀ a ∈ as, (get p a).isSome) :
    ∃ p', Alternate.loop p down fd up as = .ok (p', 0) ∧ WF p' ∧
      get p' = fun x => if x ∈ as then
        (get p x).map (fun e => { e with fds := (if up then Alternate.onUp e.len fd else Alternate.onDown down e.len fd) e.fds })
        else get p x := by
  induction as generalizing p with
  | nil => exact ⟨p, rfl, hw, by funext x; simp⟩
  | cons a as ih =>
    obtain ⟨hna, hn'⟩ := List.nodup_cons.mp hn
    cases hg : get p a with
    | none => have := hs a (by simp); rw [hg] at this; cases this
    | some e =>
      obtain ⟨p1, e1, w1, g1⟩ := modify_spec hw a (if up then Alternate.onUp e.len fd else Alternate.onDown down e.len fd)
      have hs1 : ∀ b ∈ as, (get p1 b).isSome := by
        intro b hb
        have hab : b ≠ a := fun e => hna (e ▸ hb)
        rw [g1]
        simp only [if_neg hab]
        exact hs b (by simp [hb])
      obtain ⟨p2, e2, w2, g2⟩ := ih p1 w1 hn' hs1
      refine ⟨p2, ?_, w2, ?_⟩
      · simp only [Alternate.loop, lookup_eq hw, Outcome.bind_ok, hg, e1, e2]
      · rw [g2]
        funext x
        by_cases hx : x = a
        · subst hx
          rw [if_neg hna, if_pos (by simp), g1]
          simp [hg]
        · have hg1 : get p1 x = get p x := by rw [g1]; simp [hx]
          rw [hg1]
          by_cases hm : x ∈ as <;> simp [hm, hx]

theorem refA_addToPft {p : Pft} (hw : WF p) (a : BitVec 64) (fd : Int) (l : List Int) :
    ∃ p', Alternate.addToPft p a (fd :: l) = .ok (p', if (get p a).isSome then -1 else 0) ∧ WF p' ∧
      get p' = if (get p a).isNone then put (get p) a ⟨a, fd :: l ++ [fd], (fd :: l).length⟩ else get p := by
  obtain ⟨p', r, e1, w, e2, e3⟩ := insert_spec hw a (fd :: l ++ [fd]) (fd :: l).length true (by simp)
  refine ⟨p', ?_, w, ?_⟩
  · simp only [Alternate.addToPft, e1, Outcome.bind_ok, Outcome.pure_eq]
    rw [e2]
    cases get p a <;> simp [EPERM]
  · rw [e3]; simp

/-- effect of one "down"/"up" report on every destination, for reachable states -/
theorem flow_spec {s : Alternate.State} {c : Conf} {d : Int → Nat} (h : RefA s c d) (fd : Int) (up : Bool)
    (hup : up = true → 0 < d fd) :
    ∃ s', Alternate.flow s fd up = .ok (s', 0) ∧ RefA s' c (downStep d (.flow fd up)) ∧
      ∀ a l, c a = .some l → ∃ x x', Alternate.nhop s a = .ok x ∧ Alternate.nhop s' a = .ok x' ∧ x ∈ l ∧ x' ∈ l ∧
        (up = true → (l.head? = .some fd → x' = fd) ∧ (l.head? ≠ .some fd → x' = x)) ∧
        (up = false → (x ≠ fd → x' = x) ∧
          (x = fd → downStep d (.flow fd false) x' = 0 ∨
            ((∀ y ∈ l, 0 < downStep d (.flow fd false) y) ∧ x' = fd))) := by
  have hcond : ¬ (up = true ∧ fd ∉ s.down) := by
    rintro ⟨h1, h2⟩
    have := hup h1
    rw [← h.down fd] at this
    exact h2 (List.count_pos_iff.mp this)
  have hdown : ∀ x, (if up = true then s.down.erase fd else fd :: s.down).count x = downStep d (.flow fd up) x := by
    intro x
    cases up with
    | true =>
      simp only [if_true, downStep, List.count_erase, h.down]
      by_cases hx : x = fd
      · subst hx; simp
      · have : (fd == x) = false := by simpa using fun e => hx e.symm
        simp [hx, this]
    | false =>
      simp only [Bool.false_eq_true, if_false, downStep, List.count_cons, h.down]
      by_cases hx : x = fd
      · subst hx; simp
      · have : (fd == x) = false := by simpa using fun e => hx e.symm
        simp [hx, this]
  have hs : ∀ a ∈ s.addrs, (get s.pft a).isSome := by
    intro a ha
    rw [refA_isSome h]; exact (h.addrs a).mp ha
  obtain ⟨p', e, w, g⟩ := loop_spec (if up = true then s.down.erase fd else fd :: s.down) fd up s.addrs s.pft h.wf h.nodup hs
  -- the array of every configured destination
  have hq : ∀ a l, c a = .some l → ∃ q q', get s.pft a = .some ⟨a, q ++ [l.headD 0], l.length⟩ ∧ q.Perm l ∧
      get p' a = .some ⟨a, q' ++ [l.headD 0], l.length⟩ ∧ q'.Perm l ∧
      (up = true → (l.headD 0 = fd → q'.getD 0 0 = fd) ∧ (l.headD 0 ≠ fd → q'.getD 0 0 = q.getD 0 0)) ∧
      (up = false → (q.getD 0 0 ≠ fd → q'.getD 0 0 = q.getD 0 0) ∧
        (q.getD 0 0 = fd → q'.getD 0 0 ∉ fd :: s.down ∨ ((∀ x ∈ l, x ∈ fd :: s.down) ∧ q'.getD 0 0 = fd))) := by
    intro a l hc
    obtain ⟨q, eq, hp⟩ := h.some a l hc
    have hl := h.ne a l hc
    have ha : a ∈ s.addrs := by rw [h.addrs, hc]; rfl
    cases up with
    | true =>
      obtain ⟨q', e1, e2, e3, e4⟩ := onUp_spec q l fd hp hl
      refine ⟨q, q', eq, hp, ?_, e2, fun _ => ⟨e3, e4⟩, by simp⟩
      rw [g]
      simp only [if_pos ha, eq, Option.map_some, if_true, e1]
    | false =>
      obtain ⟨q', e1, e2, e3, e4⟩ := onDown_spec q l (fd :: s.down) fd hp hl (by simp)
      refine ⟨q, q', eq, hp, ?_, e2, by simp, fun _ => ⟨e3, e4⟩⟩
      rw [g]
      simp only [if_pos ha, eq, Option.map_some, Bool.false_eq_true, if_false, e1]
  refine ⟨{ s with pft := p', down := if up = true then s.down.erase fd else fd :: s.down }, ?_, ?_, ?_⟩
  · unfold Alternate.flow
    rw [if_neg hcond]
    simp only [e, Outcome.bind_ok, Outcome.pure_eq]
  · refine ⟨w, h.ne, ?_, ?_, h.nodup, h.addrs, hdown⟩
    · intro a hc
      rw [g]
      have : a ∉ s.addrs := by rw [h.addrs, hc]; simp
      simp only [if_neg this]
      exact h.none a hc
    · intro a l hc
      obtain ⟨q, q', _, _, e3, e4, _⟩ := hq a l hc
      exact ⟨q', e3, e4⟩
  · intro a l hc
    obtain ⟨q, q', e1, e2, e3, e4, e5, e6⟩ := hq a l hc
    have hl := h.ne a l hc
    have hpos : 0 < l.length := List.length_pos_iff.mpr hl
    have hrd : ∀ q : List Int, q.Perm l → rd (q ++ [l.headD 0]) 0 = .ok (q.getD 0 0) ∧ q.getD 0 0 ∈ l := by
      intro q hp
      have hlen := hp.length_eq
      have h0 : 0 < q.length := by omega
      refine ⟨?_, ?_⟩
      · rw [rd_ok (by simp), List.getElem_append_left h0, List.getD_eq_getElem _ _ h0]
      · rw [← hp.mem_iff, List.getD_eq_getElem _ _ h0]; exact List.getElem_mem _
    have hn1 : Alternate.nhop s a = .ok (q.getD 0 0) := by
      simp only [Alternate.nhop, lookup_eq h.wf, e1, Outcome.bind_ok]
      exact (hrd q e2).1
    have hhead : l.head? = .some (l.headD 0) := by
      cases l with
      | nil => exact absurd rfl hl
      | cons x l => rfl
    refine ⟨q.getD 0 0, q'.getD 0 0, hn1, ?_, (hrd q e2).2, (hrd q' e4).2, ?_, ?_⟩
    · simp only [Alternate.nhop, lookup_eq w, e3, Outcome.bind_ok]
      exact (hrd q' e4).1
    · intro hu
      obtain ⟨a1, a2⟩ := e5 hu
      rw [hhead]
      exact ⟨fun h => a1 (Option.some.inj h), fun h => a2 (fun e => h (by rw [e]))⟩
    · intro hu
      subst hu
      obtain ⟨a1, a2⟩ := e6 rfl
      simp only [Bool.false_eq_true, if_false] at hdown
      refine ⟨a1, fun hx => ?_⟩
      rcases a2 hx with h1 | h1
      · left; rw [← hdown]; exact List.count_eq_zero_of_not_mem h1
      · right
        refine ⟨?_, h1.2⟩
        intro y hy
        rw [← hdown]
        exact List.count_pos_iff.mpr (h1.1 y hy)

/-- every call keeps the refinement -/
theorem alt_step {s : Alternate.State} {c : Conf} {d : Int → Nat} (h : RefA s c d) (op : Op) (hv : Valid op) :
    ∃ s' r, Alternate.step s op = .ok (s', r) ∧ RefA s' (confStep c op.req) (downStep d op.req) ∧
      (∀ a, op = .nhop a → (c a = .none → r = -1) ∧ (∀ l, c a = .some l → r ∈ l)) := by
  cases op with
  | add a l =>
    cases l with
    | nil => exact absurd rfl hv
    | cons fd l =>
      obtain ⟨p', e, w, g⟩ := refA_addToPft h.wf a fd l
      rw [refA_isSome h] at e
      cases hc : c a with
      | some l' =>
        rw [hc] at e
        have hgs : (get s.pft a).isNone = false := by
          have := refA_isSome h a; rw [hc] at this
          cases hg : get s.pft a with
          | none => rw [hg] at this; cases this
          | some _ => rfl
        rw [hgs] at g
        refine ⟨{ s with pft := p' }, -1, by simp [Alternate.step, Alternate.add, e], ?_, by intro b hb; cases hb⟩
        simp only [Op.req, confStep, hc, downStep, Option.isNone_some, Bool.false_eq_true, if_false] at g ⊢
        exact ⟨w, h.ne, by rw [g]; exact h.none, by rw [g]; exact h.some, h.nodup, h.addrs, h.down⟩
      | none =>
        rw [hc] at e
        rw [h.none a hc] at g
        refine ⟨{ s with pft := p', addrs := a :: s.addrs }, 0, by simp [Alternate.step, Alternate.add, e], ?_, by intro b hb; cases hb⟩
        simp only [Op.req, confStep, hc, downStep, Option.isNone_none, if_true] at g ⊢
        refine ⟨w, ?_, ?_, ?_, ?_, ?_, h.down⟩
        · intro x l' hx
          unfold put at hx
          split at hx
          · cases hx; simp
          · exact h.ne x l' hx
        · intro x hx
          rw [g]
          unfold put at hx ⊢
          split at hx
          · cases hx
          · rename_i hne; rw [if_neg hne]; exact h.none x hx
        · intro x l' hx
          rw [g]
          unfold put at hx ⊢
          split at hx
          · rename_i he; subst he
            cases hx
            rw [if_pos rfl]
            exact ⟨_, rfl, List.Perm.refl _⟩
          · rename_i hne; rw [if_neg hne]; exact h.some x l' hx
        · refine List.nodup_cons.mpr ⟨?_, h.nodup⟩
          rw [h.addrs, hc]; simp
        · intro x
          unfold put
          simp only [List.mem_cons, h.addrs]
          by_cases hx : x = a
          · simp [hx]
          · simp [hx]
  | update a l =>
    cases l with
    | nil => exact absurd rfl hv
    | cons fd l =>
      obtain ⟨p1, r1, e1, w1, e2, g1⟩ := delete_spec h.wf a
      rw [refA_isSome h] at e2
      cases hc : c a with
      | none =>
        rw [hc] at e2
        simp at e2
        rw [remove_none (h.none a hc)] at g1
        refine ⟨{ s with pft := p1 }, -1, by simp [Alternate.step, Alternate.update, e1, e2], ?_, by intro b hb; cases hb⟩
        simp only [Op.req, confStep, hc, downStep, Option.isSome_none, Bool.false_eq_true, if_false]
        exact ⟨w1, h.ne, by rw [g1]; exact h.none, by rw [g1]; exact h.some, h.nodup, h.addrs, h.down⟩
      | some l' =>
        rw [hc] at e2
        simp at e2
        obtain ⟨p2, e3, w2, g2⟩ := refA_addToPft w1 a fd l
        have hg1 : get p1 a = .none := by rw [g1]; simp [remove]
        rw [hg1] at e3 g2
        simp only [Option.isNone_none, if_true, g1, put_remove] at g2
        refine ⟨{ s with pft := p2 }, 0, by simp [Alternate.step, Alternate.update, e1, e2, e3], ?_, by intro b hb; cases hb⟩
        simp only [Op.req, confStep, hc, downStep, Option.isSome_some, if_true]
        refine ⟨w2, ?_, ?_, ?_, h.nodup, ?_, h.down⟩
        · intro x l' hx
          unfold put at hx
          split at hx
          · cases hx; simp
          · exact h.ne x l' hx
        · intro x hx
          rw [g2]
          unfold put at hx ⊢
          split at hx
          · cases hx
          · rename_i hne; rw [if_neg hne]; exact h.none x hx
        · intro x l' hx
          rw [g2]
          unfold put at hx ⊢
          split at hx
          · rename_i he; subst he
            cases hx
            rw [if_pos rfl]
            exact ⟨_, rfl, List.Perm.refl _⟩
          · rename_i hne; rw [if_neg hne]; exact h.some x l' hx
        · intro x
          unfold put
          rw [h.addrs]
          by_cases hx : x = a
          · simp [hx, hc]
          · simp [hx]
  | del a =>
    obtain ⟨p1, r1, e1, w1, e2, g1⟩ := delete_spec h.wf a
    refine ⟨_, _, by simp only [Alternate.step, Alternate.del, e1, Outcome.bind_ok, Outcome.pure_eq]; rfl, ?_,
      by intro b hb; cases hb⟩
    simp only [Op.req, confStep, downStep]
    refine ⟨w1, ?_, ?_, ?_, h.nodup.erase a, ?_, h.down⟩
    · intro x l hx
      unfold remove at hx
      split at hx
      · cases hx
      · exact h.ne x l hx
    · intro x hx
      rw [g1]
      unfold remove at hx ⊢
      split
      · rfl
      · rename_i hne; rw [if_neg hne] at hx; exact h.none x hx
    · intro x l hx
      rw [g1]
      unfold remove at hx ⊢
      split at hx
      · cases hx
      · rename_i hne; rw [if_neg hne]; exact h.some x l hx
    · intro x
      rw [h.nodup.mem_erase_iff, h.addrs]
      unfold remove
      by_cases hx : x = a
      · simp [hx]
      · simp [hx]
  | flush =>
    obtain ⟨w, e⟩ := flush_spec h.wf
    refine ⟨Alternate.flush s, 0, rfl, ?_, by intro b hb; cases hb⟩
    refine ⟨w, ?_, ?_, ?_, List.nodup_nil, ?_, ?_⟩
    · intro a l hl; cases hl
    · intro a _; simp only [Alternate.flush, e]; rfl
    · intro a l hl; cases hl
    · intro a; simp [Alternate.flush, Op.req, confStep, empty]
    · intro x; simp [Alternate.flush, Op.req, downStep]
  | nhop a =>
    cases hc : c a with
    | none =>
      refine ⟨s, -1, ?_, h, ?_⟩
      · simp [Alternate.step, Alternate.nhop, lookup_eq h.wf, h.none a hc]
      · intro b hb; cases hb; rw [hc]; exact ⟨fun _ => rfl, by intro l hl; cases hl⟩
    | some l =>
      obtain ⟨q, e, hp⟩ := h.some a l hc
      have hl := h.ne a l hc
      have hlen := hp.length_eq
      have hpos : 0 < l.length := List.length_pos_iff.mpr hl
      have h0 : 0 < q.length := by omega
      refine ⟨s, q[0], ?_, h, ?_⟩
      · simp only [Alternate.step, Alternate.nhop, lookup_eq h.wf, e, Outcome.bind_ok, Outcome.pure_eq]
        rw [rd_ok (by simp), List.getElem_append_left h0]
        rfl
      · intro b hb; cases hb; rw [hc]
        refine ⟨(by intro h; cases h), ?_⟩
        intro l' hl'
        cases hl'
        rw [← hp.mem_iff]; exact List.getElem_mem _
  | flow fd up =>
    by_cases hup : up = true ∧ d fd = 0
    · refine ⟨s, -1, ?_, ?_, by intro b hb; cases hb⟩
      · have : fd ∉ s.down := by
          rw [← List.count_eq_zero, h.down]; exact hup.2
        simp [Alternate.step, Alternate.flow, hup.1, this]
      · obtain ⟨rfl, h2⟩ := hup
        have : downStep d (.flow fd true) = d := by
          funext x; simp only [downStep]; split
          · rename_i e; subst e; omega
          · rfl
        simp only [Op.req, confStep, this]
        exact h
    · have : up = true → 0 < d fd := by
        intro hu
        rcases Nat.eq_zero_or_pos (d fd) with h0 | h0
        · exact absurd ⟨hu, h0⟩ hup
        · exact h0
      obtain ⟨s', e, h', _⟩ := flow_spec h fd up this
      exact ⟨s', 0, e, h', by intro b hb; cases hb⟩

/-- initial state of the alternate policy (src/ipcpd/unicast/pff/alternate.c:203-229) -/
def altInit (p : Pft) : Alternate.State := ⟨p, [], []⟩

theorem run_append {σ : Type} (step : σ → Op → Outcome (σ × Int)) (s : σ) (a b : List Op) :
    run step s (a ++ b) = (do
      let (s1, r1) ← run step s a
      let (s2, r2) ← run step s1 b
      return (s2, r1 ++ r2)) := by
  induction a generalizing s with
  | nil => simp [run]; cases run step s b <;> rfl
  | cons op a ih =>
    simp only [List.cons_append, run]
    cases h : step s op with
    | ub => rfl
    | ok x =>
      obtain ⟨s1, r⟩ := x
      simp only [Outcome.bind_ok, ih]
      cases h2 : run step s1 a with
      | ub => rfl
      | ok y =>
        obtain ⟨s2, r2⟩ := y
        simp only [Outcome.bind_ok, Outcome.pure_eq]
        cases h3 : run step s2 b with
        | ub => rfl
        | ok z => rfl

/-- all reachable states of the alternate policy satisfy the refinement -/
theorem alt_reachable (p : Pft) (hp : WF p) (he : get p = empty) (ops : List Op) (hv : ∀ op ∈ ops, Valid op) :
    ∃ s rs, run Alternate.step (altInit p) ops = .ok (s, rs) ∧ RefA s (confAfter (ops.map Op.req)) (downAfter (ops.map Op.req)) := by
  induction ops using List.reverseRecOn with
  | nil =>
    refine ⟨altInit p, [], rfl, hp, ?_, ?_, ?_, List.nodup_nil, ?_, ?_⟩
    · intro a l h; cases h
    · intro a _; simp only [altInit, he]; rfl
    · intro a l h; cases h
    · intro a; simp [altInit, confAfter, empty]
    · intro x; simp [altInit, downAfter]
  | append_singleton ops op ih =>
    obtain ⟨s, rs, e, h⟩ := ih (fun o ho => hv o (by simp [ho]))
    obtain ⟨s', r, e', h', _⟩ := alt_step h op (hv op (by simp))
    refine ⟨s', rs ++ [r], ?_, ?_⟩
    · rw [run_append, e]
      simp [run, e']
    · simpa [confAfter, downAfter] using h'

end Ouro.Pff
