import Verif.Model.FlowIo
import Verif.Proof.Rbuff
import Verif.Proof.FaMsg
import Verif.Proof.Tac
import Verif.Spec.FlowIoHistory

/-!
# Helper lemmas for flow I/O: ownership of packets and simulation of the datagram reader
-/

namespace Ouro.FlowIo

open Ouro.Rbuff
open Spec.Datagrams (Reader Ev follow next deliver)

@[simp] theorem upd_same (f : Nat → Option (List Byte)) (i : Nat) (v : Option (List Byte)) : upd f i v i = v := by simp [upd]
theorem upd_ne (f : Nat → Option (List Byte)) {i j : Nat} (v : Option (List Byte)) (h : j ≠ i) : upd f i v j = f j := by
  simp [upd, h]

/-! ## Rings -/

theorem onRing_write {r : Ring} (h : WF r) (i : Nat) : onRing r (Rbuff.write · i) =
    .ok (if r.acl ≠ ACL_RDWR then (r, .ret r.denyCode) else if !r.free then (r, .ret (-EAGAIN)) else (pushed r i, .ret 0)) := by
  unfold onRing
  beta_reduce
  rw [write_eq (s := ⟨r, []⟩) h]
  simp only [Outcome.bind_ok, Outcome.pure_eq]
  split
  · rfl
  · split <;> rfl

theorem onRing_writeBLoop {r : Ring} (h : WF r) (i : Nat) (ret : Int) : onRing r (Rbuff.writeBLoop · i ret) =
    .ok (if !r.free && ret != -ETIMEDOUT && (r.acl &&& ACL_FLOWDOWN == 0) then (r, .sleep)
      else if ret ≠ -ETIMEDOUT then (pushed r i, .ret ret) else (r, .ret ret)) := by
  unfold onRing
  beta_reduce
  rw [writeBLoop_eq (s := ⟨r, []⟩) h]
  simp only [Outcome.bind_ok, Outcome.pure_eq]
  split
  · rfl
  · split <;> rfl

theorem onRing_writeB {r : Ring} (h : WF r) (i : Nat) : onRing r (Rbuff.writeB · i) =
    .ok (if r.acl ≠ ACL_RDWR then (r, .ret r.denyCode) else if !r.free then (r, .sleep) else (pushed r i, .ret 0)) := by
  by_cases ha : r.acl ≠ ACL_RDWR
  · rw [if_pos ha]
    unfold onRing Rbuff.writeB
    simp only [if_pos ha]
    rfl
  · rw [if_neg ha]
    have e : onRing r (Rbuff.writeB · i) = onRing r (Rbuff.writeBLoop · i 0) := by
      unfold onRing Rbuff.writeB
      simp only [if_neg ha]
    rw [e, onRing_writeBLoop h]
    have ha' : r.acl = 0 := by simpa [ACL_RDWR] using ha
    cases hf : r.free
    · simp [ha', ETIMEDOUT]
    · simp [ETIMEDOUT]

/-- What a ring read does: a packet, or a negative result, or sleep; nothing else changes. -/
def Took (r : Ring) (q : Ring × Out) : Prop :=
  (q.1 = r ∧ (q.2 = .sleep ∨ ∃ v, q.2 = .ret v ∧ v < 0)) ∨
  (∃ x : Nat, q = (popped r, .ret (x : Int)) ∧ contents r = (x : Int) :: contents (popped r))

theorem checkAcl_neg (r : Ring) : r.checkAcl < 0 := by
  rcases checkAcl_cases r with h | h | h <;> rw [h.1] <;> decide

theorem onRing_read {r : Ring} (h : WF r) : ∃ q, onRing r Rbuff.read = .ok q ∧ Took r q ∧ (q.2 ≠ .sleep) := by
  unfold onRing
  cases e : r.empty with
  | true =>
    rw [(read_eq (s := ⟨r, []⟩) h).1 e]
    exact ⟨_, rfl, Or.inl ⟨rfl, Or.inr ⟨_, rfl, checkAcl_neg r⟩⟩, by intro h; cases h⟩
  | false =>
    obtain ⟨x, h1, h2, h3⟩ := (read_eq (s := ⟨r, []⟩) h).2 e
    rw [h1]
    obtain ⟨n, rfl⟩ := Int.eq_ofNat_of_zero_le h3
    exact ⟨_, rfl, Or.inr ⟨n, rfl, h2⟩, by intro h; cases h⟩

theorem onRing_readBLoop {r : Ring} (h : WF r) (idx : Int) : ∃ q, onRing r (Rbuff.readBLoop · idx) = .ok q ∧ Took r q ∧
    q.2 ≠ .ret (-EAGAIN) := by
  have key := readBLoop_eq (s := ⟨r, []⟩) h idx
  unfold onRing
  beta_reduce
  cases e : r.empty with
  | true =>
    by_cases ht : idx = -ETIMEDOUT
    · subst ht
      have : Rbuff.readBLoop ⟨r, []⟩ (-ETIMEDOUT) = .ok (⟨r, []⟩, .ret (-ETIMEDOUT)) := by
        unfold Rbuff.readBLoop
        simp [e, ETIMEDOUT, EAGAIN]
      rw [this]
      exact ⟨_, rfl, Or.inl ⟨rfl, Or.inr ⟨_, rfl, by decide⟩⟩, by intro h; cases h⟩
    · by_cases hc : r.checkAcl = -EAGAIN
      · rw [key.1 e ht hc]
        exact ⟨_, rfl, Or.inl ⟨rfl, Or.inl rfl⟩, by intro h; cases h⟩
      · rw [key.2.1 e ht hc]
        refine ⟨_, rfl, Or.inl ⟨rfl, Or.inr ⟨_, rfl, checkAcl_neg r⟩⟩, ?_⟩
        intro h
        exact hc (by injection h)
  | false =>
    have hu : r.used ≠ 0 := by rw [Ne, ← h.empty_iff, e]; simp
    obtain ⟨x, h1, h2, h3⟩ := pop_spec h hu
    obtain ⟨n, rfl⟩ := Int.eq_ofNat_of_zero_le h3
    have : Rbuff.readBLoop ⟨r, []⟩ idx = .ok (Sys.broadcast ⟨popped r, []⟩ false, .ret (n : Int)) := by
      unfold Rbuff.readBLoop
      have hn : ¬ ((n : Int) = -EAGAIN) := by unfold EAGAIN; omega
      simp only [e, Bool.false_and, Bool.false_eq_true, if_false, Bool.not_false, if_true, h1, Outcome.bind_ok, hn,
        Outcome.pure_eq]
    rw [this]
    refine ⟨_, rfl, Or.inr ⟨n, rfl, h2⟩, ?_⟩
    intro h
    injection h with h
    unfold EAGAIN at h
    omega

theorem onRing_readB {r : Ring} (h : WF r) : ∃ q, onRing r Rbuff.readB = .ok q ∧ Took r q ∧ q.2 ≠ .ret (-EAGAIN) := by
  by_cases hd : (r.empty && (r.acl &&& ACL_FLOWDOWN != 0)) = true
  · refine ⟨(r, .ret (-EFLOWDOWN)), ?_, Or.inl ⟨rfl, Or.inr ⟨_, rfl, by decide⟩⟩, by intro h; cases h⟩
    unfold onRing Rbuff.readB
    simp only [hd, if_true]
    rfl
  · obtain ⟨q, h1, h2⟩ := onRing_readBLoop h (-1)
    refine ⟨q, ?_, h2⟩
    rw [← h1]
    unfold onRing Rbuff.readB
    simp only [hd, Bool.false_eq_true, if_false]

/-! ## Ownership -/

theorem countP_set' {α : Type} (p : α → Bool) {l : List α} {w : Nat} {x : α} (h : l[w]? = some x) (y : α) :
    (l.set w y).countP p + (p x).toNat = l.countP p + (p y).toNat := by
  induction l generalizing w with
  | nil => simp at h
  | cons a l ih =>
    cases w with
    | zero =>
      simp only [List.getElem?_cons_zero, Option.some.injEq] at h
      subst h
      simp only [List.set_cons_zero, List.countP_cons]
      cases p a <;> cases p y <;> simp
    | succ w =>
      simp only [List.getElem?_cons_succ] at h
      have := ih h
      simp only [List.set_cons_succ, List.countP_cons]
      omega

theorem countP_erase' {α : Type} (p : α → Bool) {l : List α} {w : Nat} {x : α} (h : l[w]? = some x) :
    (l.eraseIdx w).countP p + (p x).toNat = l.countP p := by
  induction l generalizing w with
  | nil => simp at h
  | cons a l ih =>
    cases w with
    | zero =>
      simp only [List.getElem?_cons_zero, Option.some.injEq] at h
      subst h
      simp only [List.eraseIdx_cons_zero, List.countP_cons]
      cases p a <;> simp
    | succ w =>
      simp only [List.getElem?_cons_succ] at h
      have := ih h
      simp only [List.eraseIdx_cons_succ, List.countP_cons]
      omega

theorem inRing_pushed {r : Ring} (h : WF r) (hf : r.free = true) (i j : Nat) :
    inRing (pushed r i) j = inRing r j + (if j = i then 1 else 0) := by
  unfold inRing
  rw [pushed_contents h i (h.free_iff.mp hf), List.count_append]
  by_cases e : j = i
  · subst e; simp
  · rw [if_neg e, List.count_eq_zero_of_not_mem (l := [(i : Int)])]
    intro hc
    rw [List.mem_singleton] at hc
    omega

theorem inRing_popped {r : Ring} {x : Nat} (h : contents r = (x : Int) :: contents (popped r)) (j : Nat) :
    inRing r j = inRing (popped r) j + (if j = x then 1 else 0) := by
  unfold inRing
  rw [h, List.count_cons]
  by_cases e : j = x
  · subst e; simp
  · have : ((x : Int) == (j : Int)) = false := by simp only [beq_eq_false_iff_ne]; omega
    rw [this, if_neg e]
    simp

theorem inRing_acl (r : Ring) (a : Nat) (i : Nat) : inRing { r with acl := a } i = inRing r i := rfl
theorem wf_acl {r : Ring} (h : WF r) (a : Nat) : WF { r with acl := a } := ⟨h.pow, h.len, h.hd, h.tl, h.nn⟩

/-- The state of a flow as long as every step is `Ok`. -/
structure Inv (s : St) : Prop where
  wrx : WF s.rx
  wtx : WF s.tx
  bal : ∀ i, cnt s i = (s.pool i).isSome.toNat
  one : s.readers.length ≤ 1
  emp : ∀ i, s.fl.part = .at i → s.pool i = some []
  rd : ∀ x ∈ s.readers, match x.pc with
    | .got i true => s.fl.part = .at i
    | _ => s.fl.part = .no
  len : s.fl.crc = true → ∀ i : Nat, (i : Int) ∈ contents s.rx → ∀ bs, s.pool i = some bs → bs.length = 0 ∨ 4 ≤ bs.length
  wr : ∀ x ∈ s.writers, ∀ i, Writer.holds i x = true → s.pool i = some (wire s.fl x.data)

theorem Known.deny {r : Ring} (h : Known r) (ha : r.acl ≠ ACL_RDWR) : r.denyCode < 0 := by
  unfold Ring.denyCode
  rcases h with h | h | h
  · exact absurd h ha
  · rw [if_pos h]; decide
  · split
    · decide
    · decide

/-! ## The reader's view -/

def pend (f : Flow) (pool : Nat → Option (List Byte)) (l : List Int) : List (List Byte) :=
  l.filterMap (fun v => (pool v.toNat).bind (payload f))

/-- A datagram taken from the ring by the thread in `flow_read`. -/
def hand (pool : Nat → Option (List Byte)) (l : List FlowIo.Reader) : List (List Byte) :=
  l.filterMap (fun x => match x.pc with
    | .got i false => pool i
    | _ => none)

def cur (p : Part) : Option (List Byte) :=
  match p with
  | .no => none
  | _ => some []

/-- What a specification reader would have before it. -/
def view (s : St) : Spec.Datagrams.Reader Byte :=
  ⟨hand s.pool s.readers ++ pend s.fl s.pool (contents s.rx), cur s.fl.part⟩

/-- A read that gets less than the datagram is harmless for `keep`, and the one after it does not ask for zero bytes. -/
def NoLoss (keep : List Byte → List Byte) (s : St) : Op → Prop
  | .readerDone k => ∀ x i fp bs, s.readers[k]? = some x → x.pc = .got i fp → s.pool i = some bs → x.partrd = true →
      (fp = false → x.count < bs.length → keep (bs.drop x.count) = []) ∧ (fp = true → x.count ≠ 0)
  | _ => True

/-- What a step does to the packets in the transmit ring. -/
def TxStep (s : St) (op : Op) (r : Ret) (s' : St) : Prop :=
  (taken op r).toList.map some ++ outgoing s' = outgoing s ++ (accepted s op).toList.map some

def Good (keep : List Byte → List Byte) (s : St) (op : Op) : Prop :=
  ∃ s' r, step s op = .ok (s', r) ∧ Inv s' ∧ TxStep s op r s' ∧ (keep [] = [] → NoLoss keep s op →
    follow keep (view s) (evs s op r) = some (view s'))

theorem pool_none {s : St} (h : Inv s) {i : Nat} (hp : s.pool i = none) : inRing s.tx i = 0 ∧ inRing s.rx i = 0 ∧
    s.writers.countP (Writer.holds i) = 0 ∧ s.readers.countP (Reader.holds i) = 0 ∧ inPart s.fl i = 0 := by
  have := h.bal i
  rw [hp] at this
  simp only [cnt, Option.isSome_none, Bool.toNat_false] at this
  omega

theorem filterMap_congr' {α β : Type} {f g : α → Option β} {l : List α} (h : ∀ x ∈ l, f x = g x) :
    l.filterMap f = l.filterMap g := by
  induction l with
  | nil => rfl
  | cons a l ih =>
    have h1 := h a List.mem_cons_self
    have h2 := ih (fun x hx => h x (List.mem_cons_of_mem _ hx))
    simp only [List.filterMap_cons, h1, h2]

theorem contents_nn {r : Ring} (hw : WF r) {x : Int} (hx : x ∈ contents r) : 0 ≤ x := by
  unfold contents at hx
  rw [List.mem_map] at hx
  obtain ⟨k, _, rfl⟩ := hx
  rw [List.getD_eq_getElem?_getD]
  cases e : r.cells[(r.tail + k) % r.size]? with
  | none => simp
  | some y => exact hw.nn y (List.mem_of_getElem? e)

theorem inRing_pos {r : Ring} {i : Nat} (h : (i : Int) ∈ contents r) : inRing r i ≠ 0 := by
  intro e
  exact List.count_eq_zero.mp e h

theorem pend_congr (f : Flow) {pool pool' : Nat → Option (List Byte)} {r : Ring} (hw : WF r)
    (h : ∀ j, inRing r j ≠ 0 → pool' j = pool j) : pend f pool' (contents r) = pend f pool (contents r) := by
  unfold pend
  apply filterMap_congr'
  intro x hx
  obtain ⟨n, rfl⟩ := Int.eq_ofNat_of_zero_le (contents_nn hw hx)
  have := h n (inRing_pos hx)
  simp only [Int.toNat_natCast, this]

theorem hand_congr {pool pool' : Nat → Option (List Byte)} {l : List FlowIo.Reader}
    (h : ∀ j, l.countP (Reader.holds j) ≠ 0 → pool' j = pool j) : hand pool' l = hand pool l := by
  unfold hand
  apply filterMap_congr'
  intro x hx
  cases hp : x.pc with
  | rx => rfl
  | rxWait => rfl
  | got j fp =>
    cases fp with
    | true => rfl
    | false =>
      refine h j ?_
      intro e
      have := List.countP_eq_zero.mp e x hx
      simp [Reader.holds, hp] at this

theorem out_congr {r : Ring} (hw : WF r) {pool pool' : Nat → Option (List Byte)}
    (h : ∀ j, inRing r j ≠ 0 → pool' j = pool j) :
    (contents r).map (fun v => pool' v.toNat) = (contents r).map (fun v => pool v.toNat) := by
  apply List.map_congr_left
  intro x hx
  obtain ⟨n, rfl⟩ := Int.eq_ofNat_of_zero_le (contents_nn hw hx)
  have := h n (inRing_pos hx)
  simp only [Int.toNat_natCast, this]

theorem holds_count {l : List Writer} {x : Writer} {i : Nat} (hx : x ∈ l) (hi : Writer.holds i x = true) :
    l.countP (Writer.holds i) ≠ 0 := by
  intro e
  exact List.countP_eq_zero.mp e x hx hi

/-- The writers' packets survive a change of other packets. -/
theorem Inv.wr_upd {s : St} (h : Inv s) {pool' : Nat → Option (List Byte)}
    (hp : ∀ j, s.writers.countP (Writer.holds j) ≠ 0 → pool' j = s.pool j) :
    ∀ x ∈ s.writers, ∀ i, Writer.holds i x = true → pool' i = some (wire s.fl x.data) := by
  intro x hx i hi
  rw [hp i (holds_count hx hi)]
  exact h.wr x hx i hi

/-- Steps on the sending side. -/
theorem Inv.side {s : St} (h : Inv s) {tx' : Ring} {ws' : List Writer} {pool' : Nat → Option (List Byte)} (hw : WF tx')
    (hb : ∀ j, inRing tx' j + inRing s.rx j + ws'.countP (Writer.holds j) + s.readers.countP (Reader.holds j) + inPart s.fl j =
      (pool' j).isSome.toNat)
    (hp : ∀ j, inRing s.rx j + s.readers.countP (Reader.holds j) + inPart s.fl j ≠ 0 → pool' j = s.pool j)
    (hwr : ∀ x ∈ ws', ∀ i, Writer.holds i x = true → pool' i = some (wire s.fl x.data)) :
    Inv { s with tx := tx', writers := ws', pool := pool' } ∧
      view { s with tx := tx', writers := ws', pool := pool' } = view s := by
  refine ⟨⟨h.wrx, hw, hb, h.one, ?_, h.rd, ?_, hwr⟩, ?_⟩
  · intro i hi
    have := h.emp i hi
    rw [← this]
    refine hp i ?_
    have : inPart s.fl i = 1 := by unfold inPart; rw [if_pos hi]
    omega
  · intro hc i hi bs hbs
    refine h.len hc i hi bs ?_
    rw [← hp i]
    · exact hbs
    · have : inRing s.rx i ≠ 0 := inRing_pos hi
      omega
  · unfold view
    simp only
    rw [pend_congr s.fl h.wrx (fun j hj => hp j (by omega)), hand_congr (fun j hj => hp j (by omega))]

theorem Good.of {keep : List Byte → List Byte} {s : St} {op : Op} {s' : St} {r : Ret} (h1 : step s op = .ok (s', r))
    (h2 : Inv s' ∧ view s' = view s) (h3 : evs s op r = []) (h4 : TxStep s op r s') : Good keep s op :=
  ⟨s', r, h1, h2.1, h4, fun _ _ => by rw [h3, h2.2]; rfl⟩

theorem TxStep.keep {s s' : St} {op : Op} {r : Ret} (ht : taken op r = none) (ha : accepted s op = none)
    (h : outgoing s' = outgoing s) : TxStep s op r s' := by
  unfold TxStep
  rw [ht, ha, h]
  simp

theorem good_write {keep : List Byte → List Byte} {s : St} (h : Inv s) (b : Buf) : Good keep s (.write b) := by
  have h1 : step s (.write b) = .ok ((writeCall s b).1, (writeCall s b).2) := rfl
  refine Good.of h1 ?_ rfl (TxStep.keep rfl rfl (by
    unfold writeCall
    split
    · rfl
    · split
      · rfl
      · split <;> rfl))
  unfold writeCall
  split
  · exact ⟨h, rfl⟩
  · split
    · exact ⟨h, rfl⟩
    · split
      · exact ⟨h, rfl⟩
      · refine h.side h.wtx ?_ (fun _ _ => rfl) ?_
        · intro j
          rw [← h.bal j]
          simp [cnt, Writer.holds, List.countP_append]
        · intro x hx i hi
          rcases List.mem_append.mp hx with hx | hx
          · exact h.wr x hx i hi
          · rw [List.mem_singleton] at hx
            subst hx
            cases hi

theorem good_alloc {keep : List Byte → List Byte} {s : St} (h : Inv s) (w i : Nat) (ok : s.pool i = none) :
    Good keep s (.writerAlloc w i) := by
  have h1 : step s (.writerAlloc w i) = .ok ((writerAlloc s w i).1, (writerAlloc s w i).2) := rfl
  have hout : outgoing (writerAlloc s w i).1 = outgoing s := by
    unfold writerAlloc
    split
    · rfl
    · split
      · refine out_congr h.wtx ?_
        intro j hj
        refine upd_ne _ _ ?_
        intro e
        subst e
        exact hj (pool_none h ok).1
      · rfl
  refine Good.of h1 ?_ rfl (TxStep.keep rfl rfl hout)
  unfold writerAlloc
  cases hx : s.writers[w]? with
  | none => exact ⟨h, rfl⟩
  | some x =>
    cases hp : x.pc with
    | tx j => exact ⟨by simpa only [hp] using h, by simp only [hp]⟩
    | txWait j => exact ⟨by simpa only [hp] using h, by simp only [hp]⟩
    | alloc =>
      simp only [hp]
      have hn := pool_none h ok
      refine h.side h.wtx ?_ ?_ ?_
      · intro j
        have hb := h.bal j
        have hc := countP_set' (Writer.holds j) hx { x with pc := .tx i }
        have e1 : Writer.holds j x = false := by simp [Writer.holds, hp]
        by_cases e : j = i
        · subst e
          have e2 : Writer.holds j { x with pc := .tx j } = true := by simp [Writer.holds]
          rw [e1, e2] at hc
          simp only [upd_same, Option.isSome_some, Bool.toNat_true]
          simp at hc
          omega
        · have e2 : Writer.holds j { x with pc := .tx i } = false := by simp [Writer.holds]; omega
          rw [e1, e2] at hc
          rw [upd_ne _ _ e, ← hb]
          unfold cnt
          simp at hc
          omega
      · intro j hj
        refine upd_ne _ _ ?_
        intro e
        subst e
        omega
      · intro y hy j hj
        rcases List.mem_or_eq_of_mem_set hy with hy | rfl
        · refine h.wr_upd (pool' := upd s.pool i (some (wire s.fl x.data))) (fun k hk => upd_ne _ _ ?_) y hy j hj
          intro e
          subst e
          omega
        · have : i = j := by simpa [Writer.holds] using hj
          subst this
          simp

theorem good_refused {keep : List Byte → List Byte} {s : St} (h : Inv s) (w : Nat) :
    Good keep s (.writerRefused w) := by
  have h1 : step s (.writerRefused w) = .ok ((writerRefused s w).1, (writerRefused s w).2) := rfl
  have hout : outgoing (writerRefused s w).1 = outgoing s := by
    unfold writerRefused
    repeat' split
    all_goals rfl
  refine Good.of h1 ?_ rfl (TxStep.keep rfl rfl hout)
  unfold writerRefused
  cases hx : s.writers[w]? with
  | none => exact ⟨h, rfl⟩
  | some x =>
    cases hp : x.pc with
    | tx j => exact ⟨by simpa only [hp] using h, by simp only [hp]⟩
    | txWait j => exact ⟨by simpa only [hp] using h, by simp only [hp]⟩
    | alloc =>
      simp only [hp]
      have key : Inv { s with writers := s.writers.eraseIdx w } ∧ view { s with writers := s.writers.eraseIdx w } = view s := by
        refine h.side h.wtx ?_ (fun _ _ => rfl) (fun y hy => h.wr y (List.mem_of_mem_eraseIdx hy))
        intro j
        have hc := countP_erase' (Writer.holds j) hx
        have e1 : Writer.holds j x = false := by simp [Writer.holds, hp]
        rw [e1] at hc
        rw [← h.bal j]
        unfold cnt
        simp at hc
        omega
      split
      · exact key
      · split
        · exact key
        · exact ⟨h, rfl⟩

/-- The end of a ring write by a thread holding packet `i`. -/
theorem writerEnd_ok {s : St} (h : Inv s) {w i : Nat} {x : Writer} (hx : s.writers[w]? = some x)
    (hi : x.pc = .tx i ∨ x.pc = .txWait i) {q : Ring × Out}
    (hq : q = (s.tx, .sleep) ∨ (∃ v, q = (s.tx, .ret v) ∧ v < 0) ∨ (q = (pushed s.tx i, .ret 0) ∧ s.tx.free = true)) :
    ∃ s' r, writerEnd s w x i q = .ok (s', r) ∧ (Inv s' ∧ view s' = view s) ∧
      outgoing s' = outgoing s ++ (if q = (pushed s.tx i, .ret 0) then [some (wire s.fl x.data)] else []) := by
  have hh : ∀ j, Writer.holds j x = (i == j) := by
    intro j
    rcases hi with hi | hi <;> simp [Writer.holds, hi]
  have hb := h.bal
  have hpi : ∃ bs, s.pool i = some bs := by
    have hc := countP_erase' (Writer.holds i) hx
    rw [hh] at hc
    simp only [beq_self_eq_true, Bool.toNat_true] at hc
    cases hs : s.pool i with
    | some bs => exact ⟨bs, rfl⟩
    | none =>
      have := (pool_none h hs).2.2.1
      omega
  obtain ⟨bs, hpi⟩ := hpi
  have hbi := hb i
  rw [hpi] at hbi
  simp only [Option.isSome_some, Bool.toNat_true] at hbi
  have hci := countP_erase' (Writer.holds i) hx
  rw [hh] at hci
  simp at hci
  unfold cnt at hbi
  have hxm := List.mem_of_getElem? hx
  have hwx := h.wr x hxm i (by rw [hh]; simp)
  rcases hq with rfl | ⟨v, rfl, hv⟩ | ⟨rfl, hf⟩
  · refine ⟨_, _, rfl, ?_, by simp [outgoing]⟩
    refine h.side h.wtx ?_ (fun _ _ => rfl) ?_
    rotate_left
    · intro y hy j hj
      rcases List.mem_or_eq_of_mem_set hy with hy | rfl
      · exact h.wr y hy j hj
      · have : i = j := by simpa [Writer.holds] using hj
        subst this
        exact hwx
    intro j
    have hc := countP_set' (Writer.holds j) hx { x with pc := .txWait i }
    rw [hh] at hc
    have e2 : Writer.holds j { x with pc := .txWait i } = (i == j) := rfl
    rw [e2] at hc
    rw [← hb j]
    unfold cnt
    simp only
    omega
  · refine ⟨{ s with writers := s.writers.eraseIdx w, pool := upd s.pool i none }, .ret x.data.length, ?_, ?_, ?_⟩
    · unfold writerEnd freePkt
      simp only [hv, if_true, hpi, Outcome.bind_ok, Outcome.pure_eq]
    rotate_left
    · have : ¬ ((s.tx, Out.ret v) = (pushed s.tx i, Out.ret 0)) := by
        intro e
        have := (Prod.mk.inj e).2
        injection this with this
        omega
      rw [if_neg this, List.append_nil]
      refine out_congr h.wtx ?_
      intro j hj
      refine upd_ne _ _ ?_
      intro e
      subst e
      omega
    · refine h.side h.wtx ?_ ?_ ?_
      rotate_left
      rotate_left
      · intro y hy j hj
        have hne : j ≠ i := by
          intro e
          subst e
          exact holds_count hy hj (by omega)
        rw [upd_ne _ _ hne]
        exact h.wr y (List.mem_of_mem_eraseIdx hy) j hj
      · intro j
        have hc := countP_erase' (Writer.holds j) hx
        rw [hh] at hc
        by_cases e : j = i
        · subst e
          simp only [upd_same, Option.isSome_none, Bool.toNat_false]
          omega
        · have : (i == j) = false := by simp only [beq_eq_false_iff_ne]; omega
          rw [this] at hc
          rw [upd_ne _ _ e, ← hb j]
          unfold cnt
          simp at hc
          omega
      · intro j hj
        refine upd_ne _ _ ?_
        intro e
        subst e
        omega
  · refine ⟨_, _, rfl, ?_, ?_⟩
    rotate_left
    · rw [if_pos rfl]
      unfold outgoing
      simp only [pushed_contents h.wtx i (h.wtx.free_iff.mp hf), List.map_append, List.map_cons, Int.toNat_natCast, hwx,
        List.map_nil]
    refine h.side (pushed_wf h.wtx i) ?_ (fun _ _ => rfl) (fun y hy => h.wr y (List.mem_of_mem_eraseIdx hy))
    intro j
    have hc := countP_erase' (Writer.holds j) hx
    rw [hh] at hc
    rw [← hb j, inRing_pushed h.wtx hf]
    unfold cnt
    by_cases e : j = i
    · subst e
      simp at hc
      simp only [if_true]
      omega
    · have : (i == j) = false := by simp only [beq_eq_false_iff_ne]; omega
      rw [this] at hc
      rw [if_neg e]
      simp at hc
      omega

theorem good_tx {keep : List Byte → List Byte} {s : St} (h : Inv s) (w : Nat) (rc : Int) (ok : Ok s (.writerTx w rc)) :
    Good keep s (.writerTx w rc) := by
  have hev : ∀ r, evs s (.writerTx w rc) r = [] := fun r => rfl
  simp only [Ok] at ok
  cases hx : s.writers[w]? with
  | none => exact Good.of (s' := s) (r := .inside) (by simp [step, writerTx, hx]) ⟨h, rfl⟩ (hev _) (TxStep.keep rfl (by simp [accepted, hx]) rfl)
  | some x =>
    rw [hx] at ok
    cases hp : x.pc with
    | alloc => exact Good.of (s' := s) (r := .inside) (by simp [step, writerTx, hx, hp]) ⟨h, rfl⟩ (hev _) (TxStep.keep rfl (by simp [accepted, hx, hp]) rfl)
    | tx i =>
      simp only [hp] at ok
      have key : ∃ q, ringWrite s.tx x.nonblock i = .ok q ∧
          (q = (s.tx, .sleep) ∨ (∃ v, q = (s.tx, .ret v) ∧ v < 0) ∨ (q = (pushed s.tx i, .ret 0) ∧ s.tx.free = true)) ∧
          (q = (pushed s.tx i, .ret 0) ↔ s.tx.acl = ACL_RDWR ∧ s.tx.free = true) := by
        unfold ringWrite
        rw [onRing_write h.wtx, onRing_writeB h.wtx]
        by_cases ha : s.tx.acl ≠ ACL_RDWR
        · refine ⟨(s.tx, .ret s.tx.denyCode), ?_, Or.inr (Or.inl ⟨_, rfl, ok.deny ha⟩), ?_⟩
          · simp only [if_pos ha, ite_self]
          · constructor
            · intro e
              have := (Prod.mk.inj e).2
              injection this with this
              have h2 := ok.deny ha
              omega
            · intro e
              exact absurd e.1 ha
        · simp only [if_neg ha]
          cases hf : s.tx.free with
          | true =>
            refine ⟨(pushed s.tx i, .ret 0), ?_, Or.inr (Or.inr ⟨rfl, rfl⟩), ?_⟩
            · simp
            · have : s.tx.acl = ACL_RDWR := by simpa using ha
              simp [this]
          | false =>
            cases x.nonblock with
            | true =>
              refine ⟨(s.tx, .ret (-EAGAIN)), by simp, Or.inr (Or.inl ⟨_, rfl, by decide⟩), ?_⟩
              simp [EAGAIN]
            | false => exact ⟨(s.tx, .sleep), by simp, Or.inl rfl, by simp⟩
      obtain ⟨q, h1, h2, h2'⟩ := key
      obtain ⟨s', r, h3, h4, h5⟩ := writerEnd_ok h hx (Or.inl hp) h2
      refine Good.of (s' := s') (r := r) ?_ h4 (hev _) ?_
      rotate_left
      · unfold TxStep
        rw [h5]
        simp only [taken, accepted, hx, hp, Option.toList_none, List.map_nil, List.nil_append]
        by_cases hq : s.tx.acl = ACL_RDWR ∧ s.tx.free = true
        · rw [if_pos hq, if_pos (h2'.mpr hq)]; rfl
        · rw [if_neg hq, if_neg (fun e => hq (h2'.mp e))]; rfl
      simp only [step, writerTx, hx, hp]
      rw [h1]
      exact h3
    | txWait i =>
      simp only [hp] at ok
      obtain ⟨hrc, hex⟩ := ok
      have key : ∃ q, onRing s.tx (Rbuff.writeBLoop · i (-rc)) = .ok q ∧
          (q = (s.tx, .sleep) ∨ (∃ v, q = (s.tx, .ret v) ∧ v < 0) ∨ (q = (pushed s.tx i, .ret 0) ∧ s.tx.free = true)) ∧
          (q = (pushed s.tx i, .ret 0) ↔ s.tx.free = true ∧ rc = 0) := by
        rw [onRing_writeBLoop h.wtx]
        rcases hrc with rfl | ⟨rfl, _⟩
        · cases hf : s.tx.free with
          | true => exact ⟨(pushed s.tx i, .ret 0), by simp [ETIMEDOUT], Or.inr (Or.inr ⟨rfl, rfl⟩), by simp⟩
          | false =>
            have hd : s.tx.acl &&& ACL_FLOWDOWN = 0 := by
              by_contra hne
              exact hex ⟨hf, hne, by decide⟩
            exact ⟨(s.tx, .sleep), by simp [hd, ETIMEDOUT], Or.inl rfl, by simp⟩
        · exact ⟨(s.tx, .ret (-ETIMEDOUT)), by simp, Or.inr (Or.inl ⟨_, rfl, by decide⟩), by simp [ETIMEDOUT]⟩
      obtain ⟨q, h1, h2, h2'⟩ := key
      obtain ⟨s', r, h3, h4, h5⟩ := writerEnd_ok h hx (Or.inr hp) h2
      refine Good.of (s' := s') (r := r) ?_ h4 (hev _) ?_
      rotate_left
      · unfold TxStep
        rw [h5]
        simp only [taken, accepted, hx, hp, Option.toList_none, List.map_nil, List.nil_append]
        by_cases hq : s.tx.free = true ∧ rc = 0
        · rw [if_pos hq, if_pos (h2'.mpr hq)]; rfl
        · rw [if_neg hq, if_neg (fun e => hq (h2'.mp e))]; rfl
      simp only [step, writerTx, hx, hp]
      rw [h1]
      exact h3

theorem good_keepalive {keep : List Byte → List Byte} {s : St} (h : Inv s) (i : Nat) (ok : Ok s (.keepalive i)) :
    Good keep s (.keepalive i) := by
  obtain ⟨hn, hk⟩ := ok
  have hn' := pool_none h hn
  have hev : ∀ r, evs s (.keepalive i) r = [] := fun r => rfl
  have same : ∀ v : Int, v ≠ 0 → onRing s.tx (Rbuff.write · i) = .ok (s.tx, .ret v) → accepted s (.keepalive i) = none →
      Good keep s (.keepalive i) := by
    intro v hv e hac
    refine Good.of (s' := s) (r := .ret v) ?_ ⟨h, rfl⟩ (hev _) (TxStep.keep rfl hac rfl)
    simp only [step, FlowIo.keepalive, e, Outcome.bind_ok, Outcome.pure_eq, putEnd]
    simp [hv]
  have e := onRing_write h.wtx i
  by_cases ha : s.tx.acl ≠ ACL_RDWR
  · rw [if_pos ha] at e
    exact same _ (fun e0 => (by have := hk.deny ha; rw [e0] at this; exact absurd this (by decide))) e
      (by simp only [accepted]; rw [if_neg (fun x => ha x.1)])
  · rw [if_neg ha] at e
    cases hf : s.tx.free with
    | false =>
      rw [hf] at e
      exact same _ (by decide) e (by simp [accepted, hf])
    | true =>
      rw [hf] at e
      simp only [Bool.not_true, Bool.false_eq_true, if_false] at e
      refine Good.of (s' := { s with tx := pushed s.tx i, pool := upd s.pool i (some []) }) (r := .ret 0) ?_ ?_ (hev _) ?_
      · simp only [step, FlowIo.keepalive, e, Outcome.bind_ok, Outcome.pure_eq, putEnd]
        simp
      rotate_left
      · have ha' : s.tx.acl = ACL_RDWR := by simpa using ha
        unfold TxStep
        simp only [taken, accepted, ha', hf, and_self, if_true, Option.toList_none, List.map_nil, List.nil_append,
          Option.toList_some, List.map_cons]
        unfold outgoing
        simp only [pushed_contents h.wtx i (h.wtx.free_iff.mp hf), List.map_append, List.map_cons, Int.toNat_natCast, upd_same,
          List.map_nil]
        rw [out_congr h.wtx (pool := s.pool)]
        intro j hj
        refine upd_ne _ _ ?_
        intro e
        subst e
        omega
      · refine h.side (pushed_wf h.wtx i) ?_ ?_ (h.wr_upd (fun k hk => upd_ne _ _ (by intro e; subst e; omega)))
        · intro j
          have hb := h.bal j
          unfold cnt at hb
          rw [inRing_pushed h.wtx hf]
          by_cases e : j = i
          · subst e
            simp only [upd_same, Option.isSome_some, Bool.toNat_true, if_true]
            omega
          · rw [upd_ne _ _ e, ← hb, if_neg e]
            omega
        · intro j hj
          refine upd_ne _ _ ?_
          intro e
          subst e
          omega

theorem good_peerGet {keep : List Byte → List Byte} {s : St} (h : Inv s) : Good keep s .peerGet := by
  obtain ⟨q, h1, h2, h3⟩ := onRing_read h.wtx
  have hev : ∀ r, evs s .peerGet r = [] := fun r => rfl
  rcases h2 with ⟨e1, e2⟩ | ⟨x, rfl, hc⟩
  · rcases e2 with e2 | ⟨v, e2, hv⟩
    · exact absurd e2 h3
    · refine Good.of (s' := s) (r := .ret v) ?_ ⟨h, rfl⟩ (hev _) (TxStep.keep rfl rfl rfl)
      simp only [step, FlowIo.peerGet, h1, Outcome.bind_ok, peerGetEnd, e2, hv, if_true]
      rw [e1]
  · have hr := inRing_popped hc
    have hb := h.bal x
    have hx : ∃ bs, s.pool x = some bs := by
      cases hs : s.pool x with
      | some bs => exact ⟨bs, rfl⟩
      | none =>
        have h1 := (pool_none h hs).1
        have h2 := hr x
        rw [if_pos rfl] at h2
        omega
    obtain ⟨bs, hx⟩ := hx
    rw [hx] at hb
    have hrx := hr x
    simp only [cnt, Option.isSome_some, Bool.toNat_true, if_true] at hb hrx
    have hnn : ¬ ((x : Int) < 0) := by omega
    refine Good.of (s' := { s with tx := popped s.tx, pool := upd s.pool x none }) (r := .data bs) ?_ ?_ (hev _) ?_
    rotate_left
    rotate_left
    · unfold TxStep
      simp only [taken, accepted, Option.toList_none, List.map_nil, List.append_nil, Option.toList_some, List.map_cons,
        List.singleton_append]
      unfold outgoing
      simp only [hc, List.map_cons, Int.toNat_natCast, hx]
      rw [out_congr (popped_wf h.wtx) (pool := s.pool)]
      intro j hj
      refine upd_ne _ _ ?_
      intro e
      subst e
      omega
    · simp only [step, FlowIo.peerGet, h1, Outcome.bind_ok, peerGetEnd, hnn, if_false, getPkt, freePkt, Int.toNat_natCast, hx,
        Outcome.pure_eq]
    · refine h.side (popped_wf h.wtx) ?_ ?_ (h.wr_upd (fun k hk => upd_ne _ _ (by intro e; subst e; omega)))
      · intro j
        have hb' := h.bal j
        have hr' := hr j
        unfold cnt at hb'
        by_cases e : j = x
        · subst e
          simp only [upd_same, Option.isSome_none, Bool.toNat_false]
          omega
        · rw [if_neg e] at hr'
          rw [upd_ne _ _ e, ← hb']
          omega
      · intro j hj
        refine upd_ne _ _ ?_
        intro e
        subst e
        omega

/-! ### The receiving side -/

theorem single {s : St} (h : Inv s) {k : Nat} {x : FlowIo.Reader} (hx : s.readers[k]? = some x) : k = 0 ∧ s.readers = [x] := by
  have h1 := h.one
  obtain ⟨hk, e⟩ := List.getElem?_eq_some_iff.mp hx
  have hk0 : k = 0 := by omega
  subst hk0
  refine ⟨rfl, ?_⟩
  match hr : s.readers, h1 with
  | [], _ => simp [hr] at hk
  | [y], _ => simp [hr] at e; rw [e]
  | _ :: _ :: _, h1 => simp at h1

theorem good_read {keep : List Byte → List Byte} {s : St} (h : Inv s) (count : Nat) (ok : s.readers = []) :
    Good keep s (.read count) := by
  have h1 : step s (.read count) = .ok ((readCall s count).1, (readCall s count).2) := rfl
  cases ho : s.fl.isOpen with
  | false =>
    have e : readCall s count = (s, .ret (-ENOTALLOC)) := by simp [readCall, ho]
    rw [e] at h1
    exact Good.of h1 ⟨h, rfl⟩ rfl (TxStep.keep rfl rfl rfl)
  | true =>
    cases hp : s.fl.part with
    | done =>
      have e : readCall s count = ({ s with fl := { s.fl with part := .no } }, .data []) := by simp [readCall, ho, hp]
      rw [e] at h1
      refine ⟨_, _, h1, ⟨h.wrx, h.wtx, ?_, h.one, ?_, ?_, h.len, h.wr⟩, TxStep.keep rfl rfl rfl, ?_⟩
      · intro i
        rw [← h.bal i]
        simp [cnt, inPart, hp]
      · intro i hi; cases hi
      · intro x hx
        rw [ok] at hx
        cases hx
      · intro _ _
        have e1 : view s = ⟨hand s.pool s.readers ++ pend s.fl s.pool (contents s.rx), some []⟩ := by
          unfold view cur; rw [hp]
        simp only [evs, follow, next, Spec.Datagrams.read, e1, if_true, Option.bind_some]
        rfl
    | no =>
      have e : ∃ x : FlowIo.Reader, x.pc = .rx ∧ readCall s count = ({ s with readers := s.readers ++ [x] }, .inside) := by
        refine ⟨⟨count, decide (s.fl.oflags &&& FLOWFRNOBLOCK = 0), decide (s.fl.oflags &&& FLOWFRNOPART = 0),
          s.fl.rcvTimeo.isSome, .rx⟩, rfl, ?_⟩
        simp only [readCall, ho, hp, Bool.not_true, Bool.false_eq_true, if_false]
      obtain ⟨x, hx, e⟩ := e
      rw [e] at h1
      have hh : ∀ i, Reader.holds i x = false := fun i => by simp [Reader.holds, hx]
      refine Good.of h1 ⟨⟨h.wrx, h.wtx, ?_, ?_, ?_, ?_, h.len, h.wr⟩, ?_⟩ rfl (TxStep.keep rfl rfl rfl)
      · intro i
        rw [← h.bal i]
        simp [cnt, List.countP_append, hh]
      · simp [ok]
      · intro i hi
        exact h.emp i hi
      · intro y hy
        simp only [ok, List.nil_append, List.mem_singleton] at hy
        subst hy
        rw [hx]
        exact hp
      · unfold view
        simp [ok, hand, hx]
    | «at» j =>
      have e : ∃ x : FlowIo.Reader, x.pc = .got j true ∧ readCall s count = ({ s with readers := s.readers ++ [x] }, .inside) := by
        refine ⟨⟨count, decide (s.fl.oflags &&& FLOWFRNOBLOCK = 0), decide (s.fl.oflags &&& FLOWFRNOPART = 0),
          s.fl.rcvTimeo.isSome, .got j true⟩, rfl, ?_⟩
        simp only [readCall, ho, hp, Bool.not_true, Bool.false_eq_true, if_false]
      obtain ⟨x, hx, e⟩ := e
      rw [e] at h1
      have hh : ∀ i, Reader.holds i x = false := fun i => by simp [Reader.holds, hx]
      refine Good.of h1 ⟨⟨h.wrx, h.wtx, ?_, ?_, ?_, ?_, h.len, h.wr⟩, ?_⟩ rfl (TxStep.keep rfl rfl rfl)
      · intro i
        rw [← h.bal i]
        simp [cnt, List.countP_append, hh]
      · simp [ok]
      · intro i hi
        exact h.emp i hi
      · intro y hy
        simp only [ok, List.nil_append, List.mem_singleton] at hy
        subst hy
        rw [hx]
        exact hp
      · unfold view
        simp [ok, hand, hx]

theorem payload_eq {f : Flow} {bs : List Byte} (h : f.crc = true → bs.length = 0 ∨ 4 ≤ bs.length) :
    rxCheck f bs = .ok (payload f bs) := by
  unfold payload
  have : ∃ o, rxCheck f bs = .ok o := by
    unfold rxCheck
    split
    · exact ⟨_, rfl⟩
    · split
      · next hc =>
        have := h hc
        split
        · omega
        · split
          · exact ⟨_, rfl⟩
          · exact ⟨_, rfl⟩
      · exact ⟨_, rfl⟩
  obtain ⟨o, ho⟩ := this
  rw [ho]

/-- A ring read by the thread in `flow_read`, and what follows. -/
theorem readerCont_ok {s : St} (h : Inv s) {x : FlowIo.Reader} (hr : s.readers = [x]) (hpc : x.pc = .rx ∨ x.pc = .rxWait)
    {q : Ring × Out} (hq : Took s.rx q) :
    ∃ s' r, readerCont s 0 x q = .ok (s', r) ∧ (Inv s' ∧ view s' = view s) ∧ outgoing s' = outgoing s := by
  have hpart : s.fl.part = .no := by
    have := h.rd x (by rw [hr]; exact List.mem_singleton.mpr rfl)
    rcases hpc with e | e <;> rw [e] at this <;> exact this
  have hh : ∀ i, Reader.holds i x = false := by
    intro i
    rcases hpc with e | e <;> simp [Reader.holds, e]
  have hz : ∀ i, s.readers.countP (Reader.holds i) = 0 := by
    intro i
    rw [hr]
    simp [hh]
  have hhand : hand s.pool s.readers = [] := by
    rw [hr]
    rcases hpc with e | e <;> simp [hand, e]
  -- the thread goes on without a packet
  have idle : ∀ pc, (pc = .rx ∨ pc = .rxWait) → Inv { s with readers := [{ x with pc := pc }] } ∧
      view { s with readers := [{ x with pc := pc }] } = view s := by
    intro pc hpc'
    refine ⟨⟨h.wrx, h.wtx, ?_, by simp, h.emp, ?_, h.len, h.wr⟩, ?_⟩
    · intro i
      rw [← h.bal i]
      unfold cnt
      rw [hz]
      rcases hpc' with rfl | rfl <;> simp [Reader.holds]
    · intro y hy
      simp only [List.mem_singleton] at hy
      subst hy
      rcases hpc' with rfl | rfl <;> exact hpart
    · unfold view
      rw [hhand]
      rcases hpc' with rfl | rfl <;> simp [hand]
  have gone : Inv { s with readers := [] } ∧ view { s with readers := [] } = view s := by
    refine ⟨⟨h.wrx, h.wtx, ?_, by simp, h.emp, ?_, h.len, h.wr⟩, ?_⟩
    · intro i
      rw [← h.bal i]
      unfold cnt
      rw [hz]
      simp
    · intro y hy
      cases hy
    · unfold view
      rw [hhand]
      simp [hand]
  rcases hq with ⟨e1, e2⟩ | ⟨n, rfl, hc⟩
  · rcases e2 with e2 | ⟨v, e2, hv⟩
    · refine ⟨_, .inside, ?_, idle .rxWait (Or.inr rfl), rfl⟩
      simp only [readerCont, e1, e2, hr, List.set_cons_zero]
    · by_cases hb : (x.block && v == -EAGAIN) = true
      · refine ⟨_, .inside, ?_, idle .rx (Or.inl rfl), rfl⟩
        simp only [readerCont, e1, e2, hr, List.set_cons_zero, hv, if_true, hb]
      · refine ⟨_, .ret v, ?_, gone, rfl⟩
        simp only [readerCont, e1, e2, hr, List.eraseIdx_cons_zero, hv, if_true, hb, Bool.false_eq_true, if_false]
  · have hrg := inRing_popped hc
    have hmem : (n : Int) ∈ contents s.rx := by rw [hc]; exact List.mem_cons_self
    have hpn : ∃ bs, s.pool n = some bs := by
      cases hs : s.pool n with
      | some bs => exact ⟨bs, rfl⟩
      | none => exact absurd (pool_none h hs).2.1 (inRing_pos hmem)
    obtain ⟨bs, hpn⟩ := hpn
    have hbn := h.bal n
    have hrn := hrg n
    rw [hpn] at hbn
    simp only [cnt, Option.isSome_some, Bool.toNat_true, if_true] at hbn hrn
    have hlen := fun hcr => h.len hcr n hmem bs hpn
    have hchk := payload_eq (f := s.fl) hlen
    have hnn : ¬ ((n : Int) < 0) := by omega
    have hview : view s = ⟨(payload s.fl bs).toList ++ pend s.fl s.pool (contents (popped s.rx)), none⟩ := by
      unfold view
      rw [hhand, hpart, hc]
      simp only [pend, cur, List.nil_append, List.filterMap_cons, Int.toNat_natCast, hpn, Option.bind_some]
      cases payload s.fl bs <;> rfl
    have hlen' : ∀ pool' : Nat → Option (List Byte), (∀ j, j ≠ n → pool' j = s.pool j) → s.fl.crc = true → ∀ i : Nat,
        (i : Int) ∈ contents (popped s.rx) → ∀ b, pool' i = some b → b.length = 0 ∨ 4 ≤ b.length := by
      intro pool' hp' hcr i hi b hb
      have hne : i ≠ n := by
        intro e
        subst e
        have := inRing_pos hi
        omega
      rw [hp' i hne] at hb
      exact h.len hcr i (by rw [hc]; exact List.mem_cons_of_mem _ hi) b hb
    have hpend : ∀ v, pend s.fl (upd s.pool n v) (contents (popped s.rx)) = pend s.fl s.pool (contents (popped s.rx)) := by
      intro v
      refine pend_congr s.fl (popped_wf h.wrx) ?_
      intro j hj
      refine upd_ne _ _ ?_
      intro e
      subst e
      omega
    have hout : ∀ v, (contents s.tx).map (fun u => upd s.pool n v u.toNat) = outgoing s := by
      intro v
      refine out_congr h.wtx ?_
      intro j hj
      refine upd_ne _ _ ?_
      intro e
      subst e
      omega
    have hwr : ∀ v, ∀ y ∈ s.writers, ∀ i, Writer.holds i y = true → upd s.pool n v i = some (wire s.fl y.data) :=
      fun v => h.wr_upd (fun k hk => upd_ne _ _ (by intro e; subst e; omega))
    cases hpay : payload s.fl bs with
    | some p =>
      rw [hpay] at hchk hview
      refine ⟨{ s with rx := popped s.rx, pool := upd s.pool n (some p), readers := [{ x with pc := .got n false }] }, .inside,
        ?_, ⟨⟨popped_wf h.wrx, h.wtx, ?_, by simp, ?_, ?_, ?_, hwr _⟩, ?_⟩, hout _⟩
      · simp only [readerCont, hnn, if_false, readerPkt, getPkt, Int.toNat_natCast, hpn, Outcome.bind_ok, hchk, hr,
          List.set_cons_zero]
      · intro j
        have hbj := h.bal j
        have hrj := hrg j
        unfold cnt at hbj ⊢
        rw [hz] at hbj
        by_cases e : j = n
        · subst e
          simp only [upd_same, Option.isSome_some, Bool.toNat_true]
          have : List.countP (Reader.holds j) [{ x with pc := .got j false }] = 1 := by simp [Reader.holds]
          rw [this]
          rw [hz] at hbn
          omega
        · have : List.countP (Reader.holds j) [{ x with pc := .got n false }] = 0 := by
            simp [Reader.holds]
            omega
          rw [if_neg e] at hrj
          simp only
          rw [this, upd_ne _ _ e, ← hbj]
          omega
      · intro i hi
        rw [hpart] at hi
        cases hi
      · intro y hy
        simp only [List.mem_singleton] at hy
        subst hy
        exact hpart
      · exact hlen' _ (fun j hj => upd_ne _ _ hj)
      · rw [hview]
        unfold view
        simp only [hpend, hpart, hand, List.filterMap_cons, upd_same, List.filterMap_nil, cur, Option.toList_some]
    | none =>
      rw [hpay] at hchk hview
      have base : ∀ rds : List FlowIo.Reader, (rds = [] ∨ rds = [{ x with pc := .rx }]) →
          Inv { s with rx := popped s.rx, pool := upd s.pool n none, readers := rds } ∧
          view { s with rx := popped s.rx, pool := upd s.pool n none, readers := rds } = view s := by
        intro rds hrds
        have hcz : ∀ i, rds.countP (Reader.holds i) = 0 := by
          intro i
          rcases hrds with rfl | rfl <;> simp [Reader.holds]
        refine ⟨⟨popped_wf h.wrx, h.wtx, ?_, ?_, ?_, ?_, ?_, hwr _⟩, ?_⟩
        · intro j
          have hbj := h.bal j
          have hrj := hrg j
          unfold cnt at hbj ⊢
          simp only
          rw [hcz]
          rw [hz] at hbj
          by_cases e : j = n
          · subst e
            simp only [upd_same, Option.isSome_none, Bool.toNat_false]
            rw [hz] at hbn
            omega
          · rw [if_neg e] at hrj
            rw [upd_ne _ _ e, ← hbj]
            omega
        · rcases hrds with rfl | rfl <;> simp
        · intro i hi
          rw [hpart] at hi
          cases hi
        · intro y hy
          rcases hrds with rfl | rfl
          · cases hy
          · simp only [List.mem_singleton] at hy
            subst hy
            exact hpart
        · exact hlen' _ (fun j hj => upd_ne _ _ hj)
        · rw [hview]
          unfold view
          have : hand (upd s.pool n none) rds = [] := by
            rcases hrds with rfl | rfl <;> simp [hand]
          simp only [hpend, hpart, this, cur, Option.toList_none]
      cases hb : x.block with
      | true =>
        refine ⟨_, .inside, ?_, base [{ x with pc := .rx }] (Or.inr rfl), hout none⟩
        simp only [readerCont, hnn, if_false, readerPkt, getPkt, freePkt, Int.toNat_natCast, hpn, Outcome.bind_ok, hchk, hr,
          List.set_cons_zero, hb, if_true]
      | false =>
        refine ⟨_, .ret (-EAGAIN), ?_, base [] (Or.inl rfl), hout none⟩
        simp only [readerCont, hnn, if_false, readerPkt, getPkt, freePkt, Int.toNat_natCast, hpn, Outcome.bind_ok, hchk, hr,
          List.eraseIdx_cons_zero, hb, Bool.false_eq_true]

theorem good_rx {keep : List Byte → List Byte} {s : St} (h : Inv s) (k : Nat) (rc : Int) : Good keep s (.readerRx k rc) := by
  have hev : ∀ r, evs s (.readerRx k rc) r = [] := fun r => rfl
  cases hx : s.readers[k]? with
  | none => exact Good.of (s' := s) (r := .inside) (by simp [step, readerRx, hx]) ⟨h, rfl⟩ (hev _) (TxStep.keep rfl rfl rfl)
  | some x =>
    obtain ⟨rfl, hr⟩ := single h hx
    cases hp : x.pc with
    | got i fp => exact Good.of (s' := s) (r := .inside) (by simp [step, readerRx, hx, hp]) ⟨h, rfl⟩ (hev _) (TxStep.keep rfl rfl rfl)
    | rx =>
      have key : ∃ q, ringRead s.rx x.block = .ok q ∧ Took s.rx q := by
        unfold ringRead
        split
        · obtain ⟨q, h1, h2, _⟩ := onRing_readB h.wrx
          exact ⟨q, h1, h2⟩
        · obtain ⟨q, h1, h2, _⟩ := onRing_read h.wrx
          exact ⟨q, h1, h2⟩
      obtain ⟨q, h1, h2⟩ := key
      obtain ⟨s', r, h3, h4, h5⟩ := readerCont_ok h hr (Or.inl hp) h2
      refine Good.of (s' := s') (r := r) ?_ h4 (hev _) (TxStep.keep rfl rfl h5)
      simp only [step, readerRx, hx, hp, h1, Outcome.bind_ok]
      exact h3
    | rxWait =>
      obtain ⟨q, h1, h2, _⟩ := onRing_readBLoop h.wrx (-rc)
      obtain ⟨s', r, h3, h4, h5⟩ := readerCont_ok h hr (Or.inr hp) h2
      refine Good.of (s' := s') (r := r) ?_ h4 (hev _) (TxStep.keep rfl rfl h5)
      simp only [step, readerRx, hx, hp, h1, Outcome.bind_ok]
      exact h3

theorem good_done {keep : List Byte → List Byte} {s : St} (h : Inv s) (k : Nat) : Good keep s (.readerDone k) := by
  cases hx : s.readers[k]? with
  | none =>
    refine Good.of (s' := s) (r := .inside) (by simp [step, readerDone, hx]) ⟨h, rfl⟩ rfl (TxStep.keep rfl rfl rfl)
  | some x =>
    obtain ⟨rfl, hr⟩ := single h hx
    have hidle : (x.pc = .rx ∨ x.pc = .rxWait) → Good keep s (.readerDone 0) := by
      intro hp
      refine Good.of (s' := s) (r := .inside) ?_ ⟨h, rfl⟩ rfl (TxStep.keep rfl rfl rfl)
      rcases hp with hp | hp <;> simp [step, readerDone, hx, hp]
    cases hp : x.pc with
    | rx => exact hidle (Or.inl hp)
    | rxWait => exact hidle (Or.inr hp)
    | got i fp =>
      have hrd := h.rd x (by rw [hr]; exact List.mem_singleton.mpr rfl)
      rw [hp] at hrd
      -- where the packet is
      have hown : (inRing s.tx i = 0 ∧ inRing s.rx i = 0 ∧ s.writers.countP (Writer.holds i) = 0) ∧ ∃ bs, s.pool i = some bs := by
        have hb := h.bal i
        unfold cnt at hb
        have h1 : s.readers.countP (Reader.holds i) + inPart s.fl i = 1 := by
          rw [hr]
          cases fp with
          | true => simp only at hrd; simp [Reader.holds, hp, inPart, hrd]
          | false => simp only at hrd; simp [Reader.holds, hp, inPart, hrd]
        cases hs : s.pool i with
        | none =>
          rw [hs] at hb
          simp only [Option.isSome_none, Bool.toNat_false] at hb
          omega
        | some bs =>
          rw [hs] at hb
          simp only [Option.isSome_some, Bool.toNat_true] at hb
          exact ⟨by omega, bs, rfl⟩
      obtain ⟨⟨ho1, ho2, ho3⟩, bs, hbs⟩ := hown
      have hoth : ∀ j, j ≠ i → s.readers.countP (Reader.holds j) = 0 := by
        intro j hj
        rw [hr]
        cases fp <;> simp [Reader.holds, hp] ; omega
      have hpj : ∀ j, j ≠ i → inPart s.fl j = 0 := by
        intro j hj
        unfold inPart
        cases fp with
        | true => simp only at hrd; rw [hrd]; simp; omega
        | false => simp only at hrd; rw [hrd]; simp
      have hpend : ∀ v, pend s.fl (upd s.pool i v) (contents s.rx) = pend s.fl s.pool (contents s.rx) := by
        intro v
        refine pend_congr s.fl h.wrx ?_
        intro j hj
        refine upd_ne _ _ ?_
        intro e
        subst e
        omega
      have hlen' : ∀ v, s.fl.crc = true → ∀ j : Nat, (j : Int) ∈ contents s.rx → ∀ b, upd s.pool i v j = some b →
          b.length = 0 ∨ 4 ≤ b.length := by
        intro v hcr j hj b hb
        have hne : j ≠ i := by
          intro e
          subst e
          exact inRing_pos hj ho2
        rw [upd_ne _ _ hne] at hb
        exact h.len hcr j hj b hb
      have hout : ∀ v, (contents s.tx).map (fun u => upd s.pool i v u.toNat) = outgoing s := by
        intro v
        refine out_congr h.wtx ?_
        intro j hj
        refine upd_ne _ _ ?_
        intro e
        subst e
        omega
      have hwr : ∀ v, ∀ y ∈ s.writers, ∀ j, Writer.holds j y = true → upd s.pool i v j = some (wire s.fl y.data) :=
        fun v => h.wr_upd (fun k hk => upd_ne _ _ (by intro e; subst e; omega))
      -- the state after, with the new value of `part`
      have base : ∀ p v, (v = none ∧ (p = .no ∨ p = .done)) ∨ (v = some [] ∧ p = .at i) →
          Inv { s with pool := upd s.pool i v, readers := [], fl := { s.fl with part := p } } ∧
          view { s with pool := upd s.pool i v, readers := [], fl := { s.fl with part := p } } =
            ⟨pend s.fl s.pool (contents s.rx), cur p⟩ := by
        intro p v hpv
        refine ⟨⟨h.wrx, h.wtx, ?_, by simp, ?_, ?_, hlen' v, hwr v⟩, ?_⟩
        · intro j
          have hb := h.bal j
          unfold cnt at hb ⊢
          simp only [List.countP_nil]
          by_cases e : j = i
          · subst e
            rw [upd_same]
            rcases hpv with ⟨rfl, rfl | rfl⟩ | ⟨rfl, rfl⟩ <;> simp [inPart, ho1, ho2, ho3]
          · have h1 := hoth j e
            have h2 := hpj j e
            rw [upd_ne _ _ e, ← hb, h1, h2]
            have h3 : inPart { s.fl with part := p } j = 0 := by
              unfold inPart
              rcases hpv with ⟨_, rfl | rfl⟩ | ⟨_, rfl⟩
              · rfl
              · rfl
              · simp; omega
            rw [h3]
        · intro j hj
          rcases hpv with ⟨_, rfl | rfl⟩ | ⟨rfl, rfl⟩
          · cases hj
          · cases hj
          · cases hj
            simp
        · intro y hy
          cases hy
        · unfold view
          simp only [hand, List.filterMap_nil, List.nil_append]
          have : pend { s.fl with part := p } (upd s.pool i v) (contents s.rx) = pend s.fl (upd s.pool i v) (contents s.rx) := rfl
          rw [this, hpend]
      have hstep : step s (.readerDone 0) = (if bs.length ≤ x.count then
          .ok ({ s with pool := upd s.pool i none, readers := [],
                        fl := { s.fl with part := if x.partrd && bs.length == x.count then .done else .no } }, .data bs)
        else if x.partrd then
          .ok ({ s with pool := upd s.pool i (some []), readers := [], fl := { s.fl with part := .at i } }, .data (bs.take x.count))
        else .ok ({ s with pool := upd s.pool i none, readers := [] }, .ret (-EMSGSIZE))) := by
        have he : s.readers.eraseIdx 0 = [] := by rw [hr]; rfl
        simp only [step, readerDone, hx, hp, getPkt, freePkt, hbs, Outcome.bind_ok, he, Outcome.pure_eq, List.drop_length]
      have hev : ∀ b, evs s (.readerDone 0) (.data b) = [.read x.count x.partrd b] := by
        intro b
        simp only [evs, hx]
      have hev2 : ∀ v, evs s (.readerDone 0) (.ret v) = [.tooLong x.count] := by
        intro v
        simp only [evs, hx]
      cases fp with
      | true =>
        simp only at hrd
        have hb0 := h.emp i hrd
        rw [hbs] at hb0
        injection hb0 with hb0
        subst hb0
        have hv : view s = ⟨pend s.fl s.pool (contents s.rx), some []⟩ := by
          unfold view
          rw [hrd, hr]
          simp [hand, hp, cur]
        rw [if_pos (show ([] : List Byte).length ≤ x.count from Nat.zero_le _)] at hstep
        refine ⟨_, _, hstep, (base _ none (Or.inl ⟨rfl, ?_⟩)).1, TxStep.keep rfl rfl (hout none), ?_⟩
        · split
          · exact Or.inr rfl
          · exact Or.inl rfl
        · intro _ hnl
          have hp' : (x.partrd && ([] : List Byte).length == x.count) = false := by
            cases hq : x.partrd with
            | false => rfl
            | true =>
              have := (hnl x i true [] hx hp hbs hq).2 rfl
              simp only [List.length_nil, Bool.true_and, beq_eq_false_iff_ne, ne_eq]
              omega
          have := (base .no none (Or.inl ⟨rfl, Or.inl rfl⟩)).2
          simp only [hp', Bool.false_eq_true, if_false]
          rw [this, hev, hv]
          simp only [follow, next, Spec.Datagrams.read, if_true, Option.bind_some]
          rfl
      | false =>
        simp only at hrd
        have hv : view s = ⟨bs :: pend s.fl s.pool (contents s.rx), none⟩ := by
          unfold view
          rw [hrd, hr]
          simp [hand, hp, cur, hbs]
        by_cases hle : bs.length ≤ x.count
        · rw [if_pos hle] at hstep
          refine ⟨_, _, hstep, (base _ none (Or.inl ⟨rfl, ?_⟩)).1, TxStep.keep rfl rfl (hout none), ?_⟩
          · split
            · exact Or.inr rfl
            · exact Or.inl rfl
          · intro hk _
            have hv' := (base (if x.partrd && bs.length == x.count then .done else .no) none (Or.inl ⟨rfl, by
              split
              · exact Or.inr rfl
              · exact Or.inl rfl⟩)).2
            rw [hv', hev, hv]
            simp only [follow, next, Spec.Datagrams.read, deliver]
            by_cases hlt : bs.length < x.count
            · have : (bs.length == x.count) = false := by simp only [beq_eq_false_iff_ne]; omega
              simp only [if_pos hlt, if_true, Option.bind_some, this, Bool.and_false, Bool.false_eq_true, if_false]
              rfl
            · have he : bs.length = x.count := by omega
              have : (bs.length == x.count) = true := by simp only [beq_iff_eq]; exact he
              simp only [if_neg hlt, this, Bool.and_true]
              cases hq : x.partrd with
              | true =>
                have e1 : bs.take x.count = bs := by rw [← he]; exact List.take_length
                have e2 : bs.drop x.count = [] := by rw [← he]; exact List.drop_length
                simp only [if_true, e1, e2, hk, Option.bind_some]
                rfl
              | false =>
                simp only [Bool.false_eq_true, if_false, if_pos he, if_true, Option.bind_some]
                rfl
        · rw [if_neg hle] at hstep
          have hlt : ¬ bs.length < x.count := by omega
          have hne : ¬ bs.length = x.count := by omega
          cases hq : x.partrd with
          | true =>
            rw [hq, if_pos rfl] at hstep
            refine ⟨_, _, hstep, (base (.at i) (some []) (Or.inr ⟨rfl, rfl⟩)).1, TxStep.keep rfl rfl (hout (some [])), ?_⟩
            intro hk hnl
            rw [(base (.at i) (some []) (Or.inr ⟨rfl, rfl⟩)).2, hev, hv]
            have := (hnl x i false bs hx hp hbs hq).1 rfl (by omega)
            simp only [follow, next, Spec.Datagrams.read, deliver, if_neg hlt, hq, if_true, Option.bind_some, this]
            rfl
          | false =>
            rw [hq] at hstep
            simp only [Bool.false_eq_true, if_false] at hstep
            have hb := base .no none (Or.inl ⟨rfl, Or.inl rfl⟩)
            have hfl : { s.fl with part := .no } = s.fl := by
              have : s.fl = { s.fl with part := s.fl.part } := rfl
              rw [hrd] at this
              exact this.symm
            rw [hfl] at hb
            refine ⟨_, _, hstep, hb.1, TxStep.keep rfl rfl (hout none), ?_⟩
            intro _ _
            rw [hb.2, hev2, hv]
            simp only [follow, next, Spec.Datagrams.read, deliver, if_neg hlt, if_neg hne, Bool.false_eq_true, if_false,
              Option.bind_some]
            rfl

theorem good_peerPut {keep : List Byte → List Byte} {s : St} (h : Inv s) (i : Nat) (bs : List Byte)
    (ok : Ok s (.peerPut i bs)) : Good keep s (.peerPut i bs) := by
  obtain ⟨hn, hk, hl⟩ := ok
  have hn' := pool_none h hn
  have e := onRing_writeB h.wrx i
  by_cases ha : s.rx.acl ≠ ACL_RDWR
  · rw [if_pos ha] at e
    have hd := hk.deny ha
    refine Good.of (s' := s) (r := .ret s.rx.denyCode) ?_ ⟨h, rfl⟩ ?_ (TxStep.keep rfl rfl rfl)
    · simp only [step, FlowIo.peerPut, e, Outcome.bind_ok, Outcome.pure_eq, putEnd]
      simp [hd]
    · unfold evs
      split
      · next h1 h2 =>
        simp only [Ret.ret.injEq] at h2
        omega
      all_goals first | rfl | (next h1 h2 => cases h1)
  · rw [if_neg ha] at e
    cases hf : s.rx.free with
    | false =>
      rw [hf] at e
      simp only [Bool.not_false, if_true] at e
      refine Good.of (s' := s) (r := .inside) ?_ ⟨h, rfl⟩ rfl (TxStep.keep rfl rfl rfl)
      simp only [step, FlowIo.peerPut, e, Outcome.bind_ok, Outcome.pure_eq, putEnd]
      simp
    | true =>
      rw [hf] at e
      simp only [Bool.not_true, Bool.false_eq_true, if_false] at e
      have hcont := pushed_contents h.wrx i (h.wrx.free_iff.mp hf)
      have hpend : pend s.fl (upd s.pool i (some bs)) (contents s.rx) = pend s.fl s.pool (contents s.rx) := by
        refine pend_congr s.fl h.wrx ?_
        intro j hj
        refine upd_ne _ _ ?_
        intro e
        subst e
        omega
      refine ⟨{ s with rx := pushed s.rx i, pool := upd s.pool i (some bs) }, .ret 0, ?_,
        ⟨pushed_wf h.wrx i, h.wtx, ?_, h.one, ?_, h.rd, ?_,
          h.wr_upd (fun k hk => upd_ne _ _ (by intro e; subst e; omega))⟩, TxStep.keep rfl rfl ?_, ?_⟩
      · simp only [step, FlowIo.peerPut, e, Outcome.bind_ok, Outcome.pure_eq, putEnd]
        simp
      · intro j
        have hb := h.bal j
        unfold cnt at hb ⊢
        simp only
        rw [inRing_pushed h.wrx hf]
        by_cases e : j = i
        · subst e
          simp only [upd_same, Option.isSome_some, Bool.toNat_true, if_true]
          omega
        · rw [upd_ne _ _ e, ← hb, if_neg e]
          omega
      · intro j hj
        have := h.emp j hj
        have hne : j ≠ i := by
          intro e
          subst e
          rw [hn] at this
          cases this
        simp only
        rw [upd_ne _ _ hne]
        exact this
      · intro hcr j hj b hb
        simp only at hj hb hcr
        by_cases e : j = i
        · subst e
          rw [upd_same] at hb
          injection hb with hb
          subst hb
          exact hl hcr
        · rw [upd_ne _ _ e] at hb
          rw [hcont] at hj
          rcases List.mem_append.mp hj with hj | hj
          · exact h.len hcr j hj b hb
          · simp only [List.mem_singleton] at hj
            omega
      · refine out_congr h.wtx ?_
        intro j hj
        refine upd_ne _ _ ?_
        intro e
        subst e
        omega
      · intro _ _
        have hv : view { s with rx := pushed s.rx i, pool := upd s.pool i (some bs) } =
            ⟨(view s).queue ++ (payload s.fl bs).toList, (view s).cur⟩ := by
          unfold view
          simp only
          rw [hcont, hand_congr (pool := s.pool) (fun j hj => upd_ne _ _ (by intro e; subst e; omega))]
          unfold pend at hpend ⊢
          rw [List.filterMap_append, hpend, List.append_assoc]
          simp only [List.filterMap_cons, List.filterMap_nil, Int.toNat_natCast, upd_same, Option.bind_some]
          cases payload s.fl bs <;> rfl
        rw [hv]
        simp only [evs]
        cases payload s.fl bs with
        | none => simp [follow]
        | some d => simp [follow, next]

/-- Steps that change access words and settings only. -/
theorem Inv.acl {s : St} (h : Inv s) (a b : Nat) (fl : Flow) (hq : fl.qs = s.fl.qs) (hp : fl.part = s.fl.part) :
    Inv { s with rx := { s.rx with acl := a }, tx := { s.tx with acl := b }, fl := fl } ∧
    view { s with rx := { s.rx with acl := a }, tx := { s.tx with acl := b }, fl := fl } = view s := by
  have hcrc : fl.crc = s.fl.crc := by unfold Flow.crc; rw [hq]
  refine ⟨⟨wf_acl h.wrx a, wf_acl h.wtx b, ?_, h.one, ?_, ?_, ?_, ?_⟩, ?_⟩
  · intro i
    rw [← h.bal i]
    have : inPart fl i = inPart s.fl i := by unfold inPart; rw [hp]
    unfold cnt
    simp only [inRing_acl, this]
  · intro i hi
    exact h.emp i (hp ▸ hi)
  · intro x hx
    have := h.rd x hx
    simp only [hp]
    exact this
  · intro hc i hi
    simp only [hcrc] at hc
    exact h.len hc i hi
  · intro x hx i hi
    have := h.wr x hx i hi
    unfold wire at this ⊢
    simp only [hcrc]
    exact this
  · have hpay : payload fl = payload s.fl := by
      funext b
      unfold payload rxCheck
      rw [hcrc]
    unfold view
    simp only [hp]
    have : contents { s.rx with acl := a } = contents s.rx := rfl
    rw [this]
    unfold pend
    rw [hpay]

theorem good_fccntl {keep : List Byte → List Byte} {s : St} (h : Inv s) (c : Cmd) (ok : Ok s (.fccntl c)) :
    Good keep s (.fccntl c) := by
  have hev : ∀ r, evs s (.fccntl c) r = [] := fun r => rfl
  have keepS : ∀ r, FlowIo.fccntl s c = .ok (s, r) → Good keep s (.fccntl c) :=
    fun r e => Good.of (s' := s) (r := r) e ⟨h, rfl⟩ (hev _) (TxStep.keep rfl rfl rfl)
  have keepF : ∀ r fl, fl.qs = s.fl.qs → fl.part = s.fl.part → FlowIo.fccntl s c = .ok ({ s with fl := fl }, r) →
      Good keep s (.fccntl c) :=
    fun r fl h1 h2 e => Good.of (r := r) e (h.acl s.rx.acl s.tx.acl fl h1 h2) (hev _) (TxStep.keep rfl rfl rfl)
  cases ho : s.fl.isOpen with
  | false => exact keepS (.ret (-ENOTALLOC)) (by simp [FlowIo.fccntl, ho])
  | true =>
    cases c with
    | setSnd t => exact keepF (.ret 0) { s.fl with sndTimeo := t } rfl rfl (by simp [FlowIo.fccntl, ho])
    | setRcv t => exact keepF (.ret 0) { s.fl with rcvTimeo := t } rfl rfl (by simp [FlowIo.fccntl, ho])
    | getSnd n =>
      cases n with
      | true => exact keepS (.ret (-EINVAL)) (by simp [FlowIo.fccntl, ho])
      | false =>
        cases ht : s.fl.sndTimeo with
        | none => exact keepS (.ret (-EPERM)) (by simp [FlowIo.fccntl, ho, ht])
        | some t => exact keepS (.timeo t) (by simp [FlowIo.fccntl, ho, ht])
    | getRcv n =>
      cases n with
      | true => exact keepS (.ret (-EINVAL)) (by simp [FlowIo.fccntl, ho])
      | false =>
        cases ht : s.fl.rcvTimeo with
        | none => exact keepS (.ret (-EPERM)) (by simp [FlowIo.fccntl, ho, ht])
        | some t => exact keepS (.timeo t) (by simp [FlowIo.fccntl, ho, ht])
    | getQos n =>
      cases n with
      | true => exact keepS (.ret (-EINVAL)) (by simp [FlowIo.fccntl, ho])
      | false => exact keepS (.qos s.fl.qs) (by simp [FlowIo.fccntl, ho])
    | rxLen n =>
      have : n = false := ok
      subst this
      exact keepS (.len s.rx.used) (by simp [FlowIo.fccntl, ho, store])
    | txLen n =>
      have : n = false := ok
      subst this
      exact keepS (.len s.tx.used) (by simp [FlowIo.fccntl, ho, store])
    | setFlags f =>
      refine Good.of (s' := setFlags s f) (r := .ret 0) (by simp [step, FlowIo.fccntl, ho]) ?_ (hev _) (TxStep.keep rfl rfl rfl)
      unfold setFlags
      exact h.acl _ _ _ rfl rfl
    | getFlags n =>
      cases n with
      | true => exact keepS (.ret (-EINVAL)) (by simp [FlowIo.fccntl, ho])
      | false => exact keepS (.flags s.fl.oflags) (by simp [FlowIo.fccntl, ho])
    | setFrct f =>
      cases ht : s.fl.frct with
      | none => exact keepS (.ret (-EPERM)) (by simp [FlowIo.fccntl, ho, ht])
      | some c =>
        exact keepF (.ret 0) { s.fl with frct := some ((c &&& FRCTFRTX) &&& (f % 2 ^ 16 ||| FRCTFRTX)) } rfl rfl
          (by simp [FlowIo.fccntl, ho, ht])
    | getFrct n =>
      cases n with
      | true => exact keepS (.ret (-EINVAL)) (by simp [FlowIo.fccntl, ho])
      | false =>
        cases ht : s.fl.frct with
        | none => exact keepS (.ret (-EPERM)) (by simp [FlowIo.fccntl, ho, ht])
        | some t => exact keepS (.flags t) (by simp [FlowIo.fccntl, ho, ht])
    | other n => exact keepS (.ret (-ENOTSUP)) (by simp [FlowIo.fccntl, ho])

/-- Every `Ok` step is defined, keeps the ownership invariant and follows the datagram reader. -/
theorem good_step {keep : List Byte → List Byte} {s : St} (h : Inv s) (op : Op) (ok : Ok s op) : Good keep s op := by
  cases op with
  | write b => exact good_write h b
  | writerAlloc w i => exact good_alloc h w i ok
  | writerRefused w => exact good_refused h w
  | writerTx w rc => exact good_tx h w rc ok
  | read count => exact good_read h count ok
  | readerRx r rc => exact good_rx h r rc
  | readerDone r => exact good_done h r
  | fccntl c => exact good_fccntl h c ok
  | keepalive i => exact good_keepalive h i ok
  | peerPut i bs => exact good_peerPut h i bs ok
  | peerGet => exact good_peerGet h
  | peerTimeout =>
    refine Good.of (s' := peerTimeout s) (r := .ret 0) rfl ?_ rfl
      (TxStep.keep rfl rfl (by unfold peerTimeout; split <;> rfl))
    unfold peerTimeout
    split
    · exact ⟨h, rfl⟩
    · exact h.acl ACL_FLOWPEER s.tx.acl s.fl rfl rfl
  | peerDown => exact Good.of (s' := peerDown s) (r := .ret 0) rfl (h.acl _ _ _ rfl rfl) rfl (TxStep.keep rfl rfl rfl)

theorem inv_init (k : Nat) (qs : Qoscube.Spec) : Inv (init k qs) := by
  refine ⟨Rbuff.create_wf k, Rbuff.create_wf k, ?_, by simp [init], ?_, ?_, ?_, ?_⟩
  · intro i
    simp [cnt, init, inRing, create_contents, inPart]
  · intro i hi; cases hi
  · intro x hx; cases hx
  · intro _ i hi
    simp [init, create_contents] at hi
  · intro x hx; cases hx

theorem out_init (k : Nat) (qs : Qoscube.Spec) : outgoing (init k qs) = [] := by
  simp [outgoing, init, create_contents]

theorem view_init (k : Nat) (qs : Qoscube.Spec) : view (init k qs) = ⟨[], none⟩ := by
  simp [view, init, hand, pend, create_contents, cur]

end Ouro.FlowIo
