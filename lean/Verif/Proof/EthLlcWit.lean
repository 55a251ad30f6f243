import Verif.Proof.EthMsg

namespace Ouro.EthLlc

open Ouro.FaMsg

def c0 : Cfg := ⟨0x010203040506, 1500, 32⟩

def check (ops : List Op) (p : Host → Bool) : Bool :=
  match run c0 init ops with
  | .ok s => p s
  | .ub => false

theorem check_prop {ops : List Op} {p : Host → Bool} (h : check ops p = true) : ∃ s, run c0 init ops = .ok s ∧ p s = true := by
  unfold check at h
  split at h
  · rename_i s hs; exact ⟨s, hs, h⟩
  · cases h

def fails (ops : List Op) : Bool :=
  match run c0 init ops with
  | .ok _ => false
  | .ub => true

theorem fails_ub {ops : List Op} (h : fails ops = true) : run c0 init ops = .ub := by
  unfold fails at h
  split at h
  · cases h
  · assumption

def q0 : Qos := ⟨0, 0, 0, 0, 0, 0, 0, 0, 0⟩
def h0 : List Byte := List.replicate 32 7
def j0 : Junk := ⟨0, 0, 0⟩

theorem q0_wf : q0.WF := by unfold q0 Qoscube.Spec.WF; decide

/-- A management frame from host `a` to this host. -/
def mframe (a : Nat) (m : List Byte) : List Byte := frame c0.mac a (reverseBits 1) (reverseBits 1) m

/-- Host 9 says it has name `h0`. -/
def announce : List Op := [.recv (mframe 9 (queryMsg NAME_QUERY_REPLY h0 j0)) [] none, .mgmt none true j0]

/-- Host 9 has name `h0`, and flow 64 is allocated to its SAP 5; the SAP here is 2. -/
def opening : List Op :=
  announce ++ [.alloc 64 h0 q0 [5] true j0, .recv (mframe 9 (reply 5 2 0 [6] j0)) [] none, .mgmt none true j0]

/-- Name `h0` is registered here, and flow 64 is allocated to SAP 5 of host 9, which asked for it; the SAP here is 2. -/
def serving : List Op :=
  [.reg h0, .recv (mframe 9 (request 5 q0 h0 [5] j0)) [] none, .mgmt (some 64) true j0, .mgmtStore, .resp 64 0 [6] true j0]

theorem reverse_toNat (x : Byte) : (reverseBits (reverseBits x)).toNat = x.toNat := by rw [reverse_invol]

theorem honest_mgmt (a : Nat) (ha : a < 2 ^ 48) (p : List Byte) (hp : p.length ≤ 1497) (m : Msg) (hm : parse c0.hashLen p = .ok m) (hr : ∀ ssap dsap r data, m = .reply ssap dsap r data → r = 0 ∧ dsap < 64) :
    Honest c0 (mframe a p) :=
  ⟨c0.mac, a, _, _, p, by decide, ha, by omega, ⟨[], by rw [List.append_nil]; rfl⟩, by decide, fun _ _ => ⟨m, hm, hr⟩⟩

theorem run_append (c : Cfg) (l1 l2 : List Op) : ∀ s, run c s (l1 ++ l2) = match run c s l1 with | .ok s' => run c s' l2 | .ub => .ub := by
  induction l1 with
  | nil => intro s; rfl
  | cons op l ih =>
    intro s
    simp only [List.cons_append, run]
    split
    · rfl
    · exact ih _

/-- Whether all steps of a history meet a test. -/
def allSteps (t : Host → Op → Bool) (s : Host) : List Op → Bool
  | [] => true
  | op :: l => t s op && match step c0 s op with
    | .ok s' => allSteps t s' l
    | .ub => true

theorem along_of {P : Host → Op → Prop} {t : Host → Op → Bool} (ht : ∀ s op, t s op = true → P s op) : ∀ (ops : List Op) (s : Host), allSteps t s ops = true → Along c0 P s ops := by
  intro ops
  induction ops with
  | nil => intro s _; trivial
  | cons op l ih =>
    intro s h
    simp only [allSteps, Bool.and_eq_true] at h
    refine ⟨ht _ _ h.1, fun s' hs => ih _ ?_⟩
    have := h.2
    rw [hs] at this
    exact this

def calmT (s : Host) : Op → Bool
  | .dealloc fd => decide (s.await ≠ some fd) && match s.busy with | none => true | some b => decide (b.fd ≠ fd)
  | _ => true

theorem calmT_calm (s : Host) (op : Op) (h : calmT s op = true) : Calm s op := by
  cases op with
  | dealloc fd =>
    simp only [calmT, Bool.and_eq_true, decide_eq_true_eq] at h
    refine ⟨h.1, fun b hb => ?_⟩
    have := h.2
    rw [hb] at this
    simpa using this
  | _ => trivial

/-- What is enough for `Fair`: no flow was ever given SAP 63. -/
def fairT (s : Host) : Op → Bool
  | .recv .. => true
  | .alloc .. => s.log.all (fun e => match e with | .assigned _ sap => sap != 63 | _ => true)
  | .resp _ response data ok _ => decide (response = 0) && s.log.all (fun e => match e with | .assigned _ sap => sap != 63 | _ => true) && decide (36 + data.length + 3 ≤ c0.mtu) && ok
  | .dealloc fd => !s.live fd || (List.range 64).any (fun sap => (since s.log fd).contains (.assigned fd sap))
  | _ => true

theorem room_of {log : List Event} (h : log.all (fun e => match e with | .assigned _ sap => sap != 63 | _ => true) = true) : Room log := by
  refine ⟨63, by decide, by decide, fun fd hs => ?_⟩
  rw [List.all_eq_true] at h
  have hm : Event.assigned fd 63 ∈ log := by
    have := (List.takeWhile_sublist _).subset hs
    simpa using this
  have := h _ hm
  simp at this

theorem fair_of (ops : List Op) (s : Host) (hr : ∀ fr mem over, .recv fr mem over ∈ ops → Honest c0 fr ∧ over = none) (h : allSteps fairT s ops = true) : Along c0 (Fair c0) s ops := by
  induction ops generalizing s with
  | nil => trivial
  | cons op l ih =>
    simp only [allSteps, Bool.and_eq_true] at h
    refine ⟨?_, fun s' hs => ih s' (fun fr mem over hm => hr fr mem over (List.mem_cons_of_mem _ hm)) ?_⟩
    · have h1 := h.1
      cases op with
      | recv fr mem over => exact hr fr mem over List.mem_cons_self
      | alloc => exact room_of h1
      | resp fd r data ok j =>
        simp only [fairT, Bool.and_eq_true, decide_eq_true_eq] at h1
        obtain ⟨⟨⟨a1, a2⟩, a3⟩, a4⟩ := h1
        exact ⟨a1, room_of a2, a3, a4⟩
      | dealloc fd =>
        intro hl
        simp only [fairT, hl, Bool.not_true, Bool.false_or, List.any_eq_true, List.contains_iff_mem] at h1
        obtain ⟨sap, -, h1⟩ := h1
        exact ⟨sap, h1⟩
      | _ => trivial
    · have := h.2
      rw [hs] at this
      exact this

theorem answer_honest : Honest c0 (mframe 9 (queryMsg NAME_QUERY_REPLY h0 j0)) :=
  honest_mgmt 9 (by decide) _ (by decide +kernel) (.answer h0) (parse_query rfl j0).2 (by intro _ _ _ _ h; cases h)

theorem reply_honest : Honest c0 (mframe 9 (reply 5 2 0 [6] j0)) :=
  honest_mgmt 9 (by decide) _ (by decide +kernel) (.reply 5 2 0 [6]) (parse_reply (by decide) (by decide) (by decide) (by decide) _ _ _) (by intro _ _ _ _ h; cases h; decide)

theorem request_honest : Honest c0 (mframe 9 (request 5 q0 h0 [5] j0)) :=
  honest_mgmt 9 (by decide) _ (by decide +kernel) (.request 5 q0 h0 [5]) (parse_request (by decide) q0_wf rfl _ _) (by intro _ _ _ _ h; cases h)

theorem opening_calm : Along c0 Calm init opening := along_of calmT_calm _ _ (by decide +kernel)

theorem opening_fair : Along c0 (Fair c0) init opening := by
  refine fair_of _ _ ?_ (by decide +kernel)
  intro fr mem over h
  simp only [opening, announce, List.mem_append, List.mem_cons, List.not_mem_nil, or_false, reduceCtorEq, Op.recv.injEq, false_or] at h
  rcases h with ⟨rfl, -, rfl⟩ | ⟨rfl, -, rfl⟩
  · exact ⟨answer_honest, rfl⟩
  · exact ⟨reply_honest, rfl⟩

theorem serving_calm : Along c0 Calm init serving := along_of calmT_calm _ _ (by decide +kernel)

theorem serving_fair : Along c0 (Fair c0) init serving := by
  refine fair_of _ _ ?_ (by decide +kernel)
  intro fr mem over h
  simp only [serving, List.mem_cons, List.not_mem_nil, or_false, reduceCtorEq, Op.recv.injEq, false_or] at h
  obtain ⟨rfl, -, rfl⟩ := h
  exact ⟨request_honest, rfl⟩

/-- A refusal, which does not matter for `Calm`, and then another flow to the same host. -/
def refusal : List Op :=
  announce ++ [.alloc 64 h0 q0 [] true j0, .recv (mframe 9 (reply 5 2 (-1) [] j0)) [] none, .mgmt none true j0, .alloc 65 h0 q0 [] true j0, .recv (mframe 9 (reply 6 2 0 [] j0)) [] none, .mgmt none true j0]

/-- Flow 64, offered for a request of host 9, is responded to and deallocated before the handler has stored who asked; then 64 is allocated to host 7. -/
def reuse : List Op :=
  [.recv (mframe 7 (queryMsg NAME_QUERY_REPLY h0 j0)) [] none, .mgmt none true j0, .reg h0, .recv (mframe 9 (request 5 q0 h0 [] j0)) [] none, .mgmt (some 64) true j0, .resp 64 0 [] true j0, .dealloc 64,
   .alloc 64 h0 q0 [] true j0, .mgmtStore, .recv (frame c0.mac 9 (reverseBits 2) (reverseBits 5) [1]) [] none]

end Ouro.EthLlc
