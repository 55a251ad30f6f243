import Verif.Model.Fa
import Verif.Proof.Pft
import Verif.Proof.Tac
import Verif.Spec.Endpoints

namespace Ouro.Fa

open Spec.FiniteMap Spec.Endpoints
open Ouro.Pft (rd_ok wr_ok)

/-- The endpoint id made of a random number and a descriptor. -/
def mkEid (r : BitVec 32) (fd : Nat) : BitVec 64 := BitVec.ofNat 64 (r.toNat * 2 ^ 32 + fd)

theorem mkEid_toNat (r : BitVec 32) (fd : Nat) (h : fd < 2 ^ 32) : (mkEid r fd).toNat = r.toNat * 2 ^ 32 + fd := by
  have := r.isLt
  unfold mkEid
  rw [BitVec.toNat_ofNat, Nat.mod_eq_of_lt]
  omega

theorem genEid_some (s : State) (fd : Nat) (r : BitVec 32) (h : fd < 2 ^ 32) : genEid s fd (some r) = mkEid r fd := by
  have hr := r.isLt
  apply BitVec.eq_of_toNat_eq
  rw [mkEid_toNat r fd h]
  unfold genEid
  simp only [BitVec.toNat_add, BitVec.toNat_shiftLeft, BitVec.toNat_setWidth, BitVec.toNat_ofNat, Nat.shiftLeft_eq]
  omega

theorem low_toInt (eid : BitVec 64) (fd : Nat) (h : fd < 4096) :
    (eid.setWidth 32).toInt = fd ↔ eid.toNat % 2 ^ 32 = fd := by
  rw [BitVec.toInt_eq_toNat_cond, BitVec.toNat_setWidth]
  have := Nat.mod_lt eid.toNat (show 0 < 2 ^ 32 by decide)
  split <;> omega

/-- which descriptor owns an endpoint id -/
def owner (m : Map Nat Ep) (eid : BitVec 64) (fd : Nat) : Prop := ∃ ep, m fd = some ep ∧ ep.eid = eid

/-- The flow table represents the map. -/
structure Ref (s : State) (m : Map Nat Ep) : Prop where
  len : s.flows.length = maxFlows
  range : ∀ fd ep, m fd = some ep → 64 ≤ fd ∧ fd < maxFlows ∧ ∃ r, ep.eid = mkEid r fd
  live : ∀ fd ep (h : fd < s.flows.length), m fd = some ep → s.flows[fd] = ⟨ep.eid, ep.reid, ep.raddr, true⟩
  dead : ∀ fd (h : fd < s.flows.length), m fd = none → s.flows[fd].sEid = 0 ∨ s.flows[fd].sEid = -1

theorem eid_low {m : Map Nat Ep} {s : State} (h : Ref s m) {fd : Nat} {ep : Ep} (he : m fd = some ep) :
    ep.eid.toNat % 2 ^ 32 = fd := by
  obtain ⟨h1, h2, r, h3⟩ := h.range fd ep he
  unfold maxFlows at h2
  rw [h3, mkEid_toNat r fd (by omega)]
  omega

theorem owner_unique {m : Map Nat Ep} {s : State} (h : Ref s m) {eid : BitVec 64} {fd fd' : Nat} (h1 : owner m eid fd)
    (h2 : owner m eid fd') : fd = fd' := by
  obtain ⟨ep, e1, rfl⟩ := h1
  obtain ⟨ep', e2, e3⟩ := h2
  rw [← eid_low h e1, ← eid_low h e2, e3]

theorem eidToFd_spec {m : Map Nat Ep} {s : State} (h : Ref s m) (eid : BitVec 64) (hne : eid ≠ 0) :
    ∃ o, eidToFd s eid = .ok o ∧ ∀ fd, o = some fd ↔ owner m eid fd := by
  unfold eidToFd
  dsimp only
  by_cases hr : (eid.setWidth 32).toInt < 0 ∨ (maxFlows : Int) ≤ (eid.setWidth 32).toInt
  · rw [if_pos hr]
    refine ⟨none, rfl, ?_⟩
    intro fd
    constructor
    · intro h; cases h
    · rintro ⟨ep, e1, rfl⟩
      have h1 := eid_low h e1
      have h2 := (h.range fd ep e1).2.1
      unfold maxFlows at h2
      rw [← low_toInt _ _ h2] at h1
      rw [h1] at hr
      unfold maxFlows at hr
      omega
  · rw [if_neg hr]
    obtain ⟨k, hk⟩ : ∃ k : Nat, (eid.setWidth 32).toInt = k := ⟨(eid.setWidth 32).toInt.toNat, by omega⟩
    have hkm : k < maxFlows := by omega
    have hkl : k < s.flows.length := by rw [h.len]; exact hkm
    rw [hk, Int.toNat_natCast, rd_ok hkl]
    simp only [Outcome.bind_ok, Outcome.pure_eq]
    refine ⟨_, rfl, ?_⟩
    intro fd
    have hlow : eid.toNat % 2 ^ 32 = k := (low_toInt eid k hkm).mp hk
    constructor
    · intro hs
      split at hs
      · rename_i he
        cases hs
        cases hm : m k with
        | some ep =>
          have := h.live k ep hkl hm
          rw [this] at he
          exact ⟨ep, hm, he⟩
        | none =>
          exfalso
          rcases h.dead k hkl hm with h0 | h0
          · rw [h0] at he; exact hne he.symm
          · rw [h0] at he
            rw [← he] at hlow
            unfold maxFlows at hkm
            have : (-1 : BitVec 64).toNat % 2 ^ 32 = 4294967295 := by decide
            omega
      · cases hs
    · rintro ⟨ep, e1, rfl⟩
      have h1 := eid_low h e1
      have hfk : fd = k := by omega
      subst hfk
      rw [if_pos]
      rw [h.live fd ep hkl e1]

theorem ref_init (e : BitVec 32) : Ref (init e) empty := by
  refine ⟨by simp [init], ?_, ?_, ?_⟩
  · intro fd ep h; cases h
  · intro fd ep _ h; cases h
  · intro fd h _; left; simp [init]

theorem ref_put {s : State} {m : Map Nat Ep} (h : Ref s m) (fd : Nat) (h1 : 64 ≤ fd) (h2 : fd < maxFlows) (ep : Ep)
    (he : ∃ r, ep.eid = mkEid r fd) (f : Flow) (hf : f = ⟨ep.eid, ep.reid, ep.raddr, true⟩) :
    Ref { s with flows := s.flows.set fd f } (put m fd ep) := by
  refine ⟨by simp [h.len], ?_, ?_, ?_⟩
  · intro x ep' hx
    unfold put at hx
    split at hx
    · rename_i e; subst e; cases hx; exact ⟨h1, h2, he⟩
    · exact h.range x ep' hx
  · intro x ep' hl hx
    unfold put at hx
    simp only [List.length_set] at hl
    simp only [List.getElem_set]
    split at hx
    · rename_i e; subst e; cases hx; simp [hf]
    · rename_i hne; rw [if_neg (fun e => hne e.symm)]; exact h.live x ep' hl hx
  · intro x hl hx
    unfold put at hx
    simp only [List.length_set] at hl
    simp only [List.getElem_set]
    split at hx
    · cases hx
    · rename_i hne; rw [if_neg (fun e => hne e.symm)]; exact h.dead x hl hx

theorem ref_remove {s : State} {m : Map Nat Ep} (h : Ref s m) (fd : Nat) :
    Ref { s with flows := s.flows.set fd flowFini } (remove m fd) := by
  refine ⟨by simp [h.len], ?_, ?_, ?_⟩
  · intro x ep' hx
    unfold remove at hx
    split at hx
    · cases hx
    · exact h.range x ep' hx
  · intro x ep' hl hx
    unfold remove at hx
    simp only [List.length_set] at hl
    simp only [List.getElem_set]
    split at hx
    · cases hx
    · rename_i hne; rw [if_neg (fun e => hne e.symm)]; exact h.live x ep' hl hx
  · intro x hl hx
    unfold remove at hx
    simp only [List.length_set] at hl
    simp only [List.getElem_set]
    by_cases e : x = fd
    · subst e; simp [flowFini]
    · rw [if_neg (fun h => e h.symm)]
      rw [if_neg e] at hx
      exact h.dead x hl hx

theorem answered_none {m : Map Nat Ep} {eid reid : BitVec 64} {accept : Bool} (h : ∀ fd, ¬ owner m eid fd) :
    Spec.Endpoints.step m (.answered eid reid accept) = m := by
  funext fd
  simp only [Spec.Endpoints.step]
  cases hm : m fd with
  | none => rfl
  | some ep =>
    have : ep.eid ≠ eid := fun e => h fd ⟨ep, hm, e⟩
    simp [this]

theorem answered_some {m : Map Nat Ep} {s : State} (hr : Ref s m) {eid reid : BitVec 64} {accept : Bool} {fd : Nat} {ep : Ep}
    (h : m fd = some ep) (he : ep.eid = eid) :
    Spec.Endpoints.step m (.answered eid reid accept) = if accept then put m fd { ep with reid := reid } else remove m fd := by
  funext x
  simp only [Spec.Endpoints.step]
  by_cases hx : x = fd
  · subst hx
    cases accept <;> simp [h, he, put, remove]
  · cases hmx : m x with
    | none => cases accept <;> simp [put, remove, hx, hmx]
    | some ep' =>
      have : ep'.eid ≠ eid := fun e => hx (owner_unique hr ⟨ep', hmx, e⟩ ⟨ep, h, he⟩)
      cases accept <;> simp [put, remove, hx, hmx, this]

end Ouro.Fa
