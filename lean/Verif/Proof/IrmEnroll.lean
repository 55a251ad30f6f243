import Verif.Proof.Tac
import Verif.Proof.IrmTool
import Verif.Spec.IrmEnroll

/-!
# Proofs for C85
-/

namespace Ouro.IrmEnroll

open IrmTool (Str Plain Glob wild wild_plain)

theorem hit_plain (ipcp : Str) (type : Nat) (p : Proc) (h : Plain p.name) : hit ipcp type p = true ↔ Meant ipcp type p := by
  unfold hit Meant
  rw [Bool.and_eq_true, wild_plain _ _ h, beq_iff_eq]

theorem join_names (w : World) (pid : Nat) (l : Str) : (w.join pid l).ipcps.map Proc.name = w.ipcps.map Proc.name ∧
    (w.join pid l).ipcps.map Proc.pid = w.ipcps.map Proc.pid := by
  unfold World.join
  simp only [List.map_map]
  constructor
  · apply List.map_congr_left
    intro p _
    dsimp only [Function.comp]
    split <;> rfl
  · apply List.map_congr_left
    intro p _
    dsimp only [Function.comp]
    split <;> rfl

/-- With distinct names the layer that is found is that of the IPCP. -/
theorem layerName_join (ps : List Proc) (b : List (Nat × Str)) (q : Proc) (hn : (ps.map Proc.name).Nodup) (hq : q ∈ ps) (l : Str) :
    layerName (World.join ⟨ps, b⟩ q.pid l) q.name = some l := by
  unfold layerName World.join
  dsimp only
  induction ps with
  | nil => cases hq
  | cons x ps ih =>
    rw [List.map_cons, List.nodup_cons] at hn
    rw [List.map_cons]
    by_cases hx : x.name = q.name
    · have hxq : x = q := by
        rcases List.mem_cons.1 hq with rfl | hm
        · rfl
        · exact absurd (hx ▸ List.mem_map_of_mem hm) hn.1
      subst hxq
      rw [List.find?_cons_of_pos]
      · simp
      · simp
    · rcases List.mem_cons.1 hq with rfl | hm
      · exact absurd rfl hx
      · rw [List.find?_cons_of_neg]
        · exact ih hn.2 hm
        · by_cases hp : x.pid = q.pid <;> simp [hp, hx]

theorem autoBind_calls (e : Env) (w : World) (pid : Nat) (a b : Str) : (∀ c ∈ (autoBind e w pid a b).1, c.pid = some pid) ∧ (autoBind e w pid a b).2.2.ipcps = w.ipcps ∧
    ((autoBind e w pid a b).2.1 = true → (autoBind e w pid a b).1 = [.bind pid a, .bind pid b]) := by
  unfold autoBind
  split
  · split
    · refine ⟨?_, rfl, fun _ => rfl⟩
      intro c hc
      simp at hc
      rcases hc with rfl | rfl <;> rfl
    · refine ⟨?_, rfl, fun h => by cases h⟩
      intro c hc
      simp at hc
      rcases hc with rfl | rfl <;> rfl
  · refine ⟨?_, rfl, fun h => by cases h⟩
    intro c hc
    simp at hc
    rcases hc with rfl
    rfl

theorem enrollOne_calls (e : Env) (w : World) (p : Proc) (ipcp : Str) (layer : Option Str) (dst : Str) (auto : Bool) :
    (∀ c ∈ (enrollOne e w p ipcp layer dst auto).1, c.pid = some p.pid) ∧
    (enrollOne e w p ipcp layer dst auto).2.2.ipcps.map Proc.name = w.ipcps.map Proc.name ∧
    (enrollOne e w p ipcp layer dst auto).2.2.ipcps.map Proc.pid = w.ipcps.map Proc.pid := by
  have hone : ∀ c ∈ [Call.enroll p.pid dst], c.pid = some p.pid := by
    intro c hc
    simp at hc
    rw [hc]
    rfl
  unfold enrollOne
  split
  · exact ⟨hone, rfl, rfl⟩
  · rename_i l _
    obtain ⟨j1, j2⟩ := join_names w p.pid l
    dsimp only
    split
    · exact ⟨hone, j1, j2⟩
    · split
      · exact ⟨hone, j1, j2⟩
      · split
        · obtain ⟨a1, a2, -⟩ := autoBind_calls e (w.join p.pid l) p.pid ipcp ‹Str›
          dsimp only
          rw [a2]
          refine ⟨?_, j1, j2⟩
          intro c hc
          rcases List.mem_cons.1 hc with rfl | hc
          · rfl
          · exact a1 c hc
        · exact ⟨hone, j1, j2⟩

/-- What the success of a pass means. -/
theorem enrollOne_ok (e : Env) (w : World) (p : Proc) (ipcp : Str) (layer : Option Str) (dst : Str) (auto : Bool) (hn : (w.ipcps.map Proc.name).Nodup)
    (hp : ∃ q ∈ w.ipcps, q.pid = p.pid ∧ q.name = p.name) (h : (enrollOne e w p ipcp layer dst auto).2.1 = true) :
    ∃ l, e.enroll p.pid = some l ∧ (layer = none ∨ layer = some l) ∧
    (enrollOne e w p ipcp layer dst auto).1 = .enroll p.pid dst :: if auto then [.bind p.pid ipcp, .bind p.pid l] else [] := by
  obtain ⟨q, hq, q1, q2⟩ := hp
  unfold enrollOne at h ⊢
  cases he : e.enroll p.pid with
  | none => rw [he] at h; cases h
  | some l =>
    rw [he] at h
    have hl : layerName (w.join p.pid l) p.name = some l := by
      rw [← q1, ← q2]
      exact layerName_join w.ipcps w.binds q hn hq l
    dsimp only at h ⊢
    simp only [hl] at h ⊢
    refine ⟨l, rfl, ?_⟩
    split at h
    · cases h
    · rename_i hc
      rw [if_neg hc]
      refine ⟨?_, ?_⟩
      · cases layer with
        | none => exact Or.inl rfl
        | some y =>
          right
          by_contra hy
          exact hc ⟨rfl, hy⟩
      · split at h
        · rename_i ha
          simp only [ha, if_true]
          rw [(autoBind_calls e (w.join p.pid l) p.pid ipcp l).2.2 h]
        · rename_i ha
          simp [ha]

theorem loop_calls (e : Env) (ipcp : Str) (layer : Option Str) (dst : Str) (type : Nat) (auto : Bool) (l : List Proc) : ∀ w,
    ∀ c ∈ (enrollLoop e ipcp layer dst type auto l w).1, ∃ p ∈ l, hit ipcp type p = true ∧ c.pid = some p.pid := by
  induction l with
  | nil =>
    intro w c hc
    cases hc
  | cons p l ih =>
    intro w c hc
    unfold enrollLoop at hc
    dsimp only at hc
    split at hc
    · rename_i hh
      have h1 := (enrollOne_calls e w p ipcp layer dst auto).1
      split at hc
      · rcases List.mem_append.1 hc with hc | hc
        · exact ⟨p, by simp, hh, h1 c hc⟩
        · obtain ⟨q, hq, x⟩ := ih _ c hc
          exact ⟨q, by simp [hq], x⟩
      · exact ⟨p, by simp, hh, h1 c hc⟩
    · obtain ⟨q, hq, x⟩ := ih _ c hc
      exact ⟨q, by simp [hq], x⟩

theorem mem_of_map_eq {a b : List Proc} (h1 : a.map Proc.name = b.map Proc.name) (h2 : a.map Proc.pid = b.map Proc.pid) {p : Proc} (hp : ∃ q ∈ b, q.pid = p.pid ∧ q.name = p.name) :
    ∃ q ∈ a, q.pid = p.pid ∧ q.name = p.name := by
  induction a generalizing b with
  | nil =>
    cases b with
    | nil => exact hp
    | cons _ _ => cases h1
  | cons x a ih =>
    cases b with
    | nil => cases h1
    | cons y b =>
      rw [List.map_cons, List.map_cons, List.cons.injEq] at h1 h2
      obtain ⟨q, hq, q1, q2⟩ := hp
      rcases List.mem_cons.1 hq with rfl | hq
      · exact ⟨x, by simp, by rw [h2.1, q1], by rw [h1.1, q2]⟩
      · obtain ⟨z, hz, z1, z2⟩ := ih h1.2 h2.2 ⟨q, hq, q1, q2⟩
        exact ⟨z, by simp [hz], z1, z2⟩

theorem loop_ok (e : Env) (ipcp : Str) (layer : Option Str) (dst : Str) (type : Nat) (auto : Bool) (l : List Proc) : ∀ w,
    (w.ipcps.map Proc.name).Nodup → (∀ p ∈ l, ∃ q ∈ w.ipcps, q.pid = p.pid ∧ q.name = p.name) → (enrollLoop e ipcp layer dst type auto l w).2.1 = true →
    ∀ p ∈ l, hit ipcp type p = true → ∃ y, e.enroll p.pid = some y ∧ (layer = none ∨ layer = some y) ∧
    ∀ c ∈ (Call.enroll p.pid dst :: if auto then [.bind p.pid ipcp, .bind p.pid y] else []), c ∈ (enrollLoop e ipcp layer dst type auto l w).1 := by
  induction l with
  | nil =>
    intro w _ _ _ p hp
    cases hp
  | cons x l ih =>
    intro w hn hm h p hp hh
    unfold enrollLoop at h ⊢
    dsimp only at h ⊢
    split at h
    · rename_i hx
      rw [if_pos hx]
      split at h
      · rename_i ho
        rw [if_pos ho]
        obtain ⟨-, n1, n2⟩ := enrollOne_calls e w x ipcp layer dst auto
        rcases List.mem_cons.1 hp with rfl | hp
        · obtain ⟨y, y1, y2, y3⟩ := enrollOne_ok e w p ipcp layer dst auto hn (hm p (by simp)) ho
          refine ⟨y, y1, y2, ?_⟩
          rw [y3]
          intro c hc
          exact List.mem_append_left _ hc
        · obtain ⟨y, y1, y2, y3⟩ := ih _ (by rw [n1]; exact hn) (fun q hq => mem_of_map_eq n1 n2 (hm q (by simp [hq]))) h p hp hh
          exact ⟨y, y1, y2, fun c hc => List.mem_append_right _ (y3 c hc)⟩
      · rename_i ho
        rw [h] at ho
        exact absurd rfl ho
    · rename_i hx
      rw [if_neg hx]
      rcases List.mem_cons.1 hp with rfl | hp
      · exact absurd hh hx
      · exact ih w hn (fun q hq => hm q (by simp [hq])) h p hp hh

end Ouro.IrmEnroll
