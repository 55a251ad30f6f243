import Verif.Proof.IrmEnroll

/-!
# C85: enrolling and bootstrapping IPCPs by name
-/

namespace Ouro.IrmEnroll

open IrmTool (Str Plain Glob)

/-- If IPCPs have plain names, only the IPCP that is named, of the type that is given, is touched, or a new one if there is none. -/
theorem C85_only (e : Env) (w : World) (hw : PlainNames w) (ipcp : Str) (layer dst : Option Str) (type : Nat) (auto : Bool) (c : Call)
    (hc : c ∈ (doEnroll e w ipcp layer dst type auto).1) :
    (∃ p ∈ w.ipcps, Meant ipcp type p ∧ c.pid = some p.pid) ∨
    ((∀ p ∈ w.ipcps, ¬ Meant ipcp type p) ∧ (c = .create ipcp type ∨ ∃ pid, e.create = some pid ∧ c.pid = some pid)) := by
  unfold doEnroll at hc
  split at hc
  · cases hc
  · dsimp only at hc
    split at hc
    · left
      obtain ⟨p, hp, h1, h2⟩ := loop_calls _ _ _ _ _ _ _ _ c hc
      exact ⟨p, hp, (hit_plain _ _ _ (hw p hp)).1 h1, h2⟩
    · rename_i hany
      right
      have hno : ∀ p ∈ w.ipcps, ¬ hit ipcp type p = true := by
        intro p hp hh
        exact hany (List.any_eq_true.2 ⟨p, hp, hh⟩)
      refine ⟨fun p hp hm => hno p hp ((hit_plain _ _ _ (hw p hp)).2 hm), ?_⟩
      split at hc
      · left
        simpa using hc
      · rename_i pid hcr
        dsimp only at hc
        rcases List.mem_cons.1 hc with hc | hc
        · exact Or.inl hc
        · right
          obtain ⟨p, hp, h1, h2⟩ := loop_calls _ _ _ _ _ _ _ _ c hc
          refine ⟨pid, hcr, ?_⟩
          rcases List.mem_append.1 hp with hp | hp
          · exact absurd h1 (hno p hp)
          · simp at hp
            rw [h2, hp]

/-- If the command succeeds and IPCPs have distinct plain names, the IPCP that is named has been enrolled, in the layer asked for if one was, and is bound to its
name and the name of that layer if that was asked for. -/
theorem C85_enroll_partial (e : Env) (w : World) (hw : PlainNames w) (hn : (w.ipcps.map Proc.name).Nodup) (ipcp d : Str) (layer dst : Option Str)
    (hd : dst.or layer = some d) (type : Nat) (auto : Bool) (h : (doEnroll e w ipcp layer dst type auto).2.1 = 0) (p : Proc) (hp : p ∈ w.ipcps) (hm : Meant ipcp type p) :
    ∃ l, e.enroll p.pid = some l ∧ (layer = none ∨ layer = some l) ∧ .enroll p.pid d ∈ (doEnroll e w ipcp layer dst type auto).1 ∧
    (auto = true → .bind p.pid ipcp ∈ (doEnroll e w ipcp layer dst type auto).1 ∧ .bind p.pid l ∈ (doEnroll e w ipcp layer dst type auto).1) := by
  have hh := (hit_plain ipcp type p (hw p hp)).2 hm
  have hany : w.ipcps.any (hit ipcp type) = true := List.any_eq_true.2 ⟨p, hp, hh⟩
  have hd' : (if dst.isSome = true then dst else layer) = some d := by
    cases dst <;> simpa using hd
  have heq : doEnroll e w ipcp layer dst type auto = ((enrollLoop e ipcp layer d type auto w.ipcps w).1,
      if (enrollLoop e ipcp layer d type auto w.ipcps w).2.1 then 0 else -1, (enrollLoop e ipcp layer d type auto w.ipcps w).2.2) := by
    unfold doEnroll
    simp only [hd', hany, if_true]
  rw [heq] at h ⊢
  dsimp only at h ⊢
  have hs : (enrollLoop e ipcp layer d type auto w.ipcps w).2.1 = true := by
    by_contra hc
    rw [if_neg hc] at h
    cases h
  obtain ⟨y, y1, y2, y3⟩ := loop_ok e ipcp layer d type auto w.ipcps w hn (fun q hq => ⟨q, hq, rfl, rfl⟩) hs p hp hh
  refine ⟨y, y1, y2, y3 _ (by simp), ?_⟩
  intro ha
  subst ha
  exact ⟨y3 _ (by simp), y3 _ (by simp)⟩

/-- If no IPCP has the name, which is plain, and the command succeeds, one has been created with it and enrolled. -/
theorem C85_create_partial (e : Env) (w : World) (hw : PlainNames w) (hn : (w.ipcps.map Proc.name).Nodup) (ipcp d : Str) (hpl : Plain ipcp) (layer dst : Option Str)
    (hd : dst.or layer = some d) (type : Nat) (auto : Bool) (h : (doEnroll e w ipcp layer dst type auto).2.1 = 0) (hno : ∀ p ∈ w.ipcps, p.name ≠ ipcp) :
    ∃ pid l, e.create = some pid ∧ .create ipcp type ∈ (doEnroll e w ipcp layer dst type auto).1 ∧ e.enroll pid = some l ∧ (layer = none ∨ layer = some l) ∧
    .enroll pid d ∈ (doEnroll e w ipcp layer dst type auto).1 ∧
    (auto = true → .bind pid ipcp ∈ (doEnroll e w ipcp layer dst type auto).1 ∧ .bind pid l ∈ (doEnroll e w ipcp layer dst type auto).1) := by
  have hany : ¬ w.ipcps.any (hit ipcp type) = true := by
    rw [List.any_eq_true]
    rintro ⟨p, hp, hh⟩
    exact hno p hp ((hit_plain _ _ _ (hw p hp)).1 hh).1
  have hd' : (if dst.isSome = true then dst else layer) = some d := by
    cases dst <;> simpa using hd
  cases hc : e.create with
  | none =>
    have heq : doEnroll e w ipcp layer dst type auto = ([.create ipcp type], -1, w) := by
      unfold doEnroll
      simp only [hd', if_neg hany, hc]
    rw [heq] at h
    cases h
  | some pid =>
    have heq : doEnroll e w ipcp layer dst type auto = (.create ipcp type :: (enrollLoop e ipcp layer d type auto (w.add pid ipcp type).ipcps (w.add pid ipcp type)).1,
        if (enrollLoop e ipcp layer d type auto (w.add pid ipcp type).ipcps (w.add pid ipcp type)).2.1 then 0 else -1,
        (enrollLoop e ipcp layer d type auto (w.add pid ipcp type).ipcps (w.add pid ipcp type)).2.2) := by
      unfold doEnroll
      simp only [hd', if_neg hany, hc]
    rw [heq] at h ⊢
    dsimp only at h ⊢
    have hs : (enrollLoop e ipcp layer d type auto (w.add pid ipcp type).ipcps (w.add pid ipcp type)).2.1 = true := by
      by_contra hx
      rw [if_neg hx] at h
      cases h
    have hn' : ((w.add pid ipcp type).ipcps.map Proc.name).Nodup := by
      unfold World.add
      dsimp only
      rw [List.map_append, List.nodup_append]
      refine ⟨hn, by simp, ?_⟩
      intro a ha b hb hab
      obtain ⟨p, hp, rfl⟩ := List.mem_map.1 ha
      simp at hb
      exact hno p hp (by rw [hab, hb])
    have hh : hit ipcp type ⟨pid, ipcp, type, []⟩ = true := (hit_plain ipcp type ⟨pid, ipcp, type, []⟩ hpl).2 ⟨rfl, rfl⟩
    obtain ⟨y, y1, y2, y3⟩ := loop_ok e ipcp layer d type auto _ (w.add pid ipcp type) hn' (fun q hq => ⟨q, hq, rfl, rfl⟩) hs ⟨pid, ipcp, type, []⟩ (by simp [World.add]) hh
    refine ⟨pid, y, rfl, by simp, y1, y2, List.mem_cons_of_mem _ (y3 _ (by simp)), ?_⟩
    intro ha
    subst ha
    exact ⟨List.mem_cons_of_mem _ (y3 _ (by simp)), List.mem_cons_of_mem _ (y3 _ (by simp))⟩

/-- A pattern, which the command takes for the name of other IPCPs to match, never means an IPCP with a plain name: a new IPCP is created with the pattern as its name
and none that the pattern means is enrolled. -/
theorem C85_pattern_violated (e : Env) (w : World) (hw : PlainNames w) (ipcp d : Str) (hs : ¬ Plain ipcp) (layer : Option Str) (type : Nat) (auto : Bool) (pid : Nat)
    (hc : e.create = some pid) (hf : ∀ p ∈ w.ipcps, p.pid ≠ pid) :
    .create ipcp type ∈ (doEnroll e w ipcp layer (some d) type auto).1 ∧ ∀ p ∈ w.ipcps, ∀ c ∈ (doEnroll e w ipcp layer (some d) type auto).1, c.pid ≠ some p.pid := by
  have hno : ∀ p ∈ w.ipcps, ¬ Meant ipcp type p := by
    rintro p hp ⟨hx, -⟩
    exact hs (hx ▸ hw p hp)
  constructor
  · have hany : ¬ w.ipcps.any (hit ipcp type) = true := by
      rw [List.any_eq_true]
      rintro ⟨p, hp, hh⟩
      exact hno p hp ((hit_plain _ _ _ (hw p hp)).1 hh)
    unfold doEnroll
    simp only [Option.isSome_some, if_true, if_neg hany, hc]
    simp
  · intro p hp c hcm heq
    rcases C85_only e w hw ipcp layer (some d) type auto c hcm with ⟨q, hq, hm, -⟩ | ⟨-, hx | ⟨x, hx, hy⟩⟩
    · exact hno q hq hm
    · rw [hx] at heq
      cases heq
    · rw [hc] at hx
      cases hx
      rw [hy] at heq
      exact hf p hp (by simpa using heq.symm)

/-- If the destination is in another layer than asked for, the command fails but the IPCP stays enrolled in that layer. -/
theorem C85_layer_violated (e : Env) (p : Proc) (b : List (Nat × Str)) (hp : Plain p.name) (l want d : Str) (hl : e.enroll p.pid = some l) (hne : want ≠ l) (auto : Bool) :
    doEnroll e ⟨[p], b⟩ p.name (some want) (some d) p.type auto = ([.enroll p.pid d], -1, ⟨[{ p with layer := l }], b⟩) := by
  have hh : hit p.name p.type p = true := (hit_plain _ _ _ hp).2 ⟨rfl, rfl⟩
  have hj : World.join ⟨[p], b⟩ p.pid l = ⟨[{ p with layer := l }], b⟩ := by simp [World.join]
  have hone : enrollOne e ⟨[p], b⟩ p p.name (some want) d auto = ([.enroll p.pid d], false, ⟨[{ p with layer := l }], b⟩) := by
    unfold enrollOne
    simp only [hl, hj, layerName, List.find?_cons_of_pos, decide_true, Option.map_some, Option.isSome_some, ne_eq, Option.some.injEq, hne, not_false_eq_true, and_self, if_true]
  unfold doEnroll
  simp only [Option.isSome_some, if_true, List.any_cons, hh, Bool.true_or, enrollLoop, hone]
  simp

/-- Two IPCPs may have the same name.  The layer compared is then that of the first, so the one that is meant cannot be enrolled by name. -/
theorem C85_same_name_violated : (doEnroll ⟨none, fun _ => some "net".toList, fun _ => true, fun _ _ => true⟩ ⟨[⟨7, "i".toList, 2, "cast".toList⟩, ⟨8, "i".toList, 1, []⟩], []⟩
    "i".toList (some "net".toList) none 1 false).2.1 = -1 := by decide +kernel

/-- If bootstrapping an IPCP fails, the names it was bound to for it are unbound, and nothing else has changed. -/
theorem C85_undo_partial (e : Env) (w : World) (p : Proc) (ipcp layer : Str) (auto : Bool) (h1 : (p.pid, ipcp) ∉ w.binds) (h2 : (p.pid, layer) ∉ w.binds)
    (h : (bootOne e w p ipcp layer auto).2.1 = false) : (bootOne e w p ipcp layer auto).2.2 = w := by
  have hf : ∀ x : Nat × Str, x ∉ w.binds → w.binds.filter (· ≠ x) = w.binds := by
    intro x hx
    rw [List.filter_eq_self]
    intro a ha
    simp only [ne_eq, decide_not, Bool.not_eq_eq_eq_not, Bool.not_true, decide_eq_false_iff_not]
    rintro rfl
    exact hx ha
  unfold bootOne at h ⊢
  split
  · rename_i hc
    rw [if_pos hc] at h
    split
    · rename_i hb
      rw [if_pos hb] at h
      split
      · rename_i hl
        rw [if_pos hl] at h
        split
        · rename_i hbo
          rw [if_pos hbo] at h
          cases h
        · show World.mk w.ipcps ((((p.pid, layer) :: (p.pid, ipcp) :: w.binds).filter (· ≠ (p.pid, ipcp))).filter (· ≠ (p.pid, layer))) = w
          have : (((p.pid, layer) :: (p.pid, ipcp) :: w.binds).filter (· ≠ (p.pid, ipcp))).filter (· ≠ (p.pid, layer)) = w.binds := by
            rw [List.filter_cons (x := (p.pid, layer)), List.filter_cons_of_neg (a := (p.pid, ipcp)) (by simp), hf _ h1]
            split
            · rw [List.filter_cons_of_neg (by simp), hf _ h2]
            · exact hf _ h2
          rw [this]
      · show World.mk w.ipcps (((p.pid, ipcp) :: w.binds).filter (· ≠ (p.pid, ipcp))) = w
        rw [List.filter_cons_of_neg (by simp), hf _ h1]
    · rfl
  · rename_i hc
    rw [if_neg hc] at h
    split
    · rename_i hbo
      rw [if_pos hbo] at h
      cases h
    · rfl

/-- A process that was bound to the name before is not bound any more when bootstrapping fails. -/
theorem C85_undo_violated (e : Env) (w : World) (p : Proc) (ipcp layer : Str) (ht : p.type = 1) (hb : ∀ n, e.bind p.pid n = true) (hf : e.bootstrap p.pid = false)
    (hm : (p.pid, ipcp) ∈ w.binds) : (p.pid, ipcp) ∈ w.binds ∧ (bootOne e w p ipcp layer true).2.1 = false ∧ (p.pid, ipcp) ∉ (bootOne e w p ipcp layer true).2.2.binds := by
  refine ⟨hm, ?_⟩
  have hbd : bindable p.type = true := by rw [ht]; decide
  unfold bootOne
  simp only [hbd, Bool.and_self, if_true, hb, hf, Bool.false_eq_true, if_false]
  simp [World.unbind, World.bind]

/-- An IPCP that is bootstrapped is in its layer and, if that was asked for and it is of a type that can be, bound to its name and to that of the layer before it is in it;
others are not bound. -/
theorem C85_bootstrap (e : Env) (w : World) (p : Proc) (ipcp layer : Str) (auto : Bool) (h : (bootOne e w p ipcp layer auto).2.1 = true) :
    (bootOne e w p ipcp layer auto).1 = (if auto = true ∧ (p.type = 1 ∨ p.type = 2) then [.bind p.pid ipcp, .bind p.pid layer] else []) ++ [.bootstrap p.pid layer] ∧
    ∀ q ∈ (bootOne e w p ipcp layer auto).2.2.ipcps, q.pid = p.pid → q.layer = layer := by
  have hj : ∀ v : World, ∀ q ∈ (v.join p.pid layer).ipcps, q.pid = p.pid → q.layer = layer := by
    intro v q hq hqp
    unfold World.join at hq
    obtain ⟨x, -, rfl⟩ := List.mem_map.1 hq
    by_cases hx : x.pid = p.pid
    · simp [hx]
    · rw [if_neg hx] at hqp
      exact absurd hqp hx
  have hbd : (auto && bindable p.type) = true ↔ auto = true ∧ (p.type = 1 ∨ p.type = 2) := by
    simp [bindable]
  unfold bootOne at h ⊢
  split
  · rename_i hc
    rw [if_pos hc] at h
    rw [if_pos (hbd.1 hc)]
    split
    · rename_i hb
      rw [if_pos hb] at h
      split
      · rename_i hl
        rw [if_pos hl] at h
        split
        · exact ⟨rfl, hj _⟩
        · rename_i hbo
          rw [if_neg hbo] at h
          cases h
      · rename_i hl
        rw [if_neg hl] at h
        cases h
    · rename_i hb
      rw [if_neg hb] at h
      cases h
  · rename_i hc
    rw [if_neg hc] at h
    rw [if_neg (fun hx => hc (hbd.2 hx))]
    split
    · exact ⟨rfl, hj _⟩
    · rename_i hbo
      rw [if_neg hbo] at h
      cases h

/-- Two IPCPs, and a daemon that enrols any in `net`. -/
def sampleWorld : World := ⟨[⟨7, "a".toList, 1, []⟩, ⟨8, "ab".toList, 1, []⟩], [(9, "web".toList)]⟩

def sampleEnv : Env := ⟨some 10, fun _ => some "net".toList, fun p => p = 7, fun _ _ => true⟩

example : doEnroll sampleEnv sampleWorld "ab".toList (some "net".toList) none 1 true = ([.enroll 8 "net".toList, .bind 8 "ab".toList, .bind 8 "net".toList], 0,
    ⟨[⟨7, "a".toList, 1, []⟩, ⟨8, "ab".toList, 1, "net".toList⟩], [(8, "net".toList), (8, "ab".toList), (9, "web".toList)]⟩) := by decide +kernel

example : (doEnroll sampleEnv sampleWorld "c".toList (some "net".toList) none 1 false).1 = [.create "c".toList 1, .enroll 10 "net".toList] ∧
    (doEnroll sampleEnv sampleWorld "c".toList (some "net".toList) none 1 false).2.1 = 0 := by decide +kernel

example : PlainNames sampleWorld ∧ (sampleWorld.ipcps.map Proc.name).Nodup ∧ Glob "a*".toList "ab".toList ∧
    (doEnroll sampleEnv sampleWorld "a*".toList none (some "net".toList) 1 false).1 = [.create "a*".toList 1, .enroll 10 "net".toList] := by
  refine ⟨?_, by decide +kernel, ?_, by decide +kernel⟩
  · unfold PlainNames Plain
    decide +kernel
  · exact .lit 'a' _ _ (by decide) (.star [] ['b'] [] .nil)

example : (bootOne sampleEnv sampleWorld ⟨8, "ab".toList, 1, []⟩ "ab".toList "net".toList true).2.1 = false ∧
    (bootOne sampleEnv sampleWorld ⟨7, "a".toList, 1, []⟩ "a".toList "net".toList true).2.1 = true := by decide +kernel

end Ouro.IrmEnroll
