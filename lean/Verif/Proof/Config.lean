import Verif.Spec.Config
import Verif.Proof.Tac

/-!
# Lemmas for C80: the configuration file
-/

namespace Ouro.Config

/-! ## Words -/

/-- The words of a string. -/
def wordsOf : Nat → Str → List Str
  | 0, _ => []
  | n + 1, s => match s.dropWhile (· = ' ') with
    | [] => []
    | c :: l => (c :: l).takeWhile (· ≠ ' ') :: wordsOf n ((c :: l).dropWhile (· ≠ ' '))

theorem take_word (w s : Str) (h : ' ' ∉ w) (hs : s = [] ∨ ∃ s', s = ' ' :: s') :
    (w ++ s).takeWhile (· ≠ ' ') = w ∧ (w ++ s).dropWhile (· ≠ ' ') = s := by
  induction w with
  | nil => rcases hs with rfl | ⟨s', rfl⟩ <;> simp
  | cons c w ih =>
    have hc : c ≠ ' ' := fun e => h (by simp [e])
    have := ih (fun m => h (List.mem_cons_of_mem _ m))
    simp only [List.cons_append, List.takeWhile_cons, List.dropWhile_cons]
    simp [hc]
    simpa using this

theorem wordsOf_split {s : Str} {ws : List Str} (h : Split s ws) : ∀ n, s.length < n → wordsOf n s = ws := by
  induction h with
  | nil => intro n hn; cases n <;> simp [wordsOf]
  | space s ws _ ih =>
    intro n hn
    cases n with
    | zero => simp at hn
    | succ n =>
      have := ih (n + 1) (by simp at hn; omega)
      simpa [wordsOf] using this
  | word w s ws hw hsp hs _ ih =>
    intro n hn
    cases n with
    | zero => simp at hn
    | succ n =>
      obtain ⟨c, w', rfl⟩ := List.exists_cons_of_ne_nil hw
      have hc : c ≠ ' ' := fun e => hsp (by simp [e])
      obtain ⟨t1, t2⟩ := take_word _ s hsp hs
      have e1 : (c :: w' ++ s).dropWhile (· = ' ') = c :: (w' ++ s) := by simp [hc]
      rw [wordsOf, e1]
      simp only
      rw [List.cons_append] at t1 t2
      rw [t1, t2, ih n (by simp at hn; omega)]

theorem dropWhile_len {α : Type} (p : α → Bool) (l : List α) : (l.dropWhile p).length ≤ l.length := (List.dropWhile_suffix p).length_le

theorem split_wordsOf : ∀ (n : Nat) (s : Str), s.length < n → Split s (wordsOf n s)
  | 0, _, h => absurd h (by omega)
  | n + 1, s, h => by
    have spaces : ∀ (s : Str) (ws : List Str), Split (s.dropWhile (· = ' ')) ws → Split s ws := by
      intro s ws
      induction s with
      | nil => intro h; simpa using h
      | cons c s ih =>
        intro h
        by_cases hc : c = ' '
        · subst hc
          exact .space _ _ (ih (by simpa using h))
        · simpa [List.dropWhile_cons, hc] using h
    apply spaces
    rw [wordsOf]
    have hl := dropWhile_len (fun c => decide (c = ' ')) s
    have hd := List.head?_dropWhile_not (fun c => decide (c = ' ')) s
    cases hx : s.dropWhile (· = ' ') with
    | nil => exact .nil
    | cons c l =>
      rw [hx] at hl hd
      have hc : c ≠ ' ' := by simpa using hd
      have e := List.takeWhile_append_dropWhile (p := fun c => decide (c ≠ ' ')) (l := c :: l)
      simp only
      rw [← e] 
      have hs := List.head?_dropWhile_not (fun c => decide (c ≠ ' ')) (c :: l)
      have len := dropWhile_len (fun c => decide (c ≠ ' ')) l
      have e2 : (c :: l).dropWhile (fun c => decide (c ≠ ' ')) = l.dropWhile (fun c => decide (c ≠ ' ')) := by simp [List.dropWhile_cons, hc]
      rw [e]
      have fin := split_wordsOf n ((c :: l).dropWhile (· ≠ ' ')) (by rw [e2]; simp at hl; omega)
      have w := Split.word ((c :: l).takeWhile (· ≠ ' ')) ((c :: l).dropWhile (· ≠ ' ')) _ (by simp [List.takeWhile_cons, hc])
        (fun m => by have := List.all_eq_true.1 List.all_takeWhile _ m; simp at this) (by
          cases hy : (c :: l).dropWhile (fun c => decide (c ≠ ' ')) with
          | nil => exact .inl rfl
          | cons d l' =>
            rw [hy] at hs
            have : d = ' ' := by simpa using hs
            exact .inr ⟨l', by rw [this]⟩) fin
      rwa [e] at w

theorem count_eq : ∀ (n : Nat) (s : Str), count n s = (wordsOf n s).length
  | 0, _ => rfl
  | n + 1, s => by
    rw [count, wordsOf]
    cases s.dropWhile (· = ' ') with
    | nil => rfl
    | cons c l => simp only [List.length_cons]; rw [count_eq n]

theorem fill_eq : ∀ (n : Nat) (s : Str) (pre : List (Option Str)),
    fill n s pre.length (pre ++ List.replicate ((wordsOf n s).length + 1) none) =
      .ok (pre ++ (wordsOf n s).map some ++ [none], pre.length + (wordsOf n s).length)
  | 0, s, pre => by simp [fill, wordsOf, wr]
  | n + 1, s, pre => by
    rw [fill, wordsOf]
    cases s.dropWhile (· = ' ') with
    | nil => simp [wr]
    | cons c l =>
      have ih := fill_eq n ((c :: l).dropWhile (· ≠ ' ')) (pre ++ [some ((c :: l).takeWhile (· ≠ ' '))])
      have hw : wr (pre ++ List.replicate ((wordsOf n ((c :: l).dropWhile (· ≠ ' '))).length + 1 + 1) none) pre.length
          (some ((c :: l).takeWhile (· ≠ ' '))) =
          .ok (pre ++ [some ((c :: l).takeWhile (· ≠ ' '))] ++ List.replicate ((wordsOf n ((c :: l).dropWhile (· ≠ ' '))).length + 1) none) := by
        unfold wr
        rw [if_pos (by simp)]
        rw [List.replicate_succ, List.set_append_right _ _ (Nat.le_refl _)]
        simp
      simp only [List.length_cons, hw]
      rw [List.length_append, List.length_singleton] at ih
      rw [ih]
      simp only [List.map_cons, List.append_assoc, List.singleton_append, List.cons_append, List.nil_append]
      congr 2
      omega

/-- The words of the arguments of a program. -/
def argWords (args : Option Str) : List Str := wordsOf ((args.getD []).length + 1) (args.getD [])

theorem argv_eq (p : Str) (args : Option Str) :
    argsToArgv p args = .ok (some p :: (argWords args).map some ++ [none], (argWords args).length + 1) := by
  unfold argsToArgv argWords
  generalize args.getD [] = s
  have h0 : wr (List.replicate (count (s.length + 1) s + 2) (none : Option Str)) 0 (some p) =
      .ok ([some p] ++ List.replicate ((wordsOf (s.length + 1) s).length + 1) none) := by
    rw [count_eq]
    simp [wr, List.replicate_succ]
  simp only [h0]
  have := fill_eq (s.length + 1) s [some p]
  simp only [List.length_singleton] at this
  rw [this]
  simp [Nat.add_comm]

theorem prog_eq (name p : Str) (args : Option Str) : prog name p args = [.call (.bindProgram (p :: argWords args) name args.isSome) false] := by
  unfold prog
  rw [argv_eq]
  have : ∀ l : List Str, ((l.map some ++ [(none : Option Str)]).takeWhile (fun x => x.isSome)).filterMap id = l := by
    intro l
    induction l with
    | nil => simp
    | cons a l ih => simpa using ih
  have h := this (p :: argWords args)
  simp only [List.map_cons] at h
  simp only [h]

/-! ## Steps -/

theorem exec_append (e : Env) (a b : List Step) (h : List Call) :
    exec e h (a ++ b) = match exec e h a with
      | .ub => .ub
      | .ok (h', r) => if r = 0 then exec e h' b else .ok (h', r) := by
  induction a generalizing h with
  | nil => simp [exec]
  | cons s a ih =>
    cases s with
    | fail => simp [exec]
    | crash => simp [exec]
    | call c nm =>
      simp only [List.cons_append, exec]
      split
      · exact ih _
      · simp

/-- The steps that only make calls. -/
def plain (cs : List Call) (steps : List Step) : Prop := steps.map (fun s => match s with | .call c _ => some c | _ => none) = cs.map some

theorem plain_nil : plain [] [] := rfl

theorem plain_call (c : Call) (b : Bool) {cs : List Call} {l : List Step} (h : plain cs l) : plain (c :: cs) (.call c b :: l) := by
  unfold plain at *
  simp [h]

theorem plain_append {cs ds : List Call} {l m : List Step} (h : plain cs l) (h' : plain ds m) : plain (cs ++ ds) (l ++ m) := by
  unfold plain at *
  rw [List.map_append, List.map_append, h, h']

theorem plain_flatMap {α : Type} (f : α → List Call) (g : α → List Step) (l : List α) (h : ∀ a ∈ l, plain (f a) (g a)) : plain (l.flatMap f) (l.flatMap g) := by
  induction l with
  | nil => rfl
  | cons a l ih =>
    rw [List.flatMap_cons, List.flatMap_cons]
    exact plain_append (h a (by simp)) (ih fun b hb => h b (by simp [hb]))

theorem plain_forall₂ {α β : Type} (f : β → List Call) (g : α → List Step) {l : List α} {m : List β} {R : α → β → Prop} (hr : List.Forall₂ R l m)
    (h : ∀ a b, R a b → plain (f b) (g a)) : plain (m.flatMap f) (l.flatMap g) := by
  induction hr with
  | nil => rfl
  | cons hab _ ih =>
    rw [List.flatMap_cons, List.flatMap_cons]
    exact plain_append (h _ _ hab) ih

theorem exec_plain (e : Env) (hok : ∀ h c, 0 ≤ e.res h c) {cs : List Call} {l : List Step} (hp : plain cs l) (h : List Call) :
    exec e h l = .ok (h ++ cs, 0) := by
  induction l generalizing cs h with
  | nil =>
    cases cs with
    | nil => simp [exec]
    | cons c cs => simp [plain] at hp
  | cons s l ih =>
    cases cs with
    | nil => simp [plain] at hp
    | cons c cs =>
      simp only [plain, List.map_cons, List.cons.injEq] at hp
      cases s with
      | fail => simp at hp
      | crash => simp at hp
      | call c' nm =>
        simp only [Option.some.injEq] at hp
        obtain ⟨rfl, hp⟩ := hp
        rw [exec, if_pos (.inl (hok _ _)), ih hp]
        simp

/-! ## Values -/

theorem strs_map (l : List Str) : strs (l.map .str) = l := by
  induction l with
  | nil => rfl
  | cons a l ih => simp [strs, ih]

theorem strs_mem {l : List Val} {n : Str} (h : n ∈ strs l) : .str n ∈ l := by
  induction l with
  | nil => simp [strs] at h
  | cons v l ih =>
    cases v <;> simp [strs] at h
    rcases h with rfl | h
    · simp
    · simp [ih h]

theorem arr_lists {t : Table} {k : String} {l : List Str} (h : Lists t k l) : (arr t k = none ∧ l = []) ∨ arr t k = some (l.map .str) := by
  rcases h with h | ⟨h1, h⟩
  · exact .inr (by simp [arr, h])
  · exact .inl ⟨by simp [arr, h], h1⟩

theorem plain_register {t : Table} {l : List Str} (h : Lists t "reg" l) (hs : ∀ n ∈ l, n.length ≤ 255) (pid : Nat) :
    plain (l.flatMap fun n => [.createName n .spill, .reg n pid]) (register t pid) := by
  unfold register
  rcases arr_lists h with ⟨e0, rfl⟩ | e0 <;> rw [e0]
  · rfl
  · simp only [strs_map]
    refine plain_flatMap _ _ _ fun n hn => ?_
    rw [regOne, if_neg (by have := hs n hn; omega)]
    rfl

theorem plain_connect {t : Table} {l : List Str} (h : Lists t "conn" l) (pid : Nat) :
    plain (l.flatMap fun d => [.connect pid d "Management".toList, .connect pid d "Data Transfer".toList]) (connect t pid) := by
  unfold connect
  rcases arr_lists h with ⟨e0, rfl⟩ | e0 <;> rw [e0]
  · rfl
  · simp only [strs_map]
    exact plain_flatMap _ _ _ fun n hn => rfl

theorem plain_autobind {t : Table} {b : Bool} (h : get t "autobind" = if b then some (.bool true) else none) (pid : Nat) (name layer : Str) :
    plain (if b then [.bindProcess pid name, .bindProcess pid layer] else []) (autobind t pid name layer) := by
  unfold autobind bool
  rw [h]
  cases b <;> rfl

theorem plain_ipcp {e : Env} {ty : Ty} {x : Str × Val} {t : Table} {i : IpcpCfg} (h : IpcpSays e ty x t i) (he : ∀ p, e.layer p ≠ none) :
    plain (ipcpCalls e ty i) (ipcp e ty x) := by
  have hv := h.val
  subst hv
  unfold ipcpCalls ipcp
  rw [if_neg (show ¬ 255 < i.name.length by have := h.len; omega)]
  refine plain_call _ _ ?_
  simp only [table, ipcpBody]
  have hst := h.start
  cases hs : i.start with
  | none =>
    rw [hs] at hst
    simp only at hst
    simp only [str, hst.1, hst.2]
    rfl
  | some s =>
    rw [hs] at hst
    cases s with
    | inl dst =>
      simp only at hst
      simp only [str, hst]
      refine plain_call _ _ ?_
      cases hl : e.layer (e.pid i.name) with
      | none => exact absurd hl (he _)
      | some layer => exact plain_append (plain_append (plain_autobind h.bind _ _ _) (plain_register h.reg h.short _)) (plain_connect h.conn _)
    | inr c =>
      simp only at hst
      obtain ⟨h1, h2, h3, h4, _⟩ := hst
      simp only [str, h1, h2, h4]
      rw [if_neg (show ¬ 255 < c.layer.length by omega)]
      exact plain_call _ _ (plain_append (plain_autobind h.bind _ _ _) (plain_register h.reg h.short _))

theorem plain_progs (name : Str) (other : List Str) : ∀ auto : List (Str × Str × List Str), (∀ a ∈ auto, Split a.2.1 a.2.2) →
    plain (((auto.map fun (a : Str × Str × List Str) => (a.1, some a.2.2)) ++ (other.map fun p => (p, none))).map fun (p : Str × Option (List Str)) =>
      Call.bindProgram (p.1 :: p.2.getD []) name p.2.isSome) (progs name (auto.map (fun (a : Str × Str × List Str) => a.1) ++ other) (auto.map fun (a : Str × Str × List Str) => a.2.1))
  | [], _ => by
    induction other with
    | nil => rfl
    | cons p l ih =>
      have hp : progs name (p :: l) [] = prog name p none ++ progs name l [] := rfl
      simp only [List.map_nil, List.nil_append, List.map_cons] at *
      rw [hp, prog_eq]
      exact plain_call _ _ ih
  | a :: auto, h => by
    have hp : ∀ l as, progs name (a.1 :: l) (a.2.1 :: as) = prog name a.1 (some a.2.1) ++ progs name l as := fun _ _ => rfl
    simp only [List.map_cons, List.cons_append]
    rw [hp, prog_eq]
    have hw : argWords (some a.2.1) = a.2.2 := wordsOf_split (h a (by simp)) _ (Nat.lt_succ_self _)
    rw [hw]
    exact plain_call _ _ (plain_progs name other auto fun b hb => h b (by simp [hb]))

theorem lb_reads (w : Option Str) : lbOf w = reads lbWords .spill w := by
  cases w with
  | none => rfl
  | some s =>
    by_cases h1 : s = "spill".toList
    · subst h1; decide +kernel
    · by_cases h2 : s = "round-robin".toList
      · subst h2; decide +kernel
      · unfold lbOf reads lbWords
        simp only [if_neg h1, if_neg h2, List.find?, decide_eq_false (Ne.symm h1), decide_eq_false (Ne.symm h2), Option.map_none]

theorem hash_reads (d : Hash) (w : Option Str) : hashOf d w = reads hashWords d w := by
  cases w with
  | none => rfl
  | some s =>
    by_cases h1 : s = "SHA3_224".toList
    · subst h1; cases d <;> decide +kernel
    by_cases h2 : s = "SHA3_256".toList
    · subst h2; cases d <;> decide +kernel
    by_cases h3 : s = "SHA3_384".toList
    · subst h3; cases d <;> decide +kernel
    by_cases h4 : s = "SHA3_512".toList
    · subst h4; cases d <;> decide +kernel
    unfold hashOf reads hashWords
    simp only [if_neg h1, if_neg h2, if_neg h3, if_neg h4, List.find?, decide_eq_false (Ne.symm h1), decide_eq_false (Ne.symm h2), decide_eq_false (Ne.symm h3),
      decide_eq_false (Ne.symm h4), Option.map_none]

theorem routing_reads (w : Option Str) : routingOf w = reads routingWords .linkState w := by
  cases w with
  | none => rfl
  | some s =>
    by_cases h1 : s = "link-state".toList
    · subst h1; decide +kernel
    by_cases h2 : s = "lfa".toList
    · subst h2; decide +kernel
    by_cases h3 : s = "ecmp".toList
    · subst h3; decide +kernel
    unfold routingOf reads routingWords
    simp only [if_neg h1, if_neg h2, if_neg h3, List.find?, decide_eq_false (Ne.symm h1), decide_eq_false (Ne.symm h2), decide_eq_false (Ne.symm h3),
      Option.map_none]

theorem progs_nil (name : Str) (l : List Str) : progs name [] l = [] := by cases l <;> rfl

theorem plain_name {x : Str × Val} {t : Table} {n : NameCfg} (h : NameSays x t n) : plain (nameCalls n) (name x) := by
  have hv := h.val
  subst hv
  unfold nameCalls name
  simp only [table]
  rw [lb_reads, h.lb]
  simp only
  rw [if_neg (show ¬ 255 < n.name.length by have := h.len; omega)]
  refine plain_call _ _ ?_
  obtain ⟨auto, other, h1, h2, h3, h4⟩ := h.progs
  rw [h2]
  have hp := plain_progs n.name other auto h1
  rcases arr_lists h3 with ⟨e3, l3⟩ | e3
  · obtain ⟨l1, rfl⟩ := List.append_eq_nil_iff.1 l3
    have : auto = [] := by simpa using l1
    subst this
    rw [e3]
    rfl
  · rw [e3]
    simp only [strs_map]
    rcases arr_lists h4 with ⟨e4, l4⟩ | e4
    · have : auto = [] := by simpa using l4
      subst this
      rw [e4]
      exact hp
    · rw [e4]
      simp only [Option.getD_some, strs_map]
      exact hp

theorem toplevel_key (e : Env) (ty : Ty) (v : Val) : toplevel e ((key ty).toList, v) = ipcpList e ty (table v) := by
  unfold toplevel
  cases ty <;> dsimp only
  · rw [if_pos (by decide +kernel)]
  · rw [if_neg (by decide +kernel), if_neg (by decide +kernel), if_neg (by decide +kernel), if_neg (by decide +kernel), if_neg (by decide +kernel),
      if_pos (by decide +kernel)]
  · rw [if_neg (by decide +kernel), if_neg (by decide +kernel), if_neg (by decide +kernel), if_neg (by decide +kernel), if_pos (by decide +kernel)]
  · rw [if_neg (by decide +kernel), if_neg (by decide +kernel), if_pos (by decide +kernel)]
  · rw [if_neg (by decide +kernel), if_pos (by decide +kernel)]
  · rw [if_neg (by decide +kernel), if_neg (by decide +kernel), if_neg (by decide +kernel), if_pos (by decide +kernel)]

theorem toplevel_name (e : Env) (v : Val) : toplevel e ("name".toList, v) = nameList (table v) := by
  unfold toplevel
  dsimp only
  rw [if_neg (by decide +kernel), if_neg (by decide +kernel), if_neg (by decide +kernel), if_neg (by decide +kernel), if_neg (by decide +kernel),
    if_neg (by decide +kernel), if_pos (by decide +kernel)]

/-! ## Safety -/

/-- Steps that do not crash. -/
def Safe (l : List Step) : Prop := .crash ∉ l

theorem exec_safe (e : Env) : ∀ (l : List Step) (h : List Call), Safe l → exec e h l ≠ .ub
  | [], h, _ => by simp [exec]
  | .fail :: l, h, _ => by simp [exec]
  | .crash :: l, h, hs => absurd (by simp) hs
  | .call c nm :: l, h, hs => by
    rw [exec]
    split
    · exact exec_safe e l _ fun m => hs (by simp [m])
    · simp

theorem safe_flatMap {α : Type} {l : List α} {f : α → List Step} (h : ∀ a ∈ l, Safe (f a)) : Safe (l.flatMap f) := by
  intro m
  obtain ⟨a, ha, hm⟩ := List.mem_flatMap.1 m
  exact h a ha hm

theorem safe_append {l m : List Step} (h : Safe l) (h' : Safe m) : Safe (l ++ m) := by
  intro hm
  rcases List.mem_append.1 hm with x | x
  · exact h x
  · exact h' x

theorem safe_call {c : Call} {b : Bool} {l : List Step} (h : Safe l) : Safe (.call c b :: l) := by
  intro m
  rcases List.mem_cons.1 m with x | x
  · cases x
  · exact h x

theorem safe_nil : Safe [] := by simp [Safe]

theorem safe_fail : Safe [.fail] := by simp [Safe]

theorem safe_autobind (t : Table) (pid : Nat) (n l : Str) : Safe (autobind t pid n l) := by
  unfold autobind
  split
  · exact safe_nil
  · exact safe_call (safe_call safe_nil)

theorem safe_register {t : Table} (h : ∀ l, get t "reg" = some (.arr l) → ∀ n, .str n ∈ l → n.length ≤ 255) (pid : Nat) : Safe (register t pid) := by
  unfold register arr
  cases hg : get t "reg" with
  | none => exact safe_nil
  | some v =>
    cases v with
    | arr l =>
      refine safe_flatMap fun n hn => ?_
      have := h l hg n (strs_mem hn)
      rw [regOne, if_neg (by omega)]
      exact safe_call (safe_call safe_nil)
    | _ => exact safe_nil

theorem safe_connect (t : Table) (pid : Nat) : Safe (connect t pid) := by
  unfold connect
  split
  · exact safe_nil
  · exact safe_flatMap fun _ _ => safe_call (safe_call safe_nil)

theorem safe_progs (name : Str) : ∀ l as, Safe (progs name l as)
  | [], as => by rw [progs_nil]; exact safe_nil
  | p :: l, [] => by
    rw [progs, prog_eq]
    exact safe_call (safe_progs name l [])
  | p :: l, a :: as => by
    rw [progs, prog_eq]
    exact safe_call (safe_progs name l as)

theorem safe_ipcp (e : Env) (ty : Ty) (y : Str × Val) (u : Table) (hu : y.2 = .tab u)
    (h : ∀ l, get u "reg" = some (.arr l) → ∀ n, .str n ∈ l → n.length ≤ 255) : Safe (ipcp e ty y) := by
  unfold ipcp
  split
  · exact safe_fail
  · refine safe_call ?_
    rw [hu]
    simp only [table, ipcpBody]
    split
    · refine safe_call ?_
      split
      · exact safe_fail
      · exact safe_append (safe_append (safe_autobind _ _ _ _) (safe_register h _)) (safe_connect _ _)
    · split
      · exact safe_nil
      · split
        · exact safe_fail
        · split
          · exact safe_fail
          · exact safe_call (safe_append (safe_autobind _ _ _ _) (safe_register h _))

theorem safe_name (y : Str × Val) (u : Table) (hu : y.2 = .tab u) (hl : y.1.length ≤ 255) : Safe (name y) := by
  unfold name
  rw [hu]
  simp only [table]
  split
  · exact safe_fail
  · rw [if_neg (by omega)]
    refine safe_call ?_
    split
    · exact safe_nil
    · exact safe_progs _ _ _

theorem safe_toplevel (e : Env) (x : Str × Val) (s : Table) (hx : x.2 = .tab s) (h : ∀ y ∈ s, y.1.length ≤ 255 ∧ ∃ u, y.2 = .tab u ∧
    ∀ l, get u "reg" = some (.arr l) → ∀ n, .str n ∈ l → n.length ≤ 255) : Safe (toplevel e x) := by
  have hi : ∀ ty, Safe (ipcpList e ty (table x.2)) := by
    intro ty
    rw [hx]
    refine safe_flatMap fun y hy => ?_
    obtain ⟨_, u, hu, hr⟩ := h y hy
    exact safe_ipcp e ty y u hu hr
  have hn : Safe (nameList (table x.2)) := by
    rw [hx]
    refine safe_flatMap fun y hy => ?_
    obtain ⟨hl, u, hu, _⟩ := h y hy
    exact safe_name y u hu hl
  unfold toplevel
  split
  · exact hi _
  split
  · exact hi _
  split
  · exact hi _
  split
  · exact hi _
  split
  · exact hi _
  split
  · exact hi _
  split
  · exact hn
  · exact safe_fail

/-! ## Failures -/

/-- The steps whose calls may return -ENAME create names. -/
def Tolerant (l : List Step) : Prop := ∀ c, .call c true ∈ l → ∃ n lb, c = .createName n lb

theorem exec_stop (e : Env) : ∀ (l : List Step) (h calls : List Call) (r : Int), Tolerant l → exec e h l = .ok (calls, r) →
    (r = 0 ∨ r = -1) ∧ ∃ post, calls = h ++ post ∧ ∀ a c b, post = a ++ c :: b → b ≠ [] ∨ r = 0 →
      0 ≤ e.res (h ++ a) c ∨ ((∃ n lb, c = .createName n lb) ∧ e.res (h ++ a) c = -ENAME)
  | [], h, calls, r, _, he => by
    simp only [exec, Outcome.ok.injEq, Prod.mk.injEq] at he
    obtain ⟨rfl, rfl⟩ := he
    exact ⟨.inl rfl, [], by simp, fun a c b hp => by simp at hp⟩
  | .fail :: l, h, calls, r, _, he => by
    simp only [exec, Outcome.ok.injEq, Prod.mk.injEq] at he
    obtain ⟨rfl, rfl⟩ := he
    exact ⟨.inr rfl, [], by simp, fun a c b hp => by simp at hp⟩
  | .crash :: l, h, calls, r, _, he => by simp [exec] at he
  | .call c nm :: l, h, calls, r, ht, he => by
    rw [exec] at he
    split at he
    · rename_i hok
      obtain ⟨hr, post, hc, hp⟩ := exec_stop e l _ calls r (fun c hc => ht c (by simp [hc])) he
      refine ⟨hr, c :: post, by rw [hc]; simp, ?_⟩
      intro a d b hs hb
      cases a with
      | nil =>
        simp only [List.nil_append, List.cons.injEq] at hs
        obtain ⟨rfl, _⟩ := hs
        rw [List.append_nil]
        rcases hok with h0 | ⟨rfl, h0⟩
        · exact .inl h0
        · exact .inr ⟨ht _ (by simp), h0⟩
      | cons a0 a =>
        simp only [List.cons_append, List.cons.injEq] at hs
        obtain ⟨rfl, hs⟩ := hs
        have := hp a d b hs hb
        rw [List.append_assoc, List.singleton_append] at this
        exact this
    · simp only [Outcome.ok.injEq, Prod.mk.injEq] at he
      obtain ⟨rfl, rfl⟩ := he
      refine ⟨.inr rfl, [c], rfl, ?_⟩
      intro a d b hs hb
      cases a with
      | nil =>
        simp only [List.nil_append, List.cons.injEq] at hs
        obtain ⟨rfl, rfl⟩ := hs
        simp at hb
      | cons a0 a => simp at hs

theorem exec_prefix (e e' : Env) (hok : ∀ h c, 0 ≤ e'.res h c) : ∀ (l : List Step) (h calls calls' : List Call) (r r' : Int),
    exec e h l = .ok (calls, r) → exec e' h l = .ok (calls', r') → calls <+: calls' ∧ (r = 0 → calls = calls' ∧ r' = 0)
  | [], h, calls, calls', r, r', he, he' => by
    simp only [exec, Outcome.ok.injEq, Prod.mk.injEq] at he he'
    rw [← he.1, ← he'.1]
    exact ⟨List.prefix_refl _, fun _ => ⟨rfl, he'.2.symm⟩⟩
  | .fail :: l, h, calls, calls', r, r', he, he' => by
    simp only [exec, Outcome.ok.injEq, Prod.mk.injEq] at he he'
    rw [← he.1, ← he'.1]
    exact ⟨List.prefix_refl _, fun h0 => absurd (he.2.trans h0) (by decide)⟩
  | .crash :: l, h, calls, calls', r, r', he, he' => by simp [exec] at he
  | .call c nm :: l, h, calls, calls', r, r', he, he' => by
    rw [exec, if_pos (.inl (hok _ _))] at he'
    rw [exec] at he
    split at he
    · exact exec_prefix e e' hok l _ _ _ _ _ he he'
    · simp only [Outcome.ok.injEq, Prod.mk.injEq] at he
      refine ⟨?_, fun h0 => absurd (he.2.trans h0) (by decide)⟩
      rw [← he.1]
      have : ∀ (l : List Step) (h calls : List Call) (r : Int), exec e' h l = .ok (calls, r) → h <+: calls := by
        intro l
        induction l with
        | nil =>
          intro h calls r hx
          simp only [exec, Outcome.ok.injEq, Prod.mk.injEq] at hx
          exact hx.1 ▸ List.prefix_refl _
        | cons s l ih =>
          intro h calls r hx
          cases s with
          | fail =>
            simp only [exec, Outcome.ok.injEq, Prod.mk.injEq] at hx
            exact hx.1 ▸ List.prefix_refl _
          | crash => simp [exec] at hx
          | call c nm =>
            rw [exec, if_pos (.inl (hok _ _))] at hx
            exact (List.prefix_append _ _).trans (ih _ _ _ hx)
      exact this _ _ _ _ he'

theorem tol_append {l m : List Step} (h : Tolerant l) (h' : Tolerant m) : Tolerant (l ++ m) := by
  intro c hm
  rcases List.mem_append.1 hm with x | x
  · exact h c x
  · exact h' c x

theorem tol_flatMap {α : Type} {l : List α} {f : α → List Step} (h : ∀ a ∈ l, Tolerant (f a)) : Tolerant (l.flatMap f) := by
  intro c m
  obtain ⟨a, ha, hm⟩ := List.mem_flatMap.1 m
  exact h a ha c hm

theorem tol_nil : Tolerant [] := by simp [Tolerant]

theorem tol_fail : Tolerant [.fail] := by simp [Tolerant]

theorem tol_crash : Tolerant [.crash] := by simp [Tolerant]

theorem tol_call {c : Call} {l : List Step} (h : Tolerant l) : Tolerant (.call c false :: l) := by
  intro d m
  rcases List.mem_cons.1 m with x | x
  · cases x
  · exact h d x

theorem tol_autobind (t : Table) (pid : Nat) (n l : Str) : Tolerant (autobind t pid n l) := by
  unfold autobind
  split
  · exact tol_nil
  · exact tol_call (tol_call tol_nil)

theorem tol_register (t : Table) (pid : Nat) : Tolerant (register t pid) := by
  unfold register
  split
  · exact tol_nil
  · refine tol_flatMap fun n _ => ?_
    unfold regOne
    split
    · exact tol_crash
    · intro c m
      rcases List.mem_cons.1 m with x | x
      · cases x; exact ⟨_, _, rfl⟩
      · exact absurd x (by simp)

theorem tol_connect (t : Table) (pid : Nat) : Tolerant (connect t pid) := by
  unfold connect
  split
  · exact tol_nil
  · exact tol_flatMap fun _ _ => tol_call (tol_call tol_nil)

theorem tol_progs (name : Str) : ∀ l as, Tolerant (progs name l as)
  | [], as => by rw [progs_nil]; exact tol_nil
  | p :: l, [] => by
    rw [progs, prog_eq]
    exact tol_call (tol_progs name l [])
  | p :: l, a :: as => by
    rw [progs, prog_eq]
    exact tol_call (tol_progs name l as)

theorem tol_ipcp (e : Env) (ty : Ty) (y : Str × Val) : Tolerant (ipcp e ty y) := by
  unfold ipcp
  split
  · exact tol_fail
  · refine tol_call ?_
    split
    · exact tol_crash
    · unfold ipcpBody
      split
      · refine tol_call ?_
        split
        · exact tol_fail
        · exact tol_append (tol_append (tol_autobind _ _ _ _) (tol_register _ _)) (tol_connect _ _)
      · split
        · exact tol_nil
        · split
          · exact tol_fail
          · split
            · exact tol_fail
            · exact tol_call (tol_append (tol_autobind _ _ _ _) (tol_register _ _))

theorem tol_name (y : Str × Val) : Tolerant (name y) := by
  unfold name
  split
  · exact tol_crash
  · split
    · exact tol_fail
    · split
      · exact tol_crash
      · refine tol_call ?_
        split
        · exact tol_nil
        · exact tol_progs _ _ _

theorem tol_toplevel (e : Env) (x : Str × Val) : Tolerant (toplevel e x) := by
  have hi : ∀ ty v, Tolerant (ipcpList e ty v) := by
    intro ty v
    cases v with
    | none => exact tol_crash
    | some t => exact tol_flatMap fun y _ => tol_ipcp e ty y
  have hn : ∀ v, Tolerant (nameList v) := by
    intro v
    cases v with
    | none => exact tol_crash
    | some t => exact tol_flatMap fun y _ => tol_name y
  unfold toplevel
  split
  · exact hi _ _
  split
  · exact hi _ _
  split
  · exact hi _ _
  split
  · exact hi _ _
  split
  · exact hi _ _
  split
  · exact hi _ _
  split
  · exact hn _
  · exact tol_fail

end Ouro.Config
