import Verif.Spec.RibDocs
import Verif.Proof.Tac
import Mathlib.Tactic.IntervalCases
import Mathlib.Data.List.Perm.Subperm

/-!
# The documents in the resource information base: proofs
-/

namespace Ouro.RibDocs

/-! ## Text -/

theorem lines_append {l : Text} (h : '\n' ∉ l) (rest : Text) :
    lines (l ++ '\n' :: rest) = l :: lines rest := by
  induction l with
  | nil => simp [lines]
  | cons c l ih =>
    simp only [List.mem_cons, not_or] at h
    have hc : c ≠ '\n' := fun e => h.1 e.symm
    simp only [List.cons_append, lines, if_neg hc, ih h.2]

theorem dec_digit {n : Nat} {c : Char} (h : c ∈ dec n) : c.isDigit = true :=
  Nat.isDigit_of_mem_toDigits (by decide) (by decide) h

theorem dec_no_newline (n : Nat) : '\n' ∉ dec n := fun h => absurd (dec_digit h) (by decide)

theorem pad_no_newline {w : Nat} {t : Text} (h : '\n' ∉ t) : '\n' ∉ pad w t := by
  unfold pad
  simp only [List.mem_append, List.mem_replicate, not_or]
  exact ⟨fun e => absurd e.2 (by decide), h⟩

theorem pad_length {w : Nat} {t : Text} (h : t.length ≤ w) : (pad w t).length = w := by
  unfold pad
  simp only [List.length_append, List.length_replicate]
  omega

theorem pad_length_ge {w : Nat} {t : Text} : t.length ≤ (pad w t).length := by
  unfold pad
  simp only [List.length_append, List.length_replicate]
  omega

theorem dec_length {n k : Nat} (hk : 0 < k) (h : n < 10 ^ k) : (dec n).length ≤ k :=
  (Nat.length_toDigits_le_iff (by decide) hk).2 h

theorem dec_length_gt {n k : Nat} (hk : 0 < k) (h : 10 ^ k ≤ n) : k < (dec n).length := by
  have := Nat.length_toDigits_le_iff (b := 10) (n := n) (by decide) hk
  unfold dec
  omega

theorem dec_small {n : Nat} (h : n < 2 ^ 64) : (dec n).length ≤ 20 :=
  dec_length (by decide) (lt_of_lt_of_le h (by decide))

theorem number_pad (w n : Nat) : number (pad w (dec n)) = n := by
  have hd : ∀ k, (List.replicate k ' ' ++ dec n).dropWhile (· = ' ') = dec n := by
    intro k
    induction k with
    | zero =>
      simp only [List.replicate_zero, List.nil_append]
      cases hc : dec n with
      | nil => rfl
      | cons c cs =>
        have : c.isDigit = true := dec_digit (n := n) (by rw [hc]; simp)
        rw [List.dropWhile_cons_of_neg]
        simp only [decide_eq_true_eq]
        rintro rfl
        exact absurd this (by decide)
    | succ k ih =>
      rw [List.replicate_succ, List.cons_append, List.dropWhile_cons_of_pos (by simp)]
      exact ih
  unfold number pad
  rw [hd]
  exact Nat.ofDigitChars_ten_toDigits

theorem row_length {label : String} {t : Text} (h : t.length ≤ 20) :
    (row label t).length = label.length + 21 := by
  unfold row
  simp only [List.length_append, pad_length h, String.length_toList, List.length_singleton]

/-- The part of a line before its end. -/
def body (label : String) (t : Text) : Text := label.toList ++ pad 20 t

theorem row_eq (label : String) (t : Text) : row label t = body label t ++ ['\n'] := rfl

theorem lines_row {label : String} {t : Text} (hl : '\n' ∉ label.toList) (ht : '\n' ∉ t) (rest : Text) :
    lines (row label t ++ rest) = body label t :: lines rest := by
  rw [row_eq, List.append_assoc]
  exact lines_append (by
    unfold body
    simp only [List.mem_append, not_or]
    exact ⟨hl, pad_no_newline ht⟩) rest

/-- A document given by labels and numbers. -/
def rows (L : List (String × Nat)) : Text := (L.map (fun p => row p.1 (dec p.2))).flatten

theorem rows_cons (p : String × Nat) (L : List (String × Nat)) :
    rows (p :: L) = row p.1 (dec p.2) ++ rows L := rfl

theorem lines_rows {L : List (String × Nat)} (hl : ∀ p ∈ L, '\n' ∉ p.1.toList) (rest : Text) :
    lines (rows L ++ rest) = L.map (fun p => body p.1 (dec p.2)) ++ lines rest := by
  induction L with
  | nil => rfl
  | cons p L ih =>
    rw [rows_cons, List.append_assoc, lines_row (hl p (by simp)) (dec_no_newline _),
      ih (fun q hq => hl q (by simp [hq]))]
    rfl

theorem rows_length {L : List (String × Nat)} {w : Nat} (hl : ∀ p ∈ L, p.1.length = w)
    (hn : ∀ p ∈ L, p.2 < 2 ^ 64) : (rows L).length = L.length * (w + 21) := by
  induction L with
  | nil => simp [rows]
  | cons p L ih =>
    rw [rows_cons, List.length_append, row_length (dec_small (hn p (by simp))),
      ih (fun q hq => hl q (by simp [hq])) (fun q hq => hn q (by simp [hq])), hl p (by simp),
      List.length_cons]
    ring

theorem shows_of {doc : Text} {k : Nat} {label : String} {n : Nat}
    (h : (lines doc)[k]? = some (body label (dec n))) : Shows doc k label n := by
  refine ⟨_, h, ?_, ?_⟩
  · unfold body
    rw [← String.length_toList, List.take_left']
    rfl
  · unfold body
    rw [← String.length_toList, List.drop_left']
    · exact number_pad _ _
    · rfl

/-! ## Data transfer -/

theorem dtBlock_eq (s : Stat) (i : Nat) :
    dtBlock s i = ("Qos cube ".toList ++ pad 3 (dec i) ++ [':', '\n']) ++ rows (dtLabels.zip (dtValues s i)) := by
  unfold dtBlock
  have e : dtLabels.zip (dtValues s i) = dtLabels.zip (dtValues s i) := rfl
  conv at e => rhs; rw [dtLabels, dtValues]
  rw [e]
  simp only [List.zip_cons_cons, List.zip_nil_right, rows_cons, List.append_assoc]
  simp only [rows, List.map_nil, List.flatten_nil, List.append_nil]

theorem dtLabels_length : ∀ l ∈ dtLabels, l.length = 26 ∧ '\n' ∉ l.toList := by decide +kernel

theorem zip_left_mem {L : List String} {V : List Nat} {p : String × Nat} (h : p ∈ L.zip V) : p.1 ∈ L :=
  (List.of_mem_zip h).1

theorem zip_right_mem {L : List String} {V : List Nat} {p : String × Nat} (h : p ∈ L.zip V) : p.2 ∈ V :=
  (List.of_mem_zip h).2

theorem dtBlock_length {s : Stat} {i : Nat} (hi : i < 3) (hs : Small (dtValues s i)) :
    (dtBlock s i).length = 672 := by
  rw [dtBlock_eq, List.length_append,
    rows_length (w := 26) (fun p hp => (dtLabels_length _ (zip_left_mem hp)).1)
      (fun p hp => hs _ (zip_right_mem hp))]
  have hd : (pad 3 (dec i)).length = 3 :=
    pad_length (dec_length (by decide) (lt_of_lt_of_le hi (by decide)))
  have ht : "Qos cube ".toList.length = 9 := by decide +kernel
  have hz : (dtLabels.zip (dtValues s i)).length = 14 := rfl
  rw [List.length_append, List.length_append, hd, ht, hz]
  rfl

theorem put_ok {cap : Nat} {t : Text} (h : t.length + 1 ≤ cap) : put cap t = .ok t := if_pos h
theorem put_ub {cap : Nat} {t : Text} (h : cap < t.length + 1) : put cap t = .ub := if_neg (by omega)

theorem dtHead_length {tmstr addrstr : Text} {rxq txq : Nat} (h1 : tmstr.length ≤ 20)
    (h2 : addrstr.length ≤ 20) (h3 : rxq < 2 ^ 64) (h4 : txq < 2 ^ 64) :
    (dtHead tmstr addrstr rxq txq).length = 189 := by
  unfold dtHead
  simp only [List.length_append, row_length h1, row_length h2, row_length (dec_small h3),
    row_length (dec_small h4), List.length_singleton]
  have e1 : "Flow established at:      ".length = 26 := by decide +kernel
  have e2 : "Endpoint address:         ".length = 26 := by decide +kernel
  have e3 : "Queued packets (rx):      ".length = 26 := by decide +kernel
  have e4 : "Queued packets (tx):      ".length = 26 := by decide +kernel
  omega

/-- The whole document. -/
def dtDoc (tmstr addrstr : Text) (rxq txq : Nat) (s : Stat) : Text :=
  dtHead tmstr addrstr rxq txq ++ dtBlock s 0 ++ dtBlock s 1 ++ dtBlock s 2

theorem dtBlocks_ok {s : Stat} {len : Nat} {buf : Text} (hb : buf.length = 189)
    (hs : ∀ i, i < 3 → Small (dtValues s i)) (hlen : 2205 < len) :
    dtBlocks s len (List.range QOS_CUBE_MAX) buf =
      .ok (buf ++ dtBlock s 0 ++ dtBlock s 1 ++ dtBlock s 2) := by
  have h0 := dtBlock_length (i := 0) (by decide) (hs 0 (by decide))
  have h1 := dtBlock_length (i := 1) (by decide) (hs 1 (by decide))
  have h2 := dtBlock_length (i := 2) (by decide) (hs 2 (by decide))
  have hr : List.range QOS_CUBE_MAX = [0, 1, 2] := rfl
  rw [hr]
  simp only [dtBlocks]
  rw [put_ok (by rw [h0]; decide)]
  simp only [Outcome.bind_ok]
  rw [put_ok (by rw [List.length_append, h0, hb]; omega)]
  simp only [Outcome.bind_ok]
  rw [put_ok (by rw [h1]; decide)]
  simp only [Outcome.bind_ok]
  rw [put_ok (by simp only [List.length_append, h0, h1, hb]; omega)]
  simp only [Outcome.bind_ok]
  rw [put_ok (by rw [h2]; decide)]
  simp only [Outcome.bind_ok]
  rw [put_ok (by simp only [List.length_append, h0, h1, h2, hb]; omega)]
  simp only [Outcome.bind_ok]

theorem dtBlocks_ub {s : Stat} {len : Nat} {buf : Text} (hb : buf.length = 189)
    (hs : ∀ i, i < 3 → Small (dtValues s i)) (hlen : len = 2205) :
    dtBlocks s len (List.range QOS_CUBE_MAX) buf = .ub := by
  have h0 := dtBlock_length (i := 0) (by decide) (hs 0 (by decide))
  have h1 := dtBlock_length (i := 1) (by decide) (hs 1 (by decide))
  have h2 := dtBlock_length (i := 2) (by decide) (hs 2 (by decide))
  have hr : List.range QOS_CUBE_MAX = [0, 1, 2] := rfl
  rw [hr]
  simp only [dtBlocks]
  rw [put_ok (by rw [h0]; decide)]
  simp only [Outcome.bind_ok]
  rw [put_ok (by rw [List.length_append, h0, hb]; omega)]
  simp only [Outcome.bind_ok]
  rw [put_ok (by rw [h1]; decide)]
  simp only [Outcome.bind_ok]
  rw [put_ok (by simp only [List.length_append, h0, h1, hb]; omega)]
  simp only [Outcome.bind_ok]
  rw [put_ok (by rw [h2]; decide)]
  simp only [Outcome.bind_ok]
  rw [put_ub (by simp only [List.length_append, h0, h1, h2, hb]; omega)]
  rfl

theorem lines_block {s : Stat} {i : Nat} (rest : Text) :
    lines (dtBlock s i ++ rest) =
      ("Qos cube ".toList ++ pad 3 (dec i) ++ [':']) ::
        ((dtLabels.zip (dtValues s i)).map (fun p => body p.1 (dec p.2)) ++ lines rest) := by
  rw [dtBlock_eq]
  have : "Qos cube ".toList ++ pad 3 (dec i) ++ [':', '\n'] ++ rows (dtLabels.zip (dtValues s i)) ++ rest =
      ("Qos cube ".toList ++ pad 3 (dec i) ++ [':']) ++ '\n' :: (rows (dtLabels.zip (dtValues s i)) ++ rest) := by
    simp only [List.append_assoc, List.cons_append, List.nil_append]
  rw [this, lines_append, lines_rows (fun p hp => (dtLabels_length _ (zip_left_mem hp)).2)]
  simp only [List.mem_append, not_or, List.mem_singleton]
  exact ⟨⟨by decide +kernel, pad_no_newline (dec_no_newline _)⟩, by decide⟩

theorem lines_head {tmstr addrstr : Text} {rxq txq : Nat} (h1 : '\n' ∉ tmstr) (h2 : '\n' ∉ addrstr)
    (rest : Text) :
    lines (dtHead tmstr addrstr rxq txq ++ rest) =
      body "Flow established at:      " tmstr :: body "Endpoint address:         " addrstr ::
      body "Queued packets (rx):      " (dec rxq) :: body "Queued packets (tx):      " (dec txq) ::
      [] :: lines rest := by
  unfold dtHead
  simp only [List.append_assoc]
  rw [lines_row (by decide +kernel) h1, lines_row (by decide +kernel) h2,
    lines_row (by decide +kernel) (dec_no_newline _), lines_row (by decide +kernel) (dec_no_newline _)]
  have := lines_append (l := []) (by simp) rest
  simp only [List.nil_append] at this
  simp only [List.cons_append, List.nil_append, this]

theorem lines_dtDoc {tmstr addrstr : Text} {rxq txq : Nat} {s : Stat} (h1 : '\n' ∉ tmstr)
    (h2 : '\n' ∉ addrstr) {i j : Nat} (hi : i < 3) (hj : j < 14) :
    Shows (dtDoc tmstr addrstr rxq txq s) (6 + 15 * i + j) (dtLabels.getD j "") ((dtValues s i).getD j 0) := by
  apply shows_of
  unfold dtDoc
  simp only [List.append_assoc]
  rw [lines_head h1 h2, lines_block, lines_block]
  have := lines_block (s := s) (i := 2) []
  rw [List.append_nil] at this
  rw [this]
  interval_cases i <;> interval_cases j <;> rfl

/-! ## Listing of the data transfer component -/

theorem dtScan_succ (used : Nat → Bool) (fuel i : Nat) :
    dtScan used (fuel + 1) i =
      if 4096 ≤ i then []
      else if used i = false then dtScan used fuel (if i < 64 then 65 else i + 1)
      else i :: dtScan used fuel (i + 1) := rfl

theorem dtScan_mem (used : Nat → Bool) : ∀ fuel i x, x ∈ dtScan used fuel i →
    i ≤ x ∧ x < 4096 ∧ used x = true := by
  intro fuel
  induction fuel with
  | zero => intro i x h; simp [dtScan] at h
  | succ fuel ih =>
    intro i x h
    rw [dtScan_succ] at h
    split at h
    · simp at h
    · rename_i hi
      split at h
      · obtain ⟨h1, h2⟩ := ih _ x h
        refine ⟨?_, h2⟩
        split at h1 <;> omega
      · rename_i hu
        rcases List.mem_cons.1 h with rfl | h
        · exact ⟨le_refl _, by omega, by simpa using hu⟩
        · obtain ⟨h1, h2⟩ := ih _ x h
          exact ⟨by omega, h2⟩

theorem dtScan_sorted (used : Nat → Bool) : ∀ fuel i, (dtScan used fuel i).Pairwise (· < ·) := by
  intro fuel
  induction fuel with
  | zero => intro i; simp [dtScan]
  | succ fuel ih =>
    intro i
    rw [dtScan_succ]
    split
    · exact List.Pairwise.nil
    · split
      · exact ih _
      · rw [List.pairwise_cons]
        exact ⟨fun x hx => by have := (dtScan_mem used _ _ _ hx).1; omega, ih _⟩

/-- Everything from `i` on is listed once the reserved descriptors are passed. -/
theorem dtScan_high (used : Nat → Bool) : ∀ fuel i x, 64 ≤ i → 4096 ≤ i + fuel → i ≤ x → x < 4096 →
    used x = true → x ∈ dtScan used fuel i := by
  intro fuel
  induction fuel with
  | zero => intro i x h1 h2 h3 h4; omega
  | succ fuel ih =>
    intro i x h1 h2 h3 h4 hu
    rw [dtScan_succ]
    rw [if_neg (by omega)]
    split
    · rename_i hi
      rw [if_neg (by omega)]
      have : x ≠ i := by rintro rfl; rw [hu] at hi; exact absurd hi (by simp)
      exact ih _ _ (by omega) (by omega) (by omega) h4 hu
    · by_cases hx : x = i
      · simp [hx]
      · exact List.mem_cons_of_mem _ (ih _ _ (by omega) (by omega) (by omega) h4 hu)

theorem dtScan_low (used : Nat → Bool) : ∀ fuel i, 4096 ≤ i + fuel → i ≤ 4096 →
    (∀ x, 64 < x → i ≤ x → x < 4096 → used x = true → x ∈ dtScan used fuel i) ∧
    (∀ x, i ≤ x → x < 4096 → (∀ y, i ≤ y → y ≤ x → used y = true) → x ∈ dtScan used fuel i) := by
  intro fuel
  induction fuel with
  | zero => intro i h1 h2; exact ⟨fun x h3 h4 h5 => by omega, fun x h3 h4 => by omega⟩
  | succ fuel ih =>
    intro i h1 h2
    by_cases hi : 4096 ≤ i
    · exact ⟨fun x h3 h4 h5 => by omega, fun x h3 h4 => by omega⟩
    rw [dtScan_succ]
    rw [if_neg (by omega)]
    split
    · rename_i hu
      constructor
      · intro x h3 h4 h5 hx
        have hne : x ≠ i := by rintro rfl; rw [hx] at hu; exact absurd hu (by simp)
        by_cases hlt : i < 64
        · rw [if_pos hlt]
          by_cases hf : 4096 ≤ 65 + fuel
          · exact dtScan_high used _ _ _ (by omega) hf (by omega) h5 hx
          · omega
        · rw [if_neg hlt]
          exact dtScan_high used _ _ _ (by omega) (by omega) (by omega) h5 hx
      · intro x h3 h4 hall
        have := hall i (le_refl _) h3
        rw [this] at hu
        exact absurd hu (by simp)
    · obtain ⟨ih1, ih2⟩ := ih (i + 1) (by omega) (by omega)
      constructor
      · intro x h3 h4 h5 hx
        by_cases hxi : x = i
        · simp [hxi]
        · exact List.mem_cons_of_mem _ (ih1 x h3 (by omega) h5 hx)
      · intro x h3 h4 hall
        by_cases hxi : x = i
        · simp [hxi]
        · exact List.mem_cons_of_mem _ (ih2 x (by omega) h4 (fun y h5 h6 => hall y (by omega) h6))

/-- Descriptor 64 is skipped once an unused reserved descriptor was met. -/
theorem dtScan_skip (used : Nat → Bool) : ∀ fuel i y, i ≤ y → y < 64 → used y = false →
    64 ∉ dtScan used fuel i := by
  intro fuel
  induction fuel with
  | zero => intro i y _ _ _; simp [dtScan]
  | succ fuel ih =>
    intro i y h1 h2 hy
    rw [dtScan_succ]
    rw [if_neg (by omega)]
    split
    · rw [if_pos (by omega)]
      intro hm
      have := (dtScan_mem used _ _ _ hm).1
      omega
    · rename_i hu
      have hne : i ≠ y := by rintro rfl; exact hu hy
      intro hm
      rcases List.mem_cons.1 hm with e | hm
      · omega
      · exact ih _ y (by omega) h2 hy hm

theorem dtScan_length (used : Nat → Bool) (fuel i : Nat) :
    (dtScan used fuel i).length ≤ usedCount used := by
  have hsub : (dtScan used fuel i).Subperm ((List.range 4096).filter (used ·)) := by
    apply List.subperm_of_subset
    · exact (dtScan_sorted used fuel i).imp (fun h => Nat.ne_of_lt h)
    · intro x hx
      obtain ⟨_, h2, h3⟩ := dtScan_mem used _ _ _ hx
      simp [h2, h3]
  have := hsub.length_le
  rwa [← List.countP_eq_length_filter] at this

theorem countP_upd (l : List Nat) (hl : l.Nodup) (used : Nat → Bool) (fd : Nat) (u : Bool) :
    (l.countP (fun i => if i = fd then u else used i)) + (if fd ∈ l ∧ used fd = true then 1 else 0) =
      l.countP used + (if fd ∈ l ∧ u = true then 1 else 0) := by
  induction l with
  | nil => simp
  | cons a l ih =>
    obtain ⟨h1, h2⟩ := List.nodup_cons.1 hl
    have ih := ih h2
    rw [List.countP_cons, List.countP_cons]
    by_cases ha : a = fd
    · subst ha
      simp only [h1, false_and, if_false, Nat.add_zero] at ih
      simp only [List.mem_cons, true_or, true_and, if_true, ih]
      omega
    · have hm : (fd ∈ a :: l) ↔ fd ∈ l := by
        simp only [List.mem_cons, or_iff_right (fun e : fd = a => ha e.symm)]
      simp only [hm, if_neg ha]
      omega

theorem use_count {d : DtFlows} (h : d.n = usedCount d.used) {fd : Nat} {u : Bool} (hfd : fd < 4096)
    (hu : d.used fd = !u) : (d.use fd u).n = usedCount (d.use fd u).used := by
  have key := countP_upd (List.range 4096) List.nodup_range d.used fd u
  have hm : fd ∈ List.range 4096 := List.mem_range.2 hfd
  simp only [DtFlows.use, DtFlows.mark, DtFlows.count, usedCount] at *
  rw [hu] at key
  cases u with
  | true =>
    rw [if_neg (by simp), if_pos ⟨hm, rfl⟩] at key
    rw [if_pos rfl]
    omega
  | false =>
    rw [if_pos ⟨hm, rfl⟩, if_neg (by simp)] at key
    rw [if_neg (by simp)]
    omega

theorem useAll_count : ∀ l (d : DtFlows), d.n = usedCount d.used → Uses d l →
    (useAll d l).n = usedCount (useAll d l).used := by
  intro l
  induction l with
  | nil => intro d h _; exact h
  | cons p l ih =>
    obtain ⟨fd, u⟩ := p
    intro d h ⟨h1, h2, h3⟩
    exact ih _ (use_count h h1 h2) h3

/-! ## Names of adjacencies -/

theorem dec_inj {a b : Nat} (h : dec a = dec b) : a = b := by
  have h1 := Nat.ofDigitChars_ten_toDigits (n := a)
  have h2 := Nat.ofDigitChars_ten_toDigits (n := b)
  unfold dec at h
  rw [h] at h1
  omega

theorem dec_no_dot (n : Nat) : '.' ∉ dec n := fun h => absurd (dec_digit h) (by decide)

theorem split_unique {a b c d : Text} (ha : '.' ∉ a) (hc : '.' ∉ c) (h : a ++ '.' :: b = c ++ '.' :: d) :
    a = c ∧ b = d := by
  induction a generalizing c with
  | nil =>
    cases c with
    | nil => simpa using h
    | cons x c =>
      simp only [List.nil_append, List.cons_append, List.cons.injEq] at h
      exact absurd (by rw [h.1]; exact List.mem_cons_self) hc
  | cons x a ih =>
    cases c with
    | nil =>
      simp only [List.nil_append, List.cons_append, List.cons.injEq] at h
      exact absurd (by rw [h.1]; exact List.mem_cons_self) ha
    | cons y c =>
      simp only [List.cons_append, List.cons.injEq] at h
      simp only [List.mem_cons, not_or] at ha hc
      obtain ⟨h1, h2⟩ := ih ha.2 hc.2 h.2
      exact ⟨by rw [h.1, h1], h2⟩

theorem adjName_inj {a b : Adj} (h : adjName a = adjName b) : a.src = b.src ∧ a.dst = b.dst := by
  obtain ⟨h1, h2⟩ := split_unique (dec_no_dot _) (dec_no_dot _) h
  exact ⟨dec_inj h1, dec_inj h2⟩

theorem adj_ne_nb (a : Adj) (n : Nb) : adjName a ≠ nbName n := by
  intro h
  have hd : ∀ c cs, adjName a = c :: cs → c.isDigit = true := by
    intro c cs hc
    unfold adjName at hc
    cases hs : dec a.src with
    | nil => exact absurd hs Nat.toDigits_ne_nil
    | cons x xs =>
      rw [hs] at hc
      simp only [List.cons_append, List.cons.injEq] at hc
      rw [← hc.1]
      exact dec_digit (n := a.src) (by rw [hs]; simp)
  rw [h] at hd
  unfold nbName at hd
  cases hn : n.isDt with
  | true =>
    rw [hn] at hd
    exact absurd (hd 'd' ("t.".toList ++ dec n.addr) rfl) (by decide)
  | false =>
    rw [hn] at hd
    exact absurd (hd 'm' ("gmt.".toList ++ dec n.addr) rfl) (by decide)

theorem getAdj_nb (db : List Adj) (n : Nb) : getAdj db (nbName n) = none := by
  unfold getAdj
  rw [List.find?_eq_none]
  intro a _
  simpa using adj_ne_nb a n

theorem getAdj_adj {db : List Adj} {a : Adj} (ha : a ∈ db)
    (hd : ∀ b ∈ db, b.src = a.src → b.dst = a.dst → b = a) : getAdj db (adjName a) = some a := by
  unfold getAdj
  cases hf : db.find? (fun b => adjName b == adjName a) with
  | none => rw [List.find?_eq_none] at hf; exact absurd (hf a ha) (by simp)
  | some b =>
    have h1 := List.find?_some hf
    have h2 := List.mem_of_find?_eq_some hf
    obtain ⟨h3, h4⟩ := adjName_inj (by simpa using h1)
    rw [hd b h2 h3 h4]

theorem faHead_rows (tmstr : Text) (f : FaFlow) :
    faHead tmstr f = row "Flow established at:             " tmstr ++
      rows (faLabels.zip [f.r_addr, f.s_eid, f.r_eid, f.p_snd, f.b_snd, f.p_snd_f, f.b_snd_f, f.p_rcv, f.b_rcv,
        f.b_rcv_f, f.b_rcv_f, f.u_snd, f.u_rcv]) := by
  unfold faHead faLabels
  simp only [List.zip_cons_cons, List.zip_nil_right, rows_cons, List.append_assoc]
  simp only [rows, List.map_nil, List.flatten_nil, List.append_nil]

theorem faLabels_length : ∀ l ∈ faLabels, l.length = 33 ∧ '\n' ∉ l.toList := by decide +kernel

theorem faHead_length {tmstr : Text} {f : FaFlow} (ht : tmstr.length ≤ 20) (hs : Small (faValues f)) :
    (faHead tmstr f).length = 756 := by
  have e : "Flow established at:             ".length = 33 := by decide +kernel
  rw [faHead_rows, List.length_append, row_length ht, e,
    rows_length (w := 33) (fun p hp => (faLabels_length _ (zip_left_mem hp)).1) ?_]
  · simp only [List.length_zip, faLabels, List.length_cons, List.length_nil]
    decide
  · intro p hp
    have := zip_right_mem hp
    simp only [List.mem_cons, List.not_mem_nil, or_false] at this
    apply hs
    simp only [faValues, List.mem_cons, List.not_mem_nil, or_false]
    tauto

theorem mbText_length {c : MbStats} (hs : Small [c.tx_ece, c.tx_ctr, c.rx_ece, c.rx_ctr, c.tx_wpc, c.tx_wbc, c.tx_wbl]) :
    (mbText c).length = 540 := by
  have hw : (dec (2 ^ c.tx_mul % 2 ^ 64)).length ≤ 20 := dec_small (Nat.mod_lt _ (by decide))
  have hr : (if c.tx_cav = false then "Slow start".toList
     else if c.tx_ece ≠ 0 then "Multiplicative dec".toList else "Additive inc".toList).length ≤ 20 := by
    split
    · decide +kernel
    · split <;> decide +kernel
  have ha : "Multi-bit ECN".toList.length ≤ 20 := by decide +kernel
  have d : ∀ n ∈ [c.tx_ece, c.tx_ctr, c.rx_ece, c.rx_ctr, c.tx_wpc, c.tx_wbc, c.tx_wbl], (dec n).length ≤ 20 :=
    fun n hn => dec_small (hs n hn)
  unfold mbText
  simp only [List.length_append]
  rw [row_length ha, row_length (d _ (by simp)), row_length (d _ (by simp)), row_length (d _ (by simp)),
    row_length (d _ (by simp)), row_length hw, row_length (d _ (by simp)), row_length (d _ (by simp)),
    row_length (d _ (by simp)), row_length hr]
  have e : ∀ l ∈ ["Congestion avoidance algorithm:  ", "Upstream congestion level:       ",
    "Upstream packet counter:         ", "Downstream congestion level:     ", "Downstream packet counter:       ",
    "Congestion window size (ns):     ", "Packets in this window:          ", "Bytes in this window:            ",
    "Max bytes in this window:        ", "Current congestion regime:       "], l.length = 33 := by decide +kernel
  rw [e _ (by simp), e _ (by simp), e _ (by simp), e _ (by simp), e _ (by simp), e _ (by simp), e _ (by simp),
    e _ (by simp), e _ (by simp), e _ (by simp)]

theorem adjText_length {tm : Nat → Text} {a : Adj} (htm : TimeFormat tm) (h1 : a.src < 2 ^ 64)
    (h2 : a.dst < 2 ^ 64) : (adjText tm a).length = 86 + (pad 18 (dec a.seqno)).length := by
  unfold adjText
  have e1 : "src: ".toList.length = 5 := by decide +kernel
  have e2 : "dst: ".toList.length = 5 := by decide +kernel
  have e3 : "seqno: ".toList.length = 7 := by decide +kernel
  have e4 : "upd: ".toList.length = 5 := by decide +kernel
  simp only [List.length_append, List.length_singleton]
  rw [e1, e2, e3, e4, pad_length (dec_small h1), pad_length (dec_small h2),
    pad_length (t := tm a.stamp) (by rw [(htm _).1]; decide)]
  omega

theorem frctText_rows (s : FrctStats) : frctText s = rows (frctLabels.zip (frctValues s)) := by
  unfold frctText frctLabels frctValues
  simp only [List.zip_cons_cons, List.zip_nil_right, rows_cons, List.append_assoc]
  simp only [rows, List.map_nil, List.flatten_nil, List.append_nil]

theorem frctLabels_length : ∀ l ∈ frctLabels, l.length = 33 ∧ '\n' ∉ l.toList := by decide +kernel

theorem frctText_length {s : FrctStats} (hs : Small (frctValues s)) : (frctText s).length = 1188 := by
  rw [frctText_rows, rows_length (w := 33) (fun p hp => (frctLabels_length _ (zip_left_mem hp)).1)
    (fun p hp => hs _ (zip_right_mem hp))]
  simp only [List.length_zip, frctLabels, frctValues, List.length_cons, List.length_nil]
  decide

end Ouro.RibDocs
