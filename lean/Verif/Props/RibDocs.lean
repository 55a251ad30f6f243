import Verif.Proof.RibDocs

/-!
# C74: the documents in the resource information base
-/

namespace Ouro.RibDocs

/-! ## Statistics of the data transfer component -/

/-- **C74, partial.**  Reading the statistics of a flow of the data transfer component, for every flow descriptor in
use, all counters and every buffer that is larger than the document: the read stays within all buffers, gives exactly
the size that is announced, and every counter of every QoS cube stands under its label.  The full statement is for all
file names, addresses and buffers; see `C74_dt_size_violated`, `C74_dt_address_violated` and `C74_dt_range_violated`. -/
theorem C74_dt_partial (tm : Nat → Text) (own : Nat) (names : Nat → Text) (stat : Nat → Stat) (rxq txq fd len : Nat)
    (htm : TimeFormat tm) (hfd : fd < 4096) (hlen : 2205 < len) (hused : (stat fd).stamp ≠ 0)
    (haddr : ((stat fd).addr = own ∧ fd < 64 ∧ (names fd).length ≤ 19 ∧ '\n' ∉ names fd) ∨
      ((stat fd).addr ≠ own ∧ (stat fd).addr < 10 ^ 19))
    (hq : Small [rxq, txq]) (hs : ∀ i, i < 3 → Small (dtValues (stat fd) i)) :
    ∃ doc, dtRead tm own names stat rxq txq fd len = .ok (doc.length, doc) ∧
      dtGetattr fd = .ok doc.length ∧ doc.length < len ∧
      ∀ i j, i < 3 → j < 14 →
        Shows doc (6 + 15 * i + j) (dtLabels.getD j "") ((dtValues (stat fd) i).getD j 0) := by
  have hfd' : ¬ ((fd : Int) < 0 ∨ (PROG_MAX_FLOWS : Int) ≤ (fd : Int)) := by
    simp only [PROG_MAX_FLOWS]; omega
  obtain ⟨who, hwho, hwl, hwn⟩ : ∃ who : Text,
      (if (stat fd).addr = own then names fd else dec (stat fd).addr) = who ∧ who.length ≤ 19 ∧ '\n' ∉ who := by
    refine ⟨_, rfl, ?_⟩
    rcases haddr with ⟨h1, _, h3, h4⟩ | ⟨h1, h2⟩
    · rw [if_pos h1]
      exact ⟨h3, h4⟩
    · rw [if_neg h1]
      exact ⟨dec_length (by decide) h2, dec_no_newline _⟩
  have hres : ¬ ((stat fd).addr = own ∧ PROG_RES_FDS ≤ fd) := by
    simp only [PROG_RES_FDS]
    rcases haddr with ⟨_, h2, _⟩ | ⟨h1, _⟩
    · exact fun h => absurd h.2 (by omega)
    · exact fun h => h1 h.1
  have hhead : (dtHead (tm (stat fd).stamp) who rxq txq).length = 189 :=
    dtHead_length (by rw [(htm _).1]; decide) (le_trans hwl (by decide)) (hq _ (by simp)) (hq _ (by simp))
  have hdoc : (dtDoc (tm (stat fd).stamp) who rxq txq (stat fd)).length = 2205 := by
    unfold dtDoc
    rw [List.length_append, List.length_append, List.length_append, hhead,
      dtBlock_length (by decide) (hs 0 (by decide)), dtBlock_length (by decide) (hs 1 (by decide)),
      dtBlock_length (by decide) (hs 2 (by decide))]
  refine ⟨dtDoc (tm (stat fd).stamp) who rxq txq (stat fd), ?_, ?_, by omega, ?_⟩
  · unfold dtRead
    rw [if_neg (show ¬ len < RIB_FILE_STRLEN from Nat.not_lt.2 (Nat.le_of_lt hlen)), if_neg hfd']
    simp only [Int.toNat_natCast]
    rw [if_neg hused, if_neg hres, hwho, put_ok (by omega)]
    simp only [Outcome.bind_ok]
    rw [put_ok (by rw [hhead]; omega)]
    simp only [Outcome.bind_ok]
    rw [dtBlocks_ok hhead hs hlen, hdoc]
    rfl
  · unfold dtGetattr
    rw [if_neg hfd', hdoc]
    rfl
  · intro i j hi hj
    exact lines_dtDoc (htm _).2 hwn hi hj

/-- Times as they are printed. -/
example : TimeFormat (fun _ => "2026-11-16 18:48:11".toList) := fun _ => by
  exact (by decide +kernel : "2026-11-16 18:48:11".toList.length = 19 ∧ '\n' ∉ "2026-11-16 18:48:11".toList)

/-- A flow with distinct counters. -/
def exStat : Stat :=
  ⟨1700000000, 4711, fun i => 10 + i, fun i => 1000 + i, fun i => 20 + i, fun i => 2000 + i, fun i => 30 + i,
   fun i => 3000 + i, fun i => 40 + i, fun i => 4000 + i, fun i => 50 + i, fun i => 5000 + i, fun i => 60 + i,
   fun i => 6000 + i, fun i => 70 + i, fun i => 2 ^ 64 - 1 - i⟩

/-- The names of the components are short. -/
example : "flow-allocator".toList.length ≤ 19 ∧ '\n' ∉ "flow-allocator".toList ∧ "dht".toList.length ≤ 19 := by
  decide +kernel

/-- The hypotheses hold for it. -/
example : exStat.stamp ≠ 0 ∧ exStat.addr < 10 ^ 19 ∧ ∀ i, i < 3 → ∀ n ∈ dtValues exStat i, n < 2 ^ 64 := by
  decide

/-- **C74 violated: one byte too many.**  A buffer of exactly the announced size is accepted, and the terminating zero
is written after its end. -/
theorem C74_dt_size_violated (tm : Nat → Text) (own : Nat) (names : Nat → Text) (stat : Nat → Stat)
    (rxq txq fd : Nat) (htm : TimeFormat tm) (hfd : fd < 4096) (hused : (stat fd).stamp ≠ 0)
    (haddr : (stat fd).addr < 10 ^ 19) (hown : (stat fd).addr ≠ own)
    (hq : Small [rxq, txq]) (hs : ∀ i, i < 3 → Small (dtValues (stat fd) i)) :
    dtGetattr fd = .ok 2205 ∧ dtRead tm own names stat rxq txq fd 2205 = .ub := by
  have hfd' : ¬ ((fd : Int) < 0 ∨ (PROG_MAX_FLOWS : Int) ≤ (fd : Int)) := by
    simp only [PROG_MAX_FLOWS]; omega
  have hhead : (dtHead (tm (stat fd).stamp) (dec (stat fd).addr) rxq txq).length = 189 :=
    dtHead_length (by rw [(htm _).1]; decide)
      (le_trans (dec_length (by decide) haddr) (by decide)) (hq _ (by simp)) (hq _ (by simp))
  refine ⟨by unfold dtGetattr; rw [if_neg hfd']; rfl, ?_⟩
  unfold dtRead
  rw [if_neg (show ¬ 2205 < RIB_FILE_STRLEN by decide), if_neg hfd']
  simp only [Int.toNat_natCast]
  rw [if_neg hused, if_neg (fun h => hown h.1), if_neg hown,
    put_ok (by have := dec_length (k := 19) (by decide) haddr; omega)]
  simp only [Outcome.bind_ok]
  rw [put_ok (by rw [hhead]; decide)]
  simp only [Outcome.bind_ok]
  rw [dtBlocks_ub hhead hs rfl]
  rfl

/-- **C74 violated: long addresses.**  The address is printed to an array of 20 bytes, too small for the addresses from
10^19 on, which are almost half of the addresses of 8 bytes. -/
theorem C74_dt_address_violated (tm : Nat → Text) (own : Nat) (names : Nat → Text) (stat : Nat → Stat)
    (rxq txq fd len : Nat) (hfd : fd < 4096) (hlen : 2205 ≤ len) (hused : (stat fd).stamp ≠ 0)
    (haddr : 10 ^ 19 ≤ (stat fd).addr) (hown : (stat fd).addr ≠ own) :
    dtRead tm own names stat rxq txq fd len = .ub := by
  have hfd' : ¬ ((fd : Int) < 0 ∨ (PROG_MAX_FLOWS : Int) ≤ (fd : Int)) := by
    simp only [PROG_MAX_FLOWS]; omega
  unfold dtRead
  rw [if_neg (show ¬ len < RIB_FILE_STRLEN from Nat.not_lt.2 hlen), if_neg hfd']
  simp only [Int.toNat_natCast]
  rw [if_neg hused, if_neg (fun h => hown h.1), if_neg hown,
    put_ub (by have := dec_length_gt (k := 19) (by decide) haddr; omega)]
  rfl

example : (10 : Nat) ^ 19 < 2 ^ 64 := by decide

/-- **C74 violated: file names.**  The number in the name of a file is not checked: for a negative number, or one from
4096 on, memory outside the table is used, by reading the file and already by looking at its attributes. -/
theorem C74_dt_range_violated (tm : Nat → Text) (own : Nat) (names : Nat → Text) (stat : Nat → Stat) (rxq txq len : Nat)
    (fd : Int) (hfd : fd < 0 ∨ 4096 ≤ fd) (hlen : 2205 ≤ len) :
    dtRead tm own names stat rxq txq fd len = .ub ∧ dtGetattr fd = .ub := by
  have hfd' : fd < 0 ∨ (PROG_MAX_FLOWS : Int) ≤ fd := by simp only [PROG_MAX_FLOWS]; omega
  constructor
  · unfold dtRead
    rw [if_neg (show ¬ len < RIB_FILE_STRLEN from Nat.not_lt.2 hlen), if_pos hfd']
  · unfold dtGetattr
    rw [if_pos hfd']

/-! ## Listing of the data transfer component -/

/-- **C74, partial.**  After every history of flows that come and go, when no change is under way: the listing stays
within its array, lists only descriptors in use, each once and in order, and lists all above 64 and all below the first
that is unused.  The full statement is that it lists all; see `C74_dt_list_violated`; and for listings while a flow
comes, `C74_dt_list_race_violated`. -/
theorem C74_dt_list_partial (l : List (Nat × Bool)) (hl : Uses noFlows l) (hn : (useAll noFlows l).n ≠ 0) :
    ∃ fds, dtReaddir (useAll noFlows l).used (useAll noFlows l).n = .ok fds ∧ fds.Pairwise (· < ·) ∧
      (∀ x ∈ fds, x < 4096 ∧ (useAll noFlows l).used x = true) ∧
      (∀ x, 64 < x → x < 4096 → (useAll noFlows l).used x = true → x ∈ fds) ∧
      (∀ x, x < 4096 → (∀ y, y ≤ x → (useAll noFlows l).used y = true) → x ∈ fds) := by
  have hc := useAll_count l noFlows
    (show 0 = (List.range 4096).countP (fun _ => false) from by simp) hl
  generalize useAll noFlows l = d at *
  have hlow := dtScan_low d.used 4096 0 (by decide) (by decide)
  refine ⟨dtScan d.used PROG_MAX_FLOWS 0, ?_, dtScan_sorted _ _ _, ?_, ?_, ?_⟩
  · unfold dtReaddir
    rw [if_neg (by omega)]
    show (if (dtScan d.used PROG_MAX_FLOWS 0).length ≤ d.n then _ else _) = _
    rw [if_pos (by rw [hc]; exact dtScan_length _ _ _)]
  · intro x hx
    exact (dtScan_mem _ _ _ _ hx).2
  · intro x h1 h2 h3
    exact hlow.1 x h1 (Nat.zero_le _) h2 h3
  · intro x h1 h2
    exact hlow.2 x (Nat.zero_le _) h1 (fun y _ h => h2 y h)

/-- Reserved descriptors 0 and 1, and flows 65 and 70. -/
example : Uses noFlows [(0, true), (1, true), (65, true), (70, true)] := by
  simp [Uses, noFlows, DtFlows.use, DtFlows.mark, DtFlows.count]

/-- **C74 violated: the first flow is missing.**  While a reserved descriptor is unused the flow with descriptor 64,
the first that is given out, is not listed although it is in use. -/
theorem C74_dt_list_violated (used : Nat → Bool) (n y : Nat) (hy : y < 64) (hu : used y = false)
    (fds : List Nat) (h : dtReaddir used n = .ok fds) : 64 ∉ fds := by
  unfold dtReaddir at h
  split at h
  · simp only [Outcome.ok.injEq] at h
    subst h
    simp
  · dsimp only at h
    split at h
    · simp only [Outcome.ok.injEq] at h
      rw [← h]
      exact dtScan_skip used _ 0 y (Nat.zero_le _) hy hu
    · exact absurd h (by simp)

/-- One component and one flow, both in use. -/
example : Uses noFlows [(0, true), (64, true)] ∧ (useAll noFlows [(0, true), (64, true)]).used 64 = true := by
  refine ⟨by simp [Uses, noFlows, DtFlows.use, DtFlows.mark, DtFlows.count], rfl⟩

/-- **C74 violated: listing while a flow comes.**  The array has room for the flows counted so far, but a flow is
marked in use before it is counted: a listing in between writes after the end of the array. -/
theorem C74_dt_list_race_violated :
    let d := useAll noFlows [(0, true)]
    dtReaddir (d.mark 1 true).used (d.mark 1 true).n = .ub := by
  intro d
  have hm : ∀ x, x ≤ 1 → x ∈ dtScan (d.mark 1 true).used PROG_MAX_FLOWS 0 := by
    intro x hx
    refine (dtScan_low (d.mark 1 true).used 4096 0 (by decide) (by decide)).2 x (Nat.zero_le _) (by omega) ?_
    intro y _ hy
    have : y = 0 ∨ y = 1 := by omega
    rcases this with rfl | rfl <;> rfl
  unfold dtReaddir
  rw [if_neg (show ¬ (d.mark 1 true).n < 1 by decide)]
  show (if (dtScan (d.mark 1 true).used PROG_MAX_FLOWS 0).length ≤ 1 then _ else _) = _
  rw [if_neg]
  intro hle
  have h0 := hm 0 (by decide)
  have h1 := hm 1 (by decide)
  generalize dtScan (d.mark 1 true).used PROG_MAX_FLOWS 0 = fds at *
  match fds, hle with
  | [], _ => simp at h0
  | [a], _ =>
    simp only [List.mem_singleton] at h0 h1
    omega

/-! ## Statistics of the flow allocator -/

/-- **C74, partial.**  Reading the statistics of a flow of the flow allocator with multi-bit ECN congestion avoidance,
for every name, flow and buffer: the read stays within all buffers, and every number stands under its label except the
failed packets received.  Full statement: also those, and without congestion avoidance; see
`C74_fa_failed_violated`, `C74_fa_nop_violated`. -/
theorem C74_fa_partial (tm : Nat → Text) (flows : Nat → FaFlow) (ca : Nat → Option MbStats) (fd : Int) (len : Nat)
    (htm : TimeFormat tm) (hs : ∀ i, Small (faValues (flows i)))
    (hca : ∀ i, ∃ c, ca i = some c ∧
      Small [c.tx_ece, c.tx_ctr, c.rx_ece, c.rx_ctr, c.tx_wpc, c.tx_wbc, c.tx_wbl]) :
    ∃ res doc, faRead tm flows ca fd len = .ok (res, doc) ∧ (doc = [] ∨ doc.length + 1 ≤ len) ∧
      (0 ≤ fd → fd < 4096 → 1536 ≤ len → (flows fd.toNat).stamp ≠ 0 →
        res = doc.length ∧ ∀ j, j < 13 → j ≠ 9 →
          Shows doc (1 + j) (faLabels.getD j "") ((faValues (flows fd.toNat)).getD j 0)) := by
  unfold faRead
  by_cases hfd : fd < 0 ∨ (PROG_MAX_FLOWS : Int) ≤ fd
  · rw [if_pos hfd]
    refine ⟨-1, [], rfl, Or.inl rfl, fun h1 h2 => ?_⟩
    simp only [PROG_MAX_FLOWS] at hfd
    omega
  rw [if_neg hfd]
  by_cases hlen : len < 1536
  · rw [if_pos hlen]
    exact ⟨0, [], rfl, Or.inl rfl, fun _ _ h => absurd h (by omega)⟩
  rw [if_neg hlen]
  obtain ⟨c, hc, hcs⟩ := hca fd.toNat
  have hs := hs fd.toNat
  generalize flows fd.toNat = f at *
  dsimp only
  by_cases hst : f.stamp = 0
  · rw [if_pos hst]
    exact ⟨0, [], rfl, Or.inl rfl, fun _ _ _ h => absurd hst h⟩
  rw [if_neg hst, hc]
  have d : ∀ n ∈ faValues f, (dec n).length + 1 ≤ 21 := fun n hn => by have := dec_small (hs n hn); omega
  have hm := mbText_length hcs
  have hh := faHead_length (tmstr := tm f.stamp) (by rw [(htm _).1]; decide) hs
  rw [put_ok (d _ (by simp [faValues]))]
  simp only [Outcome.bind_ok]
  rw [put_ok (d _ (by simp [faValues]))]
  simp only [Outcome.bind_ok]
  rw [put_ok (d _ (by simp [faValues]))]
  simp only [Outcome.bind_ok, caText]
  rw [put_ok (by rw [hm]; decide)]
  simp only [Outcome.bind_ok]
  rw [put_ok (by rw [List.length_append, hm, hh]; omega)]
  simp only [Outcome.bind_ok]
  refine ⟨_, _, rfl, Or.inr (by rw [List.length_append, hm, hh]; omega), fun _ _ _ _ => ⟨rfl, ?_⟩⟩
  intro j hj hne
  apply shows_of
  rw [faHead_rows, List.append_assoc, lines_row (by decide +kernel) (htm _).2,
    lines_rows (fun p hp => (faLabels_length _ (zip_left_mem hp)).2)]
  interval_cases j <;> first | rfl | exact absurd rfl hne

/-- A flow whose counters differ. -/
def exFlow : FaFlow := ⟨1700000000, 4711, 1, 2, 3, 300, 4, 400, 5, 500, 6, 600, 7, 8⟩

example : exFlow.stamp ≠ 0 ∧ ∀ n ∈ faValues exFlow, n < 2 ^ 64 := by decide

/-- **C74 violated: failed packets.**  The line for the packets that failed to be received shows the bytes, whatever the
number of packets. -/
theorem C74_fa_failed_violated (tm : Nat → Text) (flows : Nat → FaFlow) (ca : Nat → Option MbStats) (fd : Int)
    (len : Nat) (res : Int) (doc : Text) (htm : TimeFormat tm) (h : faRead tm flows ca fd len = .ok (res, doc))
    (hdoc : doc ≠ []) :
    Shows doc 10 "Receive failed (packets):        " (flows fd.toNat).b_rcv_f := by
  unfold faRead at h
  split at h
  · simp only [Outcome.ok.injEq, Prod.mk.injEq] at h
    exact absurd h.2.symm hdoc
  split at h
  · simp only [Outcome.ok.injEq, Prod.mk.injEq] at h
    exact absurd h.2.symm hdoc
  generalize flows fd.toNat = f at *
  dsimp only at h
  split at h
  · simp only [Outcome.ok.injEq, Prod.mk.injEq] at h
    exact absurd h.2.symm hdoc
  unfold put at h
  split at h <;> [skip; exact absurd h (by simp [bind, Outcome.bind])]
  simp only [Outcome.bind_ok] at h
  split at h <;> [skip; exact absurd h (by simp [bind, Outcome.bind])]
  simp only [Outcome.bind_ok] at h
  split at h <;> [skip; exact absurd h (by simp [bind, Outcome.bind])]
  simp only [Outcome.bind_ok] at h
  cases hca : caText (ca fd.toNat) with
  | ub => rw [hca] at h; exact absurd h (by simp [bind, Outcome.bind])
  | ok castr =>
    rw [hca] at h
    simp only [Outcome.bind_ok] at h
    split at h <;> [skip; exact absurd h (by simp [bind, Outcome.bind])]
    simp only [Outcome.bind_ok, Outcome.ok.injEq, Prod.mk.injEq] at h
    rw [← h.2]
    apply shows_of
    rw [faHead_rows, List.append_assoc, lines_row (by decide +kernel) (htm _).2,
      lines_rows (fun p hp => (faLabels_length _ (zip_left_mem hp)).2)]
    rfl

example : exFlow.p_rcv_f ≠ exFlow.b_rcv_f := by decide

/-- **C74 violated: no congestion avoidance.**  Without congestion avoidance an array that was never written is printed,
for every flow in use. -/
theorem C74_fa_nop_violated (tm : Nat → Text) (flows : Nat → FaFlow) (ca : Nat → Option MbStats) (fd len : Nat)
    (hfd : fd < 4096) (hlen : 1536 ≤ len) (hused : (flows fd).stamp ≠ 0) (hs : Small (faValues (flows fd)))
    (hca : ca fd = none) : faRead tm flows ca fd len = .ub := by
  have hfd' : ¬ ((fd : Int) < 0 ∨ (PROG_MAX_FLOWS : Int) ≤ (fd : Int)) := by
    simp only [PROG_MAX_FLOWS]; omega
  have d : ∀ n ∈ faValues (flows fd), (dec n).length + 1 ≤ 21 := fun n hn => by
    have := dec_small (hs n hn); omega
  unfold faRead
  rw [if_neg hfd', if_neg (by omega)]
  simp only [Int.toNat_natCast]
  rw [if_neg hused, hca, put_ok (d _ (by simp [faValues]))]
  simp only [Outcome.bind_ok]
  rw [put_ok (d _ (by simp [faValues]))]
  simp only [Outcome.bind_ok]
  rw [put_ok (d _ (by simp [faValues]))]
  rfl

/-- **C74 violated: attributes.**  Looking at the attributes of a file of the flow allocator uses memory outside the
table when the number in its name is out of range; and the announced size is not that of the document. -/
theorem C74_fa_attributes_violated (flows : Nat → FaFlow) :
    (∀ fd : Int, fd < 0 ∨ 4096 ≤ fd → faGetattr flows fd = .ub) ∧
    ∀ (tm : Nat → Text) (ca : Nat → Option MbStats) (fd len : Nat) (c : MbStats) (res : Int) (doc : Text),
      TimeFormat tm → fd < 4096 → Small (faValues (flows fd)) → ca fd = some c →
      Small [c.tx_ece, c.tx_ctr, c.rx_ece, c.rx_ctr, c.tx_wpc, c.tx_wbc, c.tx_wbl] →
      (flows fd).stamp ≠ 0 → 1536 ≤ len → faRead tm flows ca fd len = .ok (res, doc) →
      faGetattr flows fd = .ok 1536 ∧ doc.length = 1296 := by
  constructor
  · intro fd hfd
    unfold faGetattr
    rw [if_pos (by simp only [PROG_MAX_FLOWS]; omega)]
  · intro tm ca fd len c res doc htm hfd hs hca hcs hused hlen h
    have hfd' : ¬ ((fd : Int) < 0 ∨ (PROG_MAX_FLOWS : Int) ≤ (fd : Int)) := by
      simp only [PROG_MAX_FLOWS]; omega
    refine ⟨by unfold faGetattr; rw [if_neg hfd', Int.toNat_natCast, if_pos hused], ?_⟩
    have d : ∀ n ∈ faValues (flows fd), (dec n).length + 1 ≤ 21 := fun n hn => by
      have := dec_small (hs n hn); omega
    have hm := mbText_length hcs
    have hh := faHead_length (tmstr := tm (flows fd).stamp) (by rw [(htm _).1]; decide) hs
    unfold faRead at h
    rw [if_neg hfd', if_neg (by omega)] at h
    simp only [Int.toNat_natCast] at h
    rw [if_neg hused, hca, put_ok (d _ (by simp [faValues]))] at h
    simp only [Outcome.bind_ok] at h
    rw [put_ok (d _ (by simp [faValues]))] at h
    simp only [Outcome.bind_ok] at h
    rw [put_ok (d _ (by simp [faValues]))] at h
    simp only [Outcome.bind_ok, caText] at h
    rw [put_ok (by rw [hm]; decide)] at h
    simp only [Outcome.bind_ok] at h
    rw [put_ok (by rw [List.length_append, hm, hh]; omega)] at h
    simp only [Outcome.bind_ok, Outcome.ok.injEq, Prod.mk.injEq] at h
    rw [← h.2, List.length_append, hm, hh]

/-! ## The link-state database -/

/-- **C74, partial.**  Reading the file of an adjacency of the link-state database gives that adjacency: the file name
determines it, the read stays within a buffer larger than the document, its size is the announced one, and the numbers
stand under their labels.  Full statement: every buffer and sequence number; see `C74_ls_size_violated`,
`C74_ls_seqno_violated`. -/
theorem C74_ls_partial (tm : Nat → Text) (db : List Adj) (nbs : List Nb) (a : Adj) (len : Nat) (htm : TimeFormat tm)
    (ha : a ∈ db) (huniq : ∀ b ∈ db, b.src = a.src → b.dst = a.dst → b = a) (hlen : 104 < len)
    (h1 : a.src < 2 ^ 64) (h2 : a.dst < 2 ^ 64) (h3 : a.seqno < 10 ^ 18) :
    ∃ doc, lsRead tm db nbs (adjName a) len = .ok (doc.length, doc) ∧ lsGetattr db (adjName a) = doc.length ∧
      Shows doc 0 "src: " a.src ∧ Shows doc 1 "dst: " a.dst ∧
      ((lines doc)[2]?).map (fun l => number (l.drop 7)) = some a.seqno ∧
      adjName a ∈ lsReaddir db nbs := by
  have hg := getAdj_adj ha huniq
  have hp : (pad 18 (dec a.seqno)).length = 18 := pad_length (dec_length (by decide) h3)
  have hl := adjText_length (a := a) htm h1 h2
  rw [hp] at hl
  have hlines : lines (adjText tm a) = body "src: " (dec a.src) :: body "dst: " (dec a.dst) ::
      ("seqno: ".toList ++ pad 18 (dec a.seqno)) :: body "upd: " (tm a.stamp) :: [[]] := by
    unfold adjText
    have e : ∀ (x y : Text), x ++ ['\n'] ++ y = x ++ '\n' :: y := fun x y => by simp
    rw [List.append_assoc, List.append_assoc, e, lines_append, e, lines_append, e, lines_append]
    · have := lines_append (l := "upd: ".toList ++ pad 20 (tm a.stamp)) ?_ []
      · rw [this]; rfl
      · simp only [List.mem_append, not_or]
        exact ⟨by decide +kernel, pad_no_newline (htm _).2⟩
    all_goals
      simp only [List.mem_append, not_or]
      exact ⟨by decide +kernel, pad_no_newline (dec_no_newline _)⟩
  refine ⟨adjText tm a, ?_, ?_, ?_, ?_, ?_, ?_⟩
  · unfold lsRead
    rw [if_neg (by have := List.length_pos_of_mem ha; omega), hg]
    show strAdj tm a len = _
    unfold strAdj
    rw [if_neg (show ¬ len < LS_ENTRY_SIZE from by simp only [LS_ENTRY_SIZE]; omega), put_ok (by omega)]
    simp only [Outcome.bind_ok, hl]
    rfl
  · unfold lsGetattr
    rw [hg, hl]
    rfl
  · exact shows_of (by rw [hlines]; rfl)
  · exact shows_of (by rw [hlines]; rfl)
  · rw [hlines]
    have e3 : "seqno: ".toList.length = 7 := by decide +kernel
    show some (number (("seqno: ".toList ++ pad 18 (dec a.seqno)).drop 7)) = _
    rw [List.drop_left' e3, number_pad]
  · unfold lsReaddir
    simp only [List.mem_append, List.mem_map]
    exact Or.inr ⟨a, ha, rfl⟩

example : (⟨1, 2, 3, 1700000000⟩ : Adj) ∈ [(⟨1, 2, 3, 1700000000⟩ : Adj), ⟨2, 1, 5, 1700000001⟩] := by decide

/-- **C74 violated: one byte too many.**  A buffer of exactly the announced size is accepted, and the terminating zero
is written after its end. -/
theorem C74_ls_size_violated (tm : Nat → Text) (a : Adj) (htm : TimeFormat tm) (h1 : a.src < 2 ^ 64)
    (h2 : a.dst < 2 ^ 64) : lsGetattr [a] (adjName a) = 104 ∧ lsRead tm [a] [] (adjName a) 104 = .ub := by
  have hg : getAdj [a] (adjName a) = some a := getAdj_adj (by simp) (by simp)
  have hl := adjText_length (a := a) htm h1 h2
  have hp : 18 ≤ (pad 18 (dec a.seqno)).length := by
    unfold pad
    simp only [List.length_append, List.length_replicate]
    omega
  refine ⟨by unfold lsGetattr; rw [hg]; rfl, ?_⟩
  unfold lsRead
  rw [if_neg (by simp), hg]
  show strAdj tm a 104 = _
  unfold strAdj
  rw [if_neg (by decide), put_ub (by omega)]
  rfl

/-- **C74 violated: long sequence numbers.**  From sequence number 10^18 on the document is longer than announced, so
that a reader loses its end. -/
theorem C74_ls_seqno_violated (tm : Nat → Text) (a : Adj) (len : Nat) (htm : TimeFormat tm) (h1 : a.src < 2 ^ 64)
    (h2 : a.dst < 2 ^ 64) (h3 : 10 ^ 18 ≤ a.seqno) (hlen : 104 ≤ len) (res : Int) (doc : Text)
    (h : lsRead tm [a] [] (adjName a) len = .ok (res, doc)) : res = 104 ∧ 104 < doc.length := by
  have hg : getAdj [a] (adjName a) = some a := getAdj_adj (by simp) (by simp)
  have hl := adjText_length (a := a) htm h1 h2
  have hp : 18 < (pad 18 (dec a.seqno)).length :=
    lt_of_lt_of_le (dec_length_gt (k := 18) (by decide) h3) pad_length_ge
  unfold lsRead at h
  rw [if_neg (by simp), hg] at h
  have h : strAdj tm a len = .ok (res, doc) := h
  unfold strAdj at h
  rw [if_neg (show ¬ len < LS_ENTRY_SIZE from by simp only [LS_ENTRY_SIZE]; omega)] at h
  unfold put at h
  split at h
  · simp only [Outcome.bind_ok, Outcome.ok.injEq, Prod.mk.injEq] at h
    refine ⟨h.1.symm, ?_⟩
    rw [← h.2, hl]
    omega
  · exact absurd h (by simp [bind, Outcome.bind])

/-- **C74 violated: neighbours.**  Every neighbour is listed, but its file cannot be read. -/
theorem C74_ls_neighbours_violated (tm : Nat → Text) (db : List Adj) (nbs : List Nb) (n : Nb) (len : Nat) (hn : n ∈ nbs) :
    nbName n ∈ lsReaddir db nbs ∧ lsRead tm db nbs (nbName n) len = .ok (-1, []) := by
  constructor
  · unfold lsReaddir
    simp only [List.mem_append, List.mem_map]
    exact Or.inl ⟨n, hn, rfl⟩
  · unfold lsRead
    rw [getAdj_nb]
    split <;> rfl

/-! ## FRCT -/

/-- **C74, partial.**  Reading the statistics of an FRCT instance into a buffer of 1189 bytes or more stays within the
buffer and shows every value under its label.  Full statement: every buffer; see `C74_frct_size_violated`. -/
theorem C74_frct_partial (s : FrctStats) (len : Nat) (hs : Small (frctValues s)) (hlen : 1189 ≤ len) :
    ∃ doc, frctRead s len = .ok (doc.length, doc) ∧
      ∀ j, j < 22 → Shows doc j (frctLabels.getD j "") ((frctValues s).getD j 0) := by
  have hl := frctText_length hs
  refine ⟨frctText s, ?_, fun j hj => ?_⟩
  · unfold frctRead
    rw [put_ok (by omega)]
    simp only [Outcome.bind_ok]
  · apply shows_of
    have := lines_rows (L := frctLabels.zip (frctValues s)) (fun p hp => (frctLabels_length _ (zip_left_mem hp)).2) []
    rw [List.append_nil, ← frctText_rows] at this
    rw [this]
    interval_cases j <;> rfl

/-- An instance with distinct values. -/
example : ∀ n ∈ frctValues ⟨60, 10, 120, 3, 4, 5, 6, 70, 8, 9, 11, 75, 12, 13, 14, 15, 16, 17, 18, 19, 20, 2 ^ 64 - 1⟩,
    n < 2 ^ 64 := by
  decide

/-- **C74 violated: the size of the buffer.**  With a smaller buffer the read writes after its end; and the announced
size is one more than the document has. -/
theorem C74_frct_size_violated (s : FrctStats) (len : Nat) (hs : Small (frctValues s)) (hlen : len < 1189) :
    frctRead s len = .ub ∧ frctGetattr = (frctText s).length + 1 := by
  have hl := frctText_length hs
  constructor
  · unfold frctRead
    rw [put_ub (by omega)]
    rfl
  · rw [hl]; rfl

/-! ## General information -/

/-- **C74, partial.**  The state, the type and the name of the layer are given for every buffer that can hold the longest
name, if the name has at most 254 characters.  Full statement: names of 255 characters, which are accepted elsewhere,
and every file name; see `C74_info_layer_violated`, `C74_info_unknown_violated`. -/
theorem C74_info_partial (state type layer : Text) (len : Nat) (hlen : 257 ≤ len) (h1 : state.length < 257)
    (h2 : type.length < 257) (h3 : layer.length ≤ 254) :
    infoRead state type layer .state len = .ok (state.length, state) ∧
    infoRead state type layer .type len = .ok (type.length, type) ∧
    infoRead state type layer .layer len = .ok (layer.length + 1, layer ++ ['\n']) := by
  have h : ¬ len < LAYER_NAME_SIZE + 2 := by simp only [LAYER_NAME_SIZE]; omega
  refine ⟨?_, ?_, ?_⟩
  · unfold infoRead
    rw [if_neg h]
    dsimp only
    rw [put_ok (by omega)]
    simp only [Outcome.bind_ok]
  · unfold infoRead
    rw [if_neg h]
    dsimp only
    rw [put_ok (by omega)]
    simp only [Outcome.bind_ok]
  · unfold infoRead
    rw [if_neg h]
    dsimp only
    rw [put_ok (by omega)]
    simp only [Outcome.bind_ok]
    rw [if_pos (by simp only [LAYER_NAME_SIZE]; omega)]

example : "operational\n".toList.length < 257 := by decide +kernel

/-- **C74 violated: the longest layer name.**  For a name of 255 characters, the longest that is accepted, the text is
left without a terminating zero and its length is taken from memory that was not written. -/
theorem C74_info_layer_violated (state type layer : Text) (len : Nat) (hlen : 257 ≤ len) (h : layer.length = 255) :
    infoRead state type layer .layer len = .ub := by
  unfold infoRead
  rw [if_neg (show ¬ len < LAYER_NAME_SIZE + 2 by simp only [LAYER_NAME_SIZE]; omega)]
  dsimp only
  rw [put_ok (by omega)]
  simp only [Outcome.bind_ok]
  rw [if_neg (by simp only [LAYER_NAME_SIZE]; omega)]

/-- **C74 violated: other files.**  For any other file name in this directory the length of a buffer that was not written
is taken, also by looking at the attributes, which uses a buffer of 257 bytes. -/
theorem C74_info_unknown_violated (state type layer : Text) (len : Nat) (hlen : 257 ≤ len) :
    infoRead state type layer .unknown len = .ub := by
  unfold infoRead
  rw [if_neg (show ¬ len < LAYER_NAME_SIZE + 2 by simp only [LAYER_NAME_SIZE]; omega)]

end Ouro.RibDocs
