/-!
# Model of `include/ouroboros/time.h`

`time_t`/`long` are `Int` (no overflow considered). C division truncates towards zero: `Int.tdiv`, `Int.tmod`.
The result may alias an operand in C; all reads of a field precede its write in the macros, so results are returned as values.
-/

namespace Ouro.Time

/-- include/ouroboros/time.h:34 -/ def MILLION : Int := 1000000
/-- include/ouroboros/time.h:35 -/ def BILLION : Int := 1000000000

/-- `struct timespec` (libc), used by include/ouroboros/time.h:40-128. -/
structure Timespec where
  sec : Int
  nsec : Int
  deriving Repr, DecidableEq

/-- `struct timeval` (libc), used by include/ouroboros/time.h:58-128. -/
structure Timeval where
  sec : Int
  usec : Int
  deriving Repr, DecidableEq

/-- `TIMESPEC_INIT_S`, include/ouroboros/time.h:40. -/ def initS (s : Int) : Timespec := ⟨s, 0⟩
/-- `TIMESPEC_INIT_MS`, include/ouroboros/time.h:41. -/ def initMs (ms : Int) : Timespec := ⟨ms.tdiv 1000, ms.tmod 1000 * MILLION⟩
/-- `TIMESPEC_INIT_US`, include/ouroboros/time.h:42. -/ def initUs (us : Int) : Timespec := ⟨us.tdiv MILLION, us.tmod MILLION * 1000⟩
/-- `TIMESPEC_INIT_NS`, include/ouroboros/time.h:43. -/ def initNs (ns : Int) : Timespec := ⟨ns.tdiv BILLION, ns.tmod BILLION⟩

/-- `ts_diff_ns`, include/ouroboros/time.h:50-51. -/
def tsDiffNs (t0 tx : Timespec) : Int := (tx.sec - t0.sec) * BILLION + (tx.nsec - t0.nsec)
/-- `ts_diff_us`, include/ouroboros/time.h:52-53. -/
def tsDiffUs (t0 tx : Timespec) : Int := (tx.sec - t0.sec) * MILLION + (tx.nsec - t0.nsec).tdiv 1000
/-- `ts_diff_ms`, include/ouroboros/time.h:54-55. -/
def tsDiffMs (t0 tx : Timespec) : Int := (tx.sec - t0.sec) * 1000 + (tx.nsec - t0.nsec).tdiv MILLION
/-- `tv_diff_us`, include/ouroboros/time.h:58-59. -/
def tvDiffUs (t0 tx : Timeval) : Int := (tx.sec - t0.sec) * MILLION + (tx.usec - t0.usec).tdiv 1000
/-- `tv_diff_ms`, include/ouroboros/time.h:60-61. -/
def tvDiffMs (t0 tx : Timeval) : Int := (tx.sec - t0.sec) * 1000 + (tx.usec - t0.usec).tdiv MILLION

/-- The loop `while (sub >= unit)` of `ts_add` (include/ouroboros/time.h:70-73, unit = BILLION) and `tv_add` (96-99, unit = MILLION). -/
def carry (unit : Int) (hu : 0 < unit) (sec sub : Int) : Int × Int :=
  if _h : sub ≥ unit then carry unit hu (sec + 1) (sub - unit) else (sec, sub)
termination_by sub.toNat
decreasing_by omega

/-- The loop `while (sub < 0)` of `ts_diff` (include/ouroboros/time.h:82-85) and `tv_diff` (108-111). -/
def borrow (unit : Int) (hu : 0 < unit) (sec sub : Int) : Int × Int :=
  if _h : sub < 0 then borrow unit hu (sec - 1) (sub + unit) else (sec, sub)
termination_by (-sub).toNat
decreasing_by omega

/-- `ts_add`, include/ouroboros/time.h:65-75. -/
def tsAdd (t i : Timespec) : Timespec :=
  let (s, n) := carry BILLION (by decide) (t.sec + i.sec) (t.nsec + i.nsec)
  ⟨s, n⟩
/-- `ts_diff`, include/ouroboros/time.h:77-87. -/
def tsDiff (t i : Timespec) : Timespec :=
  let (s, n) := borrow BILLION (by decide) (t.sec - i.sec) (t.nsec - i.nsec)
  ⟨s, n⟩
/-- `tv_add`, include/ouroboros/time.h:91-101. -/
def tvAdd (t i : Timeval) : Timeval :=
  let (s, n) := carry MILLION (by decide) (t.sec + i.sec) (t.usec + i.usec)
  ⟨s, n⟩
/-- `tv_diff`, include/ouroboros/time.h:103-113. -/
def tvDiff (t i : Timeval) : Timeval :=
  let (s, n) := borrow MILLION (by decide) (t.sec - i.sec) (t.usec - i.usec)
  ⟨s, n⟩
/-- `tv_to_ts`, include/ouroboros/time.h:117-121. -/
def tvToTs (tv : Timeval) : Timespec := ⟨tv.sec, tv.usec * 1000⟩
/-- `ts_to_tv`, include/ouroboros/time.h:124-128. -/
def tsToTv (ts : Timespec) : Timeval := ⟨ts.sec, ts.nsec.tdiv 1000⟩

end Ouro.Time
