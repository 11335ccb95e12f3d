import Verif.Model.Rounded
import Verif.Model.Epoch

/-!
# Model of `src/fpfind/fpfind.py`

Floating point is a parameter: `rnd` is applied to the result of every scalar operation, `rndA` to every operation on
timestamp arrays (`id` gives exact arithmetic, `fl 53` and `fl 64` the formats in use).  The numerical correlation and the
peak significance are parameters too (`xcorr`, `signif`): the theorems hold for whatever they return.  Logging and the
experimental breakpoint (lines 141-146) are not modelled.
-/
namespace Fp

/-- `RES_REFINE_FACTOR = np.sqrt(2)`, fpfind.py:51: the double nearest to the square root of two. -/
def resRefineFactor : ℚ := 6369051672525773 / 2 ^ 52

/-- `NTP_MAXDELAY_NS`, constants.py:15. -/
def ntpMaxDelay : ℚ := 10 ^ 8

/-- `MAX_FCORR`, constants.py:14 and 18. -/
def maxFcorr : ℚ := 1 / 2 ^ 13

/-- What `time_freq` (fpfind.py:100-109) is given, and the numerical environment.  The separation is meant not to be zero: line 242
would divide by zero. -/
structure TFParams where
  ats : List ℚ
  numBins : Nat
  target : ℚ
  threshold : ℚ
  sep : ℚ
  /-- `num_wraps * resolution * num_bins` with the initial values, line 127. -/
  duration : ℚ
  /-- `min(ats[-1], bts[-1])`, line 126. -/
  endTime : ℚ
  rnd : ℚ → ℚ
  rndA : ℚ → ℚ
  /-- `get_xcorr(afft, bfft)` (irfft of a product of floating point FFTs) as a function of the two histograms. -/
  xcorr : List Nat → List Nat → List ℚ
  /-- `get_statistics(ys, resolution).significance`. -/
  signif : List ℚ → ℚ → Except PyErr ℚ

/-- What an iteration of `time_freq` used and found: the target timestamps and the estimates (the estimates are printed by
the debug log of lines 283-289). -/
structure TFEntry where
  bts : List ℚ
  dt1 : ℚ
  df1 : ℚ
  deriving DecidableEq

/-- Program point inside the loop of `time_freq`: its start (line 148), the head of the inner resolution search (line 180)
and the part after it (line 217). -/
inductive TFPhase
  | begin
  | search (ys : List ℚ) (dt1 sig dur : ℚ)
  | late (dt1 dur : ℚ)

/-- Variables of `time_freq` that change, with the history of completed iterations. -/
structure TFState where
  bts : List ℚ
  res : ℚ
  dt : ℚ
  f : ℚ
  iter : Nat
  phase : TFPhase
  trace : List TFEntry

/-- Result of `time_freq`: `(dt, df)` and the history. -/
abbrev TFResult := Except PyErr (ℚ × ℚ × List TFEntry)

/-- One correlation, fpfind.py:165-174 and 233-241: slices of both arrays, histograms, correlation and smaller delay
candidate.  Returns the correlation and the delay.  The FFT of a histogram is only used in `get_xcorr`, so both are one
parameter here. -/
def tfCorrelate (P : TFParams) (bts : List ℚ) (res start dur : ℚ) : Except PyErr (List ℚ × ℚ) := do
  let a ← sliceTimestampsR P.rndA P.ats (some start) (some dur)
  let b ← sliceTimestampsR P.rndA bts (some start) (some dur)
  let abins ← generateBinsR P.rndA a P.numBins res
  let bbins ← generateBinsR P.rndA b P.numBins res
  let ys := P.xcorr abins bbins
  let xs := (List.range P.numBins).map fun k : Nat => P.rnd ((k : ℚ) * res)
  let d ← getTimingDelayFft ys xs
  return (ys, d.1)

/-- `_duration`, fpfind.py:156-158, at the resolution `res`: a whole number of correlation periods.  `end_time` is an element of
an array, so that `max_wraps` and, if it is the smaller one, the duration are computed with the precision of arrays. -/
def tfDuration (P : TFParams) (res : ℚ) : ℚ :=
  let maxWraps : ℚ := ⌊P.rndA (P.endTime / P.rnd (res * P.numBins))⌋
  let numWraps : ℚ := rne (P.rnd (P.duration / P.rnd (res * P.numBins)))
  if maxWraps < numWraps then P.rndA (P.rndA (maxWraps * res) * P.numBins) else P.rnd (P.rnd (numWraps * res) * P.numBins)

/-- fpfind.py:149-175: wraps, early correlation, peak statistics. -/
def tfBegin (P : TFParams) (s : TFState) : Except PyErr TFState := do
  let dur := tfDuration P s.res
  let (ys, dt1) ← tfCorrelate P s.bts s.res 0 dur
  let sig ← P.signif ys s.res
  return { s with phase := if s.iter = 1 then .search ys dt1 sig dur else .late dt1 dur }

/-- fpfind.py:180-214: one pass of the inner loop of the first iteration.  `PeakFindingFailed` is a `ValueError`. -/
def tfSearch (P : TFParams) (s : TFState) (ys : List ℚ) (dt1 sig dur : ℚ) : Except PyErr TFState :=
  if sig = 0 then .error .valueError
  else if P.threshold ≤ sig then .ok { s with phase := .late dt1 dur }
  else do
    let ys ← mergePairs ys
    let res := P.rnd (s.res * 2)
    if 10 ^ 4 < res then .error .valueError
    else
      let xs := (List.range ys.length).map fun k : Nat => P.rnd ((k : ℚ) * res)
      let d ← getTimingDelayFft ys xs
      let sig ← P.signif ys res
      return { s with res := res, phase := .search ys d.1 sig dur }

/-- fpfind.py:217-311: delay check, late correlation, guard rails, accumulation, stop or refinement. -/
def tfLate (P : TFParams) (s : TFState) (dt1 dur : ℚ) : TFState ⊕ TFResult :=
  if ntpMaxDelay < |dt1| then .inr (.error .valueError)
  else
    match tfCorrelate P s.bts s.res P.sep dur with
    | .error e => .inr (.error e)
    | .ok (_, dt2) =>
      let df1 := P.rnd (P.rnd (dt2 - dt1) / P.sep)
      let thresholdDt := P.rnd (10 * max |s.dt| 1)
      let thresholdDf := P.rnd (10 * max |P.rnd (s.f - 1)| (P.rnd (1 / 10 ^ 9)))
      if s.iter ≠ 1 ∧ (thresholdDt < |dt1| ∨ thresholdDt < |dt2| ∨ thresholdDf < |df1|) then
        .inr (.ok (s.dt, P.rnd (s.f - 1), s.trace))
      else
        let dt := P.rnd (s.dt + P.rnd (s.f * dt1))
        let f := P.rnd (s.f * P.rnd (1 + df1))
        let trace := s.trace ++ [{ bts := s.bts, dt1 := dt1, df1 := df1 }]
        if maxFcorr ≤ |P.rnd (f - 1)| then .inr (.error .valueError)
        else if s.res = P.target then .inr (.ok (dt, P.rnd (f - 1), trace))
        else
          let res := P.rnd (s.res / P.rnd (P.rnd (P.sep / P.duration) / resRefineFactor))
          .inl { bts := s.bts.map fun t => P.rndA (P.rndA (t - dt1) / P.rnd (1 + df1)), res := max res P.target, dt := dt,
                 f := f, iter := s.iter + 1, phase := .begin, trace := trace }

/-- The next step of the loop, by program point. -/
def tfStep (P : TFParams) (s : TFState) : TFState ⊕ TFResult :=
  let next (r : Except PyErr TFState) : TFState ⊕ TFResult := match r with
    | .ok s' => .inl s'
    | .error e => .inr (.error e)
  match s.phase with
  | .begin => next (tfBegin P s)
  | .search ys dt1 sig dur => next (tfSearch P s ys dt1 sig dur)
  | .late dt1 dur => tfLate P s dt1 dur

/-- `time_freq`, fpfind.py:137-311, with `fuel` steps. -/
def timeFreq (P : TFParams) (fuel : Nat) (bts : List ℚ) (res : ℚ) : Option TFResult :=
  runLoop (tfStep P) fuel { bts := bts, res := res, dt := 0, f := 1, iter := 1, phase := .begin, trace := [] }

/-- The parameters `time_freq` computes from its arguments, fpfind.py:126: `IndexError` for empty arrays. -/
def tfEndTime (ats bts : List ℚ) : Except PyErr ℚ :=
  match ats.getLast?, bts.getLast? with
  | some a, some b => .ok (min a b)
  | _, _ => .error .indexError

/-- `fpfind`, fpfind.py:314-387: the loop over the precompensations, with `time_freq` as a function of the target
timestamps.  Returns the result and the precompensations that were tried. -/
def fpfindScan (rnd rndA : ℚ → ℚ) (tf : List ℚ → Except PyErr (ℚ × ℚ)) (bob : List ℚ) (fullscan : Bool) :
    List ℚ → Except PyErr (ℚ × ℚ) × List ℚ
  | [] => (.error .valueError, [])  -- the `else` clause of the loop
  | df0 :: rest =>
    let f := rnd (1 + df0)
    match tf (bob.map fun t => rndA (rndA (t - 0) / f)) with
    | .error .valueError => let r := fpfindScan rnd rndA tf bob fullscan rest; (r.1, df0 :: r.2)
    | .error e => (.error e, [df0])
    | .ok (dt1, df1) =>
      let dt := rnd (0 + rnd (f * dt1))
      let f := rnd (f * rnd (1 + df1))
      if fullscan then let r := fpfindScan rnd rndA tf bob fullscan rest; (r.1, df0 :: r.2)
      else (.ok (dt, rnd (f - 1)), [df0])

/-- Python's `int()` of a float. -/
def truncQ (x : ℚ) : ℤ := if 0 ≤ x then ⌊x⌋ else ⌈x⌉

/-- `generate_precompensations`, fpfind.py:390-421.  The floor division of floats is exact. -/
def generatePrecompensations (rnd : ℚ → ℚ) (start stop step : ℚ) (ordered : Bool) : List ℚ :=
  if step = 0 then [0]
  else
    let df0s : List ℤ :=
      if ordered then
        (List.range (truncQ ((⌊rnd (stop - start) / step⌋ : ℚ) + 1)).toNat).map fun i : Nat => (i : ℤ)
      else
        -- arange(1, 2 n) // 2, every other element negated
        (List.range ((truncQ ((⌊stop / step⌋ : ℚ) + 1)).toNat * 2 - 1)).map fun i : Nat =>
          if i % 2 = 0 then -(((i + 1) / 2 : Nat) : ℤ) else (((i + 1) / 2 : Nat) : ℤ)
    df0s.map fun k : ℤ => rnd (rnd ((k : ℚ) * step) + start)

/-- What `main` prints: the frequency as a number or an integer in units of 2^-34, and the time unless removed. -/
structure FpOutput where
  df : ℚ ⊕ ℤ
  dt : Option ℤ
  deriving DecidableEq

/-- Inversion of the result (output bit 0), fpfind.py:665-667. -/
def invertComp (rnd : ℚ → ℚ) (dt df : ℚ) : ℚ × ℚ := (rnd (-dt * rnd (1 + df)), rnd (rnd (1 / rnd (1 + df)) - 1))

/-- Output part of `main`, fpfind.py:661-677: `flag` is the `--output` option (0-15).  The tab-separated text of lines
673-677 shows exactly these fields. -/
def fpOutput (rnd : ℚ → ℚ) (flag : Nat) (dt df : ℚ) : FpOutput :=
  let (dt', df') := if flag % 2 = 1 then invertComp rnd dt df else (dt, df)
  let dfOut : ℚ ⊕ ℤ := if flag / 2 % 2 = 1 then .inr (rne (rnd (df' * 2 ^ 34))) else .inl df'
  let dt'' := if flag / 8 % 2 = 1 then rnd (dt' * 8) else dt'
  { df := dfOut, dt := if flag / 4 % 2 = 1 then none else some (rne dt'') }

end Fp
