import Verif.Model.Py
import Verif.Model.Float

/-!
# Model of `src/fpfind/lib/utils.py` (numerical part)

Timestamp arrays are lists of rationals (every float is one), computed with exactly: rounding of the subtractions in
`slice_timestamps` is not modelled here (see `Model/Rounded`).
-/
namespace Fp

/-- `np.argmax`: the first position of the maximum, `ValueError` (`none`) for an empty array. -/
def argmax {α : Type} [LinearOrder α] : List α → Option Nat
  | [] => none
  | x :: xs => some (xs.foldl (fun (s : Nat × α × Nat) y =>
      if s.2.1 < y then (s.2.2, y, s.2.2 + 1) else (s.1, s.2.1, s.2.2 + 1)) (0, x, 1)).1

/-- Python slice `l[a:b]` with integer bounds of either sign. -/
def pySlice {α : Type} (l : List α) (a b : Int) : List α :=
  let n : Int := l.length
  let lo := if a < 0 then max 0 (a + n) else min a n
  let hi := if b < 0 then max 0 (b + n) else min b n
  (l.take hi.toNat).drop lo.toNat

/-- `get_overlap`, utils.py:46-54: `min()` of nothing is a `ValueError`. -/
def getOverlap {α : Type} (arrays : List (List α)) : Except PyErr (Nat × List (List α)) :=
  match arrays with
  | [] => .error .valueError
  | a :: as =>
    let overlap := (as.map List.length).foldl min a.length
    .ok (overlap, arrays.map (List.take overlap))

/-- `slice_timestamps`, utils.py:263-279.  `ts[0]`, `ts[-1]` of an empty array raise `IndexError`.  The warning of lines
274-277 is not modelled. -/
def sliceTimestamps (ts : List ℚ) (start duration : Option ℚ) : Except PyErr (List ℚ) := do
  let ts ← match start with
    | some s => pure ((ts.map (· - s)).filter (fun t => decide (0 ≤ t)))
    | none => match ts with
      | [] => .error .indexError
      | t0 :: _ => pure (ts.map (· - t0))
  match duration with
  | none => return ts
  | some d =>
    if ts = [] then .error .indexError
    else return ts.filter (fun t => decide (t < d))

/-- `normalize_timestamps`, utils.py:413-426. -/
def normalizeTimestamps (T : List (List ℚ)) (skip : ℚ) (preserveRelative : Bool) : Except PyErr (List (List ℚ)) := do
  let T ← if preserveRelative then pure T else T.mapM (fun ts => sliceTimestamps ts none none)
  let firsts ← T.mapM (fun ts => match ts with
    | [] => (.error .indexError : Except PyErr ℚ)
    | t :: _ => .ok t)
  match firsts with
  | [] => .error .valueError
  | f :: fs =>
    let startTime := fs.foldl max f + skip * 10 ^ 9
    T.mapM (fun ts => sliceTimestamps ts (some startTime) none)

/-- `np.bincount(values, minlength)`. -/
def bincount (values : List Nat) (minlength : Nat) : List Nat :=
  (List.range (values.foldl (fun m v => max m (v + 1)) minlength)).map (fun k => values.countP (fun v => decide (v = k)))

/-- The bin of a timestamp, utils.py:192: `int64((t // time_res) % num_bins)`. -/
def binOf (numBins : Nat) (timeRes t : ℚ) : Nat := (⌊t / timeRes⌋ % (numBins : ℤ)).toNat

/-- The histogram computed by `generate_fft`, utils.py:189-193 (before the FFT of line 194). -/
def generateBins (arr : List ℚ) (numBins : Nat) (timeRes : ℚ) : Except PyErr (List Nat) :=
  if arr = [] then .error .valueError
  else .ok (bincount (arr.map (binOf numBins timeRes)) numBins)

/-- `convert_histogram_fft`, utils.py:211-216. -/
def convertHistogramFft {α : Type} (hist : List α) (timeBins : List ℚ) : List α × List ℚ :=
  let hlen := hist.length / 2
  (hist.drop hlen ++ hist.take hlen,
    (((timeBins.take (hlen + 1)).drop 1).reverse.map (fun t => -t)) ++ timeBins.take hlen)

/-- `get_delay_at_index_fft`, utils.py:243-249, for `pos ≥ 0`. -/
def getDelayAtIndexFft (timeBins : List ℚ) (pos : Nat) : Except PyErr (ℚ × ℚ) := do
  -- for `pos > len` Python indexes from the end with `pos2 < 0`, but `time_bins[pos]` fails first
  let pos2 := if pos ≠ 0 then timeBins.length - pos else 0
  match timeBins[pos]?, timeBins[pos2]? with
  | some ptime, some nt =>
    let ntime := -nt
    return if pos < pos2 then (ptime, ntime) else (ntime, ptime)
  | _, _ => .error .indexError

/-- `get_timing_delay_fft`, utils.py:220-241. -/
def getTimingDelayFft {α : Type} [LinearOrder α] (hist : List α) (timeBins : List ℚ) : Except PyErr (ℚ × ℚ) :=
  match argmax hist with
  | none => .error .valueError
  | some ppos =>
    let npos := if ppos = 0 then 0 else hist.length - ppos
    match timeBins[ppos]?, timeBins[npos]? with
    | some ptime, some nt =>
      let ntime := -nt
      .ok (if ppos < npos then (ptime, ntime) else (ntime, ptime))
    | _, _ => .error .indexError

/-- `PeakStatistics`, utils.py:56-59. -/
structure PeakStatistics (α : Type) where
  signal : List α
  background : List α

/-- `get_statistics`, utils.py:120-167.  `center` carries its value and whether `center` and `resolution` are Python
integers: otherwise the computed slice bounds are floats and slicing raises `TypeError` (unless both bounds are replaced by
the integers 0 and `len(hist)`). -/
def getStatistics {α : Type} [LinearOrder α] (hist : List α) (resolution : Option ℚ) (center : Option (ℚ × Bool)) (window : ℚ) :
    Except PyErr (PeakStatistics α) :=
  match resolution with
  | none => match center with
    | none => .ok { signal := hist, background := hist }
    | some _ => .error .valueError
  | some res =>
    let n : Int := hist.length
    let binCenter : Option (Int × Bool) := match center with
      | none => (argmax hist).map fun c : Nat => ((c : Int), true)
      | some (c, isInt) => some (if c < 0 then n - ⌊|c| / res⌋ else ⌊|c| / res⌋, isInt)
    match binCenter with
    | none => .error .valueError
    | some (c, isInt) =>
      let w : Int := ⌈window / 2 / res⌉
      let left := max 0 (c - w)
      let right := min n (c + w)
      -- `max(0, x)` returns the integer 0 unless x > 0; `min(len, x)` returns the integer unless x < len
      if ¬ isInt ∧ (0 < c - w ∨ c + w < n) then .error .typeError
      else
        let leftBg := left / 2
        let rightBg := (n + right) / 2
        .ok { signal := pySlice hist left (right + 1),
              background := pySlice hist leftBg left ++ pySlice hist (right + 1) (rightBg + 1) }

/-- One merging step of `time_freq`, fpfind.py:201: `np.sum(ys.reshape(-1, 2), axis=1)`. -/
def mergePairs {α : Type} [Add α] (ys : List α) : Except PyErr (List α) :=
  (reshape2 ys).map fun ps => ps.map fun p => p.1 + p.2

end Fp
