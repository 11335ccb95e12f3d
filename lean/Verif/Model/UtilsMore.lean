import Verif.Model.UtilsFft

/-!
# Model of `src/fpfind/lib/utils.py` (largest peaks, further statistics, `histogram_fft`)

Values are real numbers or any linear order, computed with exactly.  Arrays are numpy arrays.
-/
namespace Fp

/-- `np.argpartition(values, kth)` and `values.argsort()` (utils.py:256, 258).  The order among equal values (and, for
`argpartition`, on each side of the pivot) is up to numpy, so both are parameters. -/
structure Sorter (α : Type) where
  part : List α → Nat → List Nat
  sort : List α → List Nat

/-- Elements at given positions, `l[idx]` (utils.py:257, 259). -/
def pick {α : Type} (l : List α) (idx : List Nat) : List α := idx.filterMap (l[·]?)

/-- `get_top_k_delays_fft`, utils.py:251-260.  An entry is the height of the peak, missing for `k = 1` (line 254), and the two
delays.  `argpartition` refuses `-k` if there are fewer than `k` values. -/
def getTopKDelaysFft {α : Type} [LinearOrder α] (S : Sorter α) (hist : List α) (timeBins : List ℚ) (k : Nat) :
    Except PyErr (List (Option α × ℚ × ℚ)) :=
  if k < 1 then .error .assertionError
  else if k = 1 then
    match argmax hist with
    | none => .error .valueError
    | some p => do
      let d ← getDelayAtIndexFft timeBins p
      return [(none, d)]
  else if hist.length < k then .error .valueError
  else
    let xsRaw := (S.part hist (hist.length - k)).drop (hist.length - k)
    let ysRaw := pick hist xsRaw
    let order := (S.sort ysRaw).reverse
    (List.zip (pick xsRaw order) (pick ysRaw order)).mapM fun xy => do
      let d ← getDelayAtIndexFft timeBins xy.1
      return (some xy.2, d)

/-- `PeakStatistics.total`, utils.py:79-83: `None` for an empty signal, `TypeError` for a missing mean. -/
noncomputable def PeakStatistics.total (s : PeakStatistics ℝ) : Except PyErr (Option ℝ) :=
  if s.signal = [] then .ok none
  else if s.background = [] then .error .typeError
  else .ok (some (s.signal.sum - s.signal.length * meanR s.background))

/-- `PeakStatistics.significance_raw`, utils.py:91-96: `np.hstack` takes one argument and is given two. -/
noncomputable def PeakStatistics.significanceRaw (s : PeakStatistics ℝ) : Except PyErr (Option ℝ) :=
  if s.background ≠ [] ∧ stdR s.background = 0 then .ok none
  else .error .typeError

/-- `a.reshape(-1, n)` with rows summed, for a length divisible by `n` (utils.py:106-108). -/
def rowSums (n : Nat) (l : List ℝ) : Nat → List ℝ
  | 0 => []
  | rows + 1 => (l.take n).sum :: rowSums n (l.drop n) rows

/-- `PeakStatistics.significance2`, utils.py:98-112. -/
noncomputable def PeakStatistics.significance2 (s : PeakStatistics ℝ) : Except PyErr (Option ℝ) :=
  if s.background ≠ [] ∧ stdR s.background = 0 then .ok none
  else if s.signal.length = 0 then .error .zeroDivisionError
  else
    let length := s.background.length / s.signal.length * s.signal.length
    if length = 0 then .ok none
    else
      let rebinned := rowSums s.signal.length (s.background.take length) (length / s.signal.length)
      let stdev := stdR rebinned
      if stdev = 0 then .ok none
      else s.total.bind fun t => match t with
        | none => .error .typeError
        | some t => .ok (some ((rneR (t / stdev * 1000) : ℝ) / 1000))

/-- `PeakStatistics.g2`, utils.py:114-118. -/
noncomputable def PeakStatistics.g2 (s : PeakStatistics ℝ) : Except PyErr (Option ℝ) :=
  if s.background = [] then .error .typeError
  else if meanR s.background = 0 then .ok none
  else match s.signal with
    | [] => .error .typeError
    | x :: xs => .ok (some (xs.foldl max x / meanR s.background))

/-- `histogram_fft`, utils.py:282-331: result and the caller's two arrays afterwards.  Lines 318-319 subtract in place; the
arrays are float arrays and different objects.  The call of `generate_fft` in line 323 has five arguments where three are
accepted.  The warnings are not modelled. -/
def histogramFft (alice bob : List ℚ) (acqStart : Option ℚ) : Except PyErr (List ℚ × List ℚ) × List ℚ × List ℚ :=
  match alice.head?, bob.head? with
  | some a0, some b0 =>
    let shift := max a0 b0 + acqStart.getD 0
    (.error .typeError, alice.map (· - shift), bob.map (· - shift))
  | _, _ => (.error .indexError, alice, bob)

end Fp
