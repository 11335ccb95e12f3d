import Verif.Model.Utils
import Mathlib.Analysis.SpecialFunctions.Trigonometric.Basic
import Mathlib.Analysis.SpecialFunctions.Complex.Circle

/-!
# Model of `src/fpfind/lib/utils.py` (Fourier transforms and real statistics)

The FFTs are modelled in exact complex arithmetic, statistics in exact real arithmetic.
-/
namespace Fp

open Complex in
/-- `scipy.fft.rfft`, used in `generate_fft`, utils.py:194: the first `n/2 + 1` coefficients of the discrete Fourier
transform. -/
noncomputable def rfft (x : List ℝ) : List ℂ :=
  (List.range (x.length / 2 + 1)).map fun m : Nat =>
    ∑ j ∈ Finset.range x.length, ((x[j]?.getD 0 : ℝ) : ℂ) * exp (-(2 * Real.pi * I * ((j * m : Nat) : ℂ) / (x.length : ℂ)))

open Complex in
/-- `scipy.fft.irfft`, used in `get_xcorr`, utils.py:207: output length `2 (m - 1)` for `m` coefficients; the imaginary parts
of the first and last coefficients are ignored. -/
noncomputable def irfft (X : List ℂ) : List ℝ :=
  let n := 2 * (X.length - 1)
  (List.range n).map fun k : Nat =>
    ((X[0]?.getD 0).re + (X[n / 2]?.getD 0).re * (-1) ^ k +
      2 * ∑ m ∈ Finset.Ico 1 (n / 2), ((X[m]?.getD 0) * exp (2 * Real.pi * I * ((m * k : Nat) : ℂ) / (n : ℂ))).re) / n

/-- `generate_fft`, utils.py:171-194. -/
noncomputable def generateFft (arr : List ℚ) (numBins : Nat) (timeRes : ℚ) : Except PyErr (List ℂ) :=
  (generateBins arr numBins timeRes).map fun bins => rfft (bins.map (fun n : Nat => (n : ℝ)))

/-- `get_xcorr`, utils.py:197-208, without the optional filter. -/
noncomputable def getXcorr (afft bfft : List ℂ) : List ℝ :=
  (irfft (List.zipWith (fun a b => (starRingEnd ℂ) a * b) afft bfft)).map (fun x => |x|)

/-- Round half to even, for real numbers (`np.round`). -/
noncomputable def rneR (x : ℝ) : ℤ :=
  if x - ⌊x⌋ < 1 / 2 then ⌊x⌋
  else if 1 / 2 < x - ⌊x⌋ then ⌊x⌋ + 1
  else if ⌊x⌋ % 2 = 0 then ⌊x⌋ else ⌊x⌋ + 1

/-- `np.mean`. -/
noncomputable def meanR (l : List ℝ) : ℝ := l.sum / l.length

/-- `np.std`. -/
noncomputable def stdR (l : List ℝ) : ℝ := Real.sqrt ((l.map fun x => (x - meanR l) ^ 2).sum / l.length)

/-- `PeakStatistics.significance`, utils.py:85-89 (with `max`, `mean`, `stdev`, lines 61-77), in exact real arithmetic, rounded
to three decimals.  `None` (empty signal or background) in the subtraction is a `TypeError`. -/
noncomputable def PeakStatistics.significance (s : PeakStatistics ℝ) : Except PyErr ℝ :=
  if s.background = [] then .error .typeError
  else if stdR s.background = 0 then .ok 0
  else match s.signal with
    | [] => .error .typeError
    | x :: xs => .ok ((rneR ((xs.foldl max x - meanR s.background) / stdR s.background * 1000) : ℝ) / 1000)

end Fp
