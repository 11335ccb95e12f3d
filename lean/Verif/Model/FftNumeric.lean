import Verif.Model.UtilsFft
import Verif.Model.Float

/-!
# Model of `get_xcorr` in floating point

The Fourier transforms of `scipy.fft` are not part of the repository: they are a parameter, with results that are numbers of the
machine (rationals).  Model/UtilsFft has the exact transforms.
-/
namespace Fp

/-- A complex number of the machine: real and imaginary part. -/
abbrev CNum := ℚ × ℚ

/-- The operations of `scipy.fft` and numpy used in `generate_fft` and `get_xcorr`: `scipy.fft.rfft` of counts (utils.py:194),
`np.conjugate(x) * y` for one element (utils.py:204), and `scipy.fft.irfft` (utils.py:207). -/
structure Fourier where
  rfft : List Nat → List CNum
  conjMul : CNum → CNum → CNum
  irfft : List CNum → List ℚ

/-- `get_xcorr(rfft(a), rfft(b))` for the counts of both histograms, utils.py:194 and 197-208, without a filter. `np.abs` of a real
number is exact. -/
def Fourier.xcorr (F : Fourier) (a b : List Nat) : List ℚ :=
  (F.irfft (List.zipWith F.conjMul (F.rfft a) (F.rfft b))).map fun x => |x|

/-- `np.conjugate(x) * y` with doubles: four products and two sums, each rounded. -/
def conjMulFl (x y : CNum) : CNum :=
  (fl 53 (fl 53 (x.1 * y.1) - fl 53 (-x.2 * y.2)), fl 53 (fl 53 (x.1 * y.2) + fl 53 (-x.2 * y.1)))

end Fp
