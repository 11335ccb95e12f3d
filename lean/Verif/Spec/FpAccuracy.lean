import Verif.Model.UtilsFft
import Verif.Spec.FpFind
import Verif.Spec.Utils

/-! # Specifications for the accuracy of the compensation search -/
namespace Fp.Spec

/-- The correlation of two histograms by exact Fourier transforms.  Its values are whole numbers (C28), so the floor only
changes their type. -/
noncomputable def exactXcorr (A B : List Nat) : List ℚ :=
  (getXcorr (rfft (A.map fun n : Nat => (n : ℝ))) (rfft (B.map fun n : Nat => (n : ℝ)))).map fun x => (⌊x⌋ : ℚ)

/-- The time shown by the target clock when the reference clock shows `a`: relative frequency offset `φ`, offset `τ`. -/
def targetClock (φ τ a : ℚ) : ℚ := a * (1 + φ) + τ

/-- More pairs of events have a bin difference of `k` (modulo the number of bins) than any other. -/
def Peak (a b : List ℚ) (numBins : Nat) (res : ℚ) (k : ℤ) : Prop :=
  ∀ j, ¬ j ≡ k [ZMOD (numBins : ℤ)] → pairsAt a b numBins res j < pairsAt a b numBins res k

/-- The duration used for a correlation: a whole number of correlation periods, nearest to the requested duration and not
beyond the available data. -/
def acqDuration (numBins : Nat) (res requested available : ℚ) : ℚ :=
  min (rne (requested / (res * numBins)) : ℚ) ⌊available / (res * numBins)⌋ * (res * numBins)

end Fp.Spec
