import Verif.Spec.FpAccuracy
import Verif.Spec.Rounded
import Verif.Model.Float

/-! # Specifications for the compensation search in floating point -/
namespace Fp.Spec

/-- The numbers of timestamps in each bin. -/
def histogram (a : List ℚ) (n : Nat) (res : ℚ) : List Nat := (List.range n).map fun k => inBin a n res k

/-- A numerical correlation of two histograms that is off by less than half a pair of events in every bin. -/
def XcorrAccurate (xc : List Nat → List Nat → List ℚ) (a b : List ℚ) (n : Nat) (res : ℚ) : Prop :=
  (xc (histogram a n res) (histogram b n res)).length = n ∧
  ∀ (k : Nat) (x : ℚ), (xc (histogram a n res) (histogram b n res))[k]? = some x → |x - (pairsAt a b n res k : Nat)| < 1 / 2

/-- The duration used for a correlation if scalars have 53 and arrays 64 significant bits: a whole number of correlation
periods. -/
def acqDurationFl (n : Nat) (res requested available : ℚ) : ℚ :=
  let period := fl 53 (res * n)
  let want : ℤ := rne (fl 53 (requested / period))
  let have' : ℤ := ⌊fl 64 (available / period)⌋
  if have' < want then fl 64 (fl 64 (have' * res) * n) else fl 53 (fl 53 (want * res) * n)

end Fp.Spec
