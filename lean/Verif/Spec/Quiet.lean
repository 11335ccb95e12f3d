import Verif.Spec.SignificantRun

/-! # C129: recordings without a significant peak, in numbers of pairs of events -/
namespace Fp.Spec

/-- The bins of the background of a peak in bin `p` of `n` bins: half of the bins on each side. -/
def backgroundBins (n p : Nat) : List Nat := List.range' (p / 2) (p - p / 2) ++ List.range' (p + 1) (min ((n + p) / 2 + 1) n - (p + 1))

/-- The numbers of pairs in the background of block `p`. -/
def backgroundPairs (a b : List ℚ) (n : Nat) (res : ℚ) (j p : Nat) : List ℚ :=
  (backgroundBins (n / 2 ^ j) p).map fun i : Nat => ((pairsInBlock a b n res j i : Nat) : ℚ)

/-- The highest blocks of `2^j` bins are above the mean of their background by less than θ times its standard deviation, with one pair
(half a pair in the deviation) to spare for numerical errors. -/
def Unremarkable (a b : List ℚ) (n : Nat) (res : ℚ) (j : Nat) (θ : ℚ) : Prop :=
  ∀ p : Nat, p < n / 2 ^ j → (∀ q : Nat, q < n / 2 ^ j → pairsInBlock a b n res j q ≤ pairsInBlock a b n res j p) →
    ∃ μ σ : ℚ, μ * (backgroundPairs a b n res j p).length = (backgroundPairs a b n res j p).sum ∧ 1 / 2 < σ ∧
      σ ^ 2 * (backgroundPairs a b n res j p).length ≤ ((backgroundPairs a b n res j p).map fun c => (c - μ) ^ 2).sum ∧
      (pairsInBlock a b n res j p : Nat) - μ + 1 < θ * (σ - 1 / 2)

/-- In the early windows of a run no peak is remarkable, at none of the resolutions up to 10^4 ns that are tried. -/
structure Quiet (P : TFParams) (bts : List ℚ) (res tol : ℚ) (a b : List ℚ) : Prop where
  reference : a = inWindowR P.rndA 0 (acqDurationFl P.numBins res P.duration P.endTime) P.ats
  target : b = inWindowR P.rndA 0 (acqDurationFl P.numBins res P.duration P.endTime) bts
  window : acqDurationFl P.numBins res P.duration P.endTime ≤ res * 2 ^ 58
  events : a ≠ [] ∧ b ≠ []
  blocks : ∀ j, 2 ^ j ∣ P.numBins → (j = 0 ∨ 2 ^ j * res ≤ 10 ^ 4) →
    2 ≤ P.numBins / 2 ^ j ∧ MergedAccurate P.xcorr a b P.numBins res j ∧
      Unremarkable a b P.numBins res j (P.threshold - tol - 1 / 2000)

end Fp.Spec
