import Verif.Spec.FpInput
import Verif.Spec.Significance

/-! # C127: recordings whose first peak is significant, in numbers of pairs of events -/
namespace Fp.Spec

/-- The numerical significance is off by at most `tol`, and numerical correlations are not negative (they are absolute values). -/
structure Numerics (P : TFParams) (tol : ℚ) : Prop where
  signif : SignificanceOf P.signif tol
  tolerance : 0 ≤ tol
  nonneg : ∀ a b, a.length = P.numBins → b.length = P.numBins → ∀ y ∈ P.xcorr a b, 0 ≤ y

/-- A block of `2^j` bins has at least `N` pairs of events, at most `s` + 1 blocks have more than `K` of them, and `N` is so much larger
than `K` that the peak has the significance `θ`.  `s` is at most r² times half of the number of blocks. -/
structure CountedPeak (a b : List ℚ) (n : Nat) (res : ℚ) (j : Nat) (θ r : ℚ) (N K s : Nat) : Prop where
  high : ∃ p < n / 2 ^ j, N ≤ pairsInBlock a b n res j (p : ℕ)
  few : ((List.range (n / 2 ^ j)).countP fun k : Nat => decide (K < pairsInBlock a b n res j k)) ≤ s + 1
  more : K + 1 ≤ N
  fraction : 0 ≤ r ∧ (s : ℚ) ≤ r ^ 2 * (n / 2 ^ j / 2 : Nat) ∧ 0 ≤ 1 - r ^ 2 - θ * r
  enough : (1 + θ / 2) * (K + 1 / 2 : ℚ) ≤ (1 - r ^ 2 - θ * r) * (N - 1 / 2 : ℚ)
  /-- The background of the peak is not the same number of pairs everywhere. -/
  background : ∀ p : Nat, p < n / 2 ^ j → K < pairsInBlock a b n res j p → ∃ i k : Nat, InBackground (n / 2 ^ j) p i ∧
    InBackground (n / 2 ^ j) p k ∧ pairsInBlock a b n res j i ≠ pairsInBlock a b n res j k

/-- The peak in the first early correlation of a run, with the threshold of the run. -/
def FirstCounted (P : TFParams) (bts : List ℚ) (res : ℚ) (j : Nat) (tol r : ℚ) (N K s : Nat) : Prop :=
  let dur := acqDurationFl P.numBins res P.duration P.endTime
  CountedPeak (inWindowR P.rndA 0 dur P.ats) (inWindowR P.rndA 0 dur bts) P.numBins res j (P.threshold + tol + 1 / 2000) r N K s

end Fp.Spec
