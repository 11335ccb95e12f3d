import Verif.Model.UtilsFft
import Verif.Spec.FpThreshold

/-! # C126: which peaks are significant -/
namespace Fp.Spec

/-- The bins of a histogram of `n` bins that are the background of a peak in bin `p`, without a window: half of the bins on each
side. -/
def InBackground (n p i : Nat) : Prop := p / 2 ≤ i ∧ i < p ∨ p < i ∧ i ≤ (n + p) / 2 ∧ i < n

/-- All bins of the background of bin `p` have the same height. -/
def FlatBackground {α : Type} (hist : List α) (p : Nat) : Prop :=
  ∀ i j, InBackground hist.length p i → InBackground hist.length p j → hist[i]? = hist[j]?

/-- A numerical significance that is off by at most `tol`. -/
def SignificanceOf (signif : List ℚ → ℚ → Except PyErr ℚ) (tol : ℚ) : Prop :=
  ∀ (ys : List ℚ) (r : ℚ) (stats : PeakStatistics ℝ) (v : ℝ), getStatistics (ys.map fun q : ℚ => (q : ℝ)) (some r) none 0 = .ok stats →
    stats.significance = .ok v → ∃ s, signif ys r = .ok s ∧ |(s : ℝ) - v| ≤ tol

end Fp.Spec
