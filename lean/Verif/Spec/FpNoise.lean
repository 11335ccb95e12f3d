import Verif.Spec.FpFloat
import Verif.Spec.FpRounded

/-! # Specifications for correlations with noise, jitter and drift -/
namespace Fp.Spec

/-- The number of pairs (x of the first, y of the second array) whose distance is `D` up to `δ`. -/
def pairsNear (a b : List ℚ) (D δ : ℚ) : Nat := (a.map fun x => b.countP fun y => decide (|y - x - D| ≤ δ)).sum

/-- The delay of bin `k` is less than `ε` away from `D`, up to whole correlation periods. -/
def NearBin (n : Nat) (res D ε : ℚ) (k : ℤ) : Prop := ∃ m : ℤ, |(k + m * n) * res - D| < ε

/-- The true coincidences (pairs at distance `D`, up to `δ`) stand out: they spread over at most `w` bins, and no bin away from
`D` has a `w`-th of their number. -/
def StandsOut (a b : List ℚ) (n : Nat) (res D δ : ℚ) (w : Nat) : Prop :=
  2 * δ + 2 * res ≤ w * res ∧ 0 < pairsNear a b D δ ∧
  ∀ k < n, ¬ NearBin n res D (res + δ) k → w * pairsAt a b n res k < pairsNear a b D δ

/-- The timestamps in [start, start + d) relative to `start`, with differences rounded by `rnd`. -/
def inWindowR (rnd : ℚ → ℚ) (start d : ℚ) (ts : List ℚ) : List ℚ :=
  (ts.map fun t => rnd (t - start)).filter fun t => decide (0 ≤ t ∧ t < d)

/-- The resolution after a refinement. -/
def refined (P : TFParams) (r : ℚ) : ℚ := max (P.rnd (r / P.rnd (P.rnd (P.sep / P.duration) / resRefineFactor))) P.target

/-- The resolution of iteration `k` (counted from zero), if bins were merged `j` times in the first one. -/
def resolutionAt (P : TFParams) (res : ℚ) (j k : Nat) : ℚ := (refined P)^[k] ((fun r => P.rnd (r * 2))^[j] res)

/-- In the windows of length `dur` from `start`, the true coincidences (at distance `D`, up to `δ`) stand out at the resolution `r`,
and the numerical correlation of these windows is off by less than half a pair. -/
def ClearIn (P : TFParams) (bts : List ℚ) (dur r start D δ : ℚ) (w : Nat) : Prop :=
  let wa := inWindowR P.rndA start dur P.ats
  let wb := inWindowR P.rndA start dur bts
  dur ≤ r * 2 ^ 58 ∧ StandsOut wa wb P.numBins r D δ w ∧ XcorrAccurate P.xcorr wa wb P.numBins r ∧
  |D| + (r + δ) ≤ (P.numBins : ℚ) * r / 2

/-- The same for the windows used at the resolution `r`. -/
def ClearAt (P : TFParams) (bts : List ℚ) (r start D δ : ℚ) (w : Nat) : Prop :=
  ClearIn P bts (acqDurationFl P.numBins r P.duration P.endTime) r start D δ w

/-- Where the delay and the frequency of an iteration after the first one come from. -/
def FromCorrelations (P : TFParams) (r : ℚ) (e : TFEntry) : Prop :=
  ∃ ys1 ys2 dt2, tfCorrelate P e.bts r 0 (tfDuration P r) = .ok (ys1, e.dt1) ∧
    tfCorrelate P e.bts r P.sep (tfDuration P r) = .ok (ys2, dt2) ∧ e.df1 = P.rnd (P.rnd (dt2 - e.dt1) / P.sep)

end Fp.Spec
