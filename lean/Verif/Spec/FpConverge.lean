import Verif.Spec.FpNoise
import Verif.Spec.FpThreshold

/-! # Specifications for the convergence of the refinements -/
namespace Fp.Spec

/-- The number of pairs in a block of `2^j` neighbouring bins. -/
def pairsInBlock (a b : List ℚ) (n : Nat) (res : ℚ) (j : Nat) (k : ℤ) : Nat :=
  ((List.range (2 ^ j)).map fun i : Nat => pairsAt a b n res (k * 2 ^ j + i)).sum

/-- The true coincidences (pairs at distance `D`, up to `δ`) stand out after `j` mergings of neighbouring bins of width `res`: they
spread over at most `w` blocks of `2^j` bins, and no block away from `D` has a `w`-th of their number. -/
def StandsOutMerged (a b : List ℚ) (n : Nat) (res : ℚ) (j : Nat) (D δ : ℚ) (w : Nat) : Prop :=
  2 * δ + 2 * (2 ^ j * res) ≤ w * (2 ^ j * res) ∧ 0 < pairsNear a b D δ ∧
  ∀ k < n / 2 ^ j, ¬ NearBin (n / 2 ^ j) (2 ^ j * res) D (2 ^ j * res + δ) k → w * pairsInBlock a b n res j k < pairsNear a b D δ

/-- A numerical correlation of two histograms that is off by less than half a pair of events in every block of `2^j` bins. -/
def MergedAccurate (xc : List Nat → List Nat → List ℚ) (a b : List ℚ) (n : Nat) (res : ℚ) (j : Nat) : Prop :=
  (xc (histogram a n res) (histogram b n res)).length = n ∧
  ∀ k < n / 2 ^ j, |blockSum (xc (histogram a n res) (histogram b n res)) j k - (pairsInBlock a b n res j k : Nat)| < 1 / 2

/-- In the early windows used at the resolution `res`, the true coincidences stand out after `j` mergings. -/
def ClearMerged (P : TFParams) (bts : List ℚ) (res : ℚ) (j : Nat) (D δ : ℚ) (w : Nat) : Prop :=
  let dur := acqDurationFl P.numBins res P.duration P.endTime
  let wa := inWindowR P.rndA 0 dur P.ats
  let wb := inWindowR P.rndA 0 dur bts
  dur ≤ res * 2 ^ 58 ∧ StandsOutMerged wa wb P.numBins res j D δ w ∧ MergedAccurate P.xcorr wa wb P.numBins res j ∧
  |D| + (2 ^ j * res + δ) ≤ (P.numBins : ℚ) * res / 2

/-- The duration of the windows in iteration `k`, in the first one that for the resolution before the mergings. -/
def windowAt (P : TFParams) (res : ℚ) (j k : Nat) : ℚ := if k = 0 then tfDuration P res else tfDuration P (resolutionAt P res j k)

/-- Where the early delay of iteration `k` comes from, if bins were merged `j` times in the first one. -/
def EarlyDelay (P : TFParams) (bts : List ℚ) (res : ℚ) (j k : Nat) (d : ℚ) : Prop :=
  if k = 0 then ∃ ys d0, tfCorrelate P bts res 0 (tfDuration P res) = .ok (ys, d0) ∧ FirstPeak P ys res j d
  else ∃ ys, tfCorrelate P bts (resolutionAt P res j k) 0 (tfDuration P (resolutionAt P res j k)) = .ok (ys, d)

/-- Where the values of iteration `k` come from. -/
def FoundAt (P : TFParams) (res : ℚ) (j k : Nat) (e : TFEntry) : Prop :=
  EarlyDelay P e.bts res j k e.dt1 ∧ ∃ ys dt2, tfCorrelate P e.bts (resolutionAt P res j k) P.sep (windowAt P res j k) = .ok (ys, dt2) ∧
    e.df1 = P.rnd (P.rnd (dt2 - e.dt1) / P.sep)

/-- The first iterations of a run in which bins are merged `j` times: each one was given the target times corrected so far and found
its values by correlations at its resolution, which was not yet the final one. -/
def History (P : TFParams) (bts : List ℚ) (res : ℚ) (j : Nat) (pre : List TFEntry) : Prop :=
  ∀ (i : Nat) (e : TFEntry), pre[i]? = some e → e.bts = bts.map (composedR P.rnd P.rndA (pre.take i)) ∧
    FoundAt P res j i e ∧ resolutionAt P res j i ≠ P.target

/-- The error of the delays found in iteration `k`: one bin, jitter and drift, rounding. -/
def errorAt (P : TFParams) (res : ℚ) (j : Nat) (δ : Nat → ℚ) (k : Nat) : ℚ :=
  resolutionAt P res j k + δ k + P.numBins * resolutionAt P res j k / 2 ^ 50

/-- The conditions of a run that gets to the final resolution, except for the
significance of the peaks and what is seen by the iterations after the first one.  The target clock has the relative frequency
offset `φ` and the offset `τ`; times are at most `B`; the errors of the delays are at most `E0` in the first and `E1` in later iterations; bins are
merged `j` times in the first iteration; the final resolution is that of iteration `L` at the latest. -/
structure RunCore (P : TFParams) (bts : List ℚ) (res : ℚ) (j : Nat) (φ τ B E0 E1 : ℚ) (δ : Nat → ℚ) (w : Nat → Nat) (L : Nat) :
    Prop where
  rnd : P.rnd = fl 53
  rndA : P.rndA = fl 64
  bins : 0 < P.numBins ∧ P.numBins < 2 ^ 64
  target : 0 < P.target
  duration : 0 < P.duration
  separation : resRefineFactor * (1 + 1 / 2 ^ 50) * P.duration ≤ P.sep
  resolution : 0 < res ∧ P.rnd res = res
  merging : 2 ^ j ∣ P.numBins ∧ (j = 0 ∨ 2 ^ j * res ≤ 10 ^ 4)
  last : resolutionAt P res j L = P.target
  few : L + 1 ≤ 2 ^ 35
  /-- The true coincidences stand out in the first iteration: in the merged early correlation and the late one. -/
  clearEarly : ClearMerged P bts res j τ (δ 0) (w 0)
  clearLate : ClearIn P bts (acqDurationFl P.numBins res P.duration P.endTime) (2 ^ j * res) P.sep (targetClock φ τ P.sep - P.sep)
    (δ 0) (w 0)
  times : |targetClock φ τ 0| ≤ B ∧ |targetClock φ τ P.sep| ≤ B ∧ P.sep ≤ B
  errorFirst : errorAt P res j δ 0 ≤ E0
  errorLater : ∀ k, 0 < k → k ≤ L → errorAt P res j δ k ≤ E1
  errors : E1 ≤ E0
  rounding : (L + 1) * (B + (L + 1) * (101 * 10 ^ 6)) / 2 ^ 49 ≤ E1 / 100
  /-- Both offsets are in the ranges that are searched, with a margin. -/
  offset : |τ| + 3 * E0 ≤ 10 ^ 8
  frequency : |φ| + 3 * E0 / P.sep ≤ 1 / 2 ^ 13 - 1 / 2 ^ 40
  /-- The guard rails let the second correction pass: the delay is larger than the error of the first one, or that is below 9 ns. -/
  guardDelay : 5 / 4 * E0 ≤ |τ| ∨ E0 + E1 ≤ 9
  /-- Likewise for the frequency, where the limit is 10^-8. -/
  guardFrequency : 5 / 2 * E0 ≤ |φ| * P.sep ∨ 22 * (E0 + E1) ≤ P.sep / 10 ^ 7

/-- The conditions of a run that gets to the final resolution, except for what is seen by the iterations after the first one. -/
structure RunBase (P : TFParams) (bts : List ℚ) (res : ℚ) (j : Nat) (φ τ B E0 E1 : ℚ) (δ : Nat → ℚ) (w : Nat → Nat) (L : Nat) :
    Prop extends RunCore P bts res j φ τ B E0 E1 δ w L where
  /-- The significance of every correlation is defined; that of the first one reaches the threshold after `j` mergings. -/
  significance : ∀ b r ys d, tfCorrelate P b r 0 (tfDuration P r) = .ok (ys, d) → ys.length = P.numBins → ∃ sig,
    P.signif ys r = .ok sig
  significant : ∀ ys d, tfCorrelate P bts res 0 (tfDuration P res) = .ok (ys, d) → Accepted P ys res j ∧ ∀ i < j, Rejected P ys res i

/-- The conditions of a run that gets to the final resolution. -/
structure ClearRun (P : TFParams) (bts : List ℚ) (res : ℚ) (j : Nat) (φ τ B E0 E1 : ℚ) (δ : Nat → ℚ) (w : Nat → Nat) (L : Nat) :
    Prop extends RunBase P bts res j φ τ B E0 E1 δ w L where
  /-- The true coincidences stand out in all later iterations. -/
  clear : ∀ pre, pre ≠ [] → History P bts res j pre → ∀ start, start = 0 ∨ start = P.sep →
    ClearAt P (bts.map (composedR P.rnd P.rndA pre)) (resolutionAt P res j pre.length) start
      (composedR P.rnd P.rndA pre (targetClock φ τ start) - start) (δ pre.length) (w pre.length)

end Fp.Spec
