import Verif.Spec.FpConverge

/-! # Conditions on the recordings themselves under which fpfind finds the right correction -/
namespace Fp.Spec

/-- The time on the reference clock when the target clock shows `y`. -/
def referenceTime (φ τ y : ℚ) : ℚ := (y - τ) / (1 + φ)

/-- The distance of `z` from the nearest multiple of the correlation period. -/
def cyclicDist (period z : ℚ) : ℚ := |z - period * round (z / period)|

/-- The number of true coincidences: pairs of events at the same time up to `η`, with the reference event in [lo, hi]. -/
def coincidences (a b : List ℚ) (φ τ lo hi η : ℚ) : Nat :=
  (a.map fun x => b.countP fun y => decide (lo ≤ x ∧ x ≤ hi ∧ |referenceTime φ τ y - x| ≤ η)).sum

/-- Two events in [lo, hi] that are no true coincidence. -/
def Accidental (φ τ lo hi η x y : ℚ) : Prop :=
  (lo ≤ x ∧ x ≤ hi) ∧ (lo ≤ referenceTime φ τ y ∧ referenceTime φ τ y ≤ hi) ∧ η < |referenceTime φ τ y - x|

instance (φ τ lo hi η x y : ℚ) : Decidable (Accidental φ τ lo hi η x y) := inferInstanceAs (Decidable (_ ∧ _))

/-- The number of accidental pairs whose distance in time is `κ`, up to `ε` and whole correlation periods. -/
def pairsAround (a b : List ℚ) (φ τ lo hi η period κ ε : ℚ) : Nat :=
  (a.map fun x => b.countP fun y => decide (Accidental φ τ lo hi η x y ∧ cyclicDist period (referenceTime φ τ y - x - κ) < ε)).sum

/-- In a window of length `dur` from `start`, with a margin `μ`, there are more than `w` times as many true coincidences as accidental
pairs around any delay other than zero. -/
structure Prominent (a b : List ℚ) (φ τ : ℚ) (n : Nat) (r start dur μ η δ : ℚ) (w : Nat) : Prop where
  width : 2 * δ + 2 * r ≤ w * r
  some : 0 < coincidences a b φ τ (start + μ + η) (start + dur - μ - η) η
  others : ∀ κ, r + δ ≤ cyclicDist (n * r) κ →
    w * pairsAround a b φ τ (start - μ) (start + dur + μ) η (n * r) κ (r + δ) <
      coincidences a b φ τ (start + μ + η) (start + dur - μ - η) η

/-- A bound of the rounding errors of `L + 1` corrections of times up to `B`. -/
def roundingOf (B : ℚ) (L : Nat) : ℚ := (L + 1) * (B + (L + 1) * (101 * 10 ^ 6)) / 2 ^ 49

/-- How far events may be displaced in iteration `k`, after the corrections found before. -/
def marginAt (P : TFParams) (res : ℚ) (j : Nat) (δ : Nat → ℚ) (B : ℚ) (L k : Nat) : ℚ :=
  4 * (errorAt P res j δ (k - 1) + 2 * roundingOf B L)

/-- The length of the windows of iteration `k`. -/
def lengthAt (P : TFParams) (res : ℚ) (j k : Nat) : ℚ := acqDurationFl P.numBins (resolutionAt P res j k) P.duration P.endTime

/-- The conditions on the events and the correlations after the first one.  `η` is the jitter. -/
structure InputClear (P : TFParams) (bts : List ℚ) (res : ℚ) (j : Nat) (φ τ B η : ℚ) (δ : Nat → ℚ) (w : Nat → Nat) (L : Nat) :
    Prop where
  bound : ∀ y ∈ bts, |y| ≤ B
  /-- Numerical correlations of at most as many events are accurate. -/
  accurate : ∀ k, 0 < k → k ≤ L → ∀ a b, a ≠ [] → b ≠ [] → a.length ≤ P.ats.length →
    b.length ≤ bts.length → XcorrAccurate P.xcorr a b P.numBins (resolutionAt P res j k)
  /-- `δ` covers the jitter, what is left of the frequency offset, and rounding. -/
  spread : ∀ k, 0 < k → k ≤ L →
    η + 201 / 100 * (errorAt P res j δ (k - 1) + roundingOf B L) * ((lengthAt P res j k + marginAt P res j δ B L k) / P.sep) +
      3 * roundingOf B L ≤ δ k
  range : ∀ k, 0 < k → k ≤ L → lengthAt P res j k ≤ P.sep ∧ lengthAt P res j k ≤ resolutionAt P res j k * 2 ^ 58 ∧
    101 / 100 * errorAt P res j δ (k - 1) + roundingOf B L + (resolutionAt P res j k + δ k) ≤ P.numBins * resolutionAt P res j k / 2
  prominent : ∀ k, 0 < k → k ≤ L → ∀ start, start = 0 ∨ start = P.sep →
    Prominent P.ats bts φ τ P.numBins (resolutionAt P res j k) start (lengthAt P res j k) (marginAt P res j δ B L k) η (δ k) (w k)

/-- The conditions of a run that gets to the final resolution, in terms of the events recorded and the two clocks.  `η` is the jitter. -/
structure ClearInput (P : TFParams) (bts : List ℚ) (res : ℚ) (j : Nat) (φ τ B E0 E1 η : ℚ) (δ : Nat → ℚ) (w : Nat → Nat) (L : Nat) :
    Prop extends RunBase P bts res j φ τ B E0 E1 δ w L, InputClear P bts res j φ τ B η δ w L

end Fp.Spec
