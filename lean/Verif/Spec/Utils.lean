import Verif.Model.Utils
import Mathlib.Data.Int.ModEq

/-! # Specifications for the numerical utilities -/
namespace Fp.Spec

/-- `p` is the first position of the maximum. -/
def FirstMax {α : Type} [LinearOrder α] (l : List α) (p : Nat) : Prop :=
  ∃ x, l[p]? = some x ∧ (∀ y ∈ l, y ≤ x) ∧ ∀ i < p, ∀ y, l[i]? = some y → y < x

/-- A uniform time axis of `n` bins. -/
def uniformBins (n : Nat) (res : ℚ) : List ℚ := (List.range n).map fun k : Nat => (k : ℚ) * res

/-- The timestamps at or after `start`, relative to `start`. -/
def fromStart (start : ℚ) (ts : List ℚ) : List ℚ := (ts.filter fun t => decide (start ≤ t)).map fun t => t - start

/-- The timestamps in the interval [start, start + d), relative to `start`. -/
def inWindow (start d : ℚ) (ts : List ℚ) : List ℚ :=
  (ts.filter fun t => decide (start ≤ t ∧ t < start + d)).map fun t => t - start

/-- The number of timestamps whose bin number is congruent to `k`. -/
def inBin (arr : List ℚ) (numBins : Nat) (res : ℚ) (k : Nat) : Nat :=
  arr.countP fun t => decide (⌊t / res⌋ ≡ (k : ℤ) [ZMOD (numBins : ℤ)])

/-- The number of pairs (x of the first, y of the second array) whose bin numbers differ by `k`, modulo the number of bins. -/
def pairsAt (a b : List ℚ) (numBins : Nat) (res : ℚ) (k : ℤ) : Nat :=
  (a.map fun x => b.countP fun y => decide (⌊y / res⌋ - ⌊x / res⌋ ≡ k [ZMOD (numBins : ℤ)])).sum

/-- Two delays that differ by whole correlation periods. -/
def SameDelay (period a b : ℚ) : Prop := ∃ k : ℤ, a = b + (k : ℚ) * period

/-- Sum of the bins `i * 2^j .. (i+1) * 2^j - 1`. -/
def blockSum (ys : List ℚ) (j i : Nat) : ℚ := ((ys.drop (i * 2 ^ j)).take (2 ^ j)).sum

/-- Signal and background windows around position `p`: index ranges [lo, hi] for the signal, where the range reaches
`window / 2` to both sides (rounded up to whole bins) unless the histogram ends before, and two index ranges outside of it
for the background, reaching half way to the ends of the histogram. -/
def WindowsAt {α : Type} (hist : List α) (res window : ℚ) (p : Nat) (stats : PeakStatistics α) : Prop :=
  ∃ lo hi blo bhi, blo ≤ lo ∧ lo ≤ p ∧ p ≤ hi ∧ hi < bhi ∧
    (lo = 0 ∨ window / 2 ≤ (p - lo : ℚ) * res) ∧ (hist.length = hi ∨ window / 2 ≤ (hi - p : ℚ) * res) ∧
    (p - lo : ℚ) * res < window / 2 + res ∧ (hi - p : ℚ) * res < window / 2 + res ∧
    2 * blo ≤ lo ∧ lo ≤ 2 * blo + 1 ∧ 2 * bhi ≤ hist.length + hi + 2 ∧ hist.length + hi + 2 ≤ 2 * bhi + 1 ∧
    stats.signal = (hist.take (hi + 1)).drop lo ∧
    stats.background = (hist.take lo).drop blo ++ (hist.take bhi).drop (hi + 1)

/-- `j` merging steps in a row. -/
def mergeTimes : Nat → List ℚ → Except PyErr (List ℚ)
  | 0, ys => .ok ys
  | j + 1, ys => do
    let ys ← mergeTimes j ys
    mergePairs ys

end Fp.Spec
