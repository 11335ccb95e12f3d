import Verif.Spec.FpRun
import Verif.Spec.FpAccuracy

/-! # Specifications for a recording that is compared with itself -/
namespace Fp.Spec

/-- The number of pairs of events that are `k` bins apart (counted in a circle), in a histogram. -/
def selfPairs (h : List Nat) (k : Nat) : Nat := (List.zipWith (· * ·) h (h.rotate k)).sum

/-- The numerical correlation of a histogram with itself is not larger elsewhere than at delay zero. -/
def SelfPeak (xc : List Nat → List Nat → List ℚ) (h : List Nat) : Prop := FirstMax (xc h h) 0

/-- The histograms of the reference that a search uses: of its events from 0 or from the separation on, with any bin width. -/
def SearchHistogram (P : TFParams) (h : List Nat) : Prop :=
  ∃ start dur r w, (start = 0 ∨ start = P.sep) ∧ sliceTimestampsR P.rndA P.ats (some start) (some dur) = .ok w ∧
    generateBinsR P.rndA w P.numBins r = .ok h

/-- The first peak is judged without merging bins: the significance of the first correlation is at least the threshold (or zero, with
which the search fails). -/
def JudgedAtOnce (P : TFParams) (ys : List ℚ) (res : ℚ) : Prop := ∀ sig, P.signif ys res = .ok sig → sig = 0 ∨ P.threshold ≤ sig

/-- However often bins are merged, the bin of delay zero is not smaller than others. -/
def ZeroAlwaysHighest (ys : List ℚ) : Prop := ∀ j ys', mergeTimes j ys = .ok ys' → ys' ≠ [] → FirstMax ys' 0

/-- What is needed for a search of a recording against itself: every histogram correlates best with itself at delay zero, and the first
peak is judged without merging bins, or zero remains the highest bin when bins are merged. -/
def SelfClear (P : TFParams) (res : ℚ) : Prop :=
  (∀ h, SearchHistogram P h → SelfPeak P.xcorr h) ∧
  ∀ ys d, tfCorrelate P P.ats res 0 (tfDuration P res) = .ok (ys, d) → JudgedAtOnce P ys res ∨ ZeroAlwaysHighest ys

/-- The line that shows no difference of frequency and time, in the format chosen with `--output`. -/
def zeroLine (output : Nat) : List Char :=
  (if output / 2 % 2 = 1 then ['0'] else ['0', '.', '0']) ++ (if output / 4 % 2 = 1 then [] else ['\t', '0']) ++ ['\n']

end Fp.Spec
