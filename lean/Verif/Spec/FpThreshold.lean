import Verif.Spec.Utils
import Verif.Model.FpFind

/-! # Specification of the acceptance of a first peak -/
namespace Fp.Spec
open Fp

/-- A correlation with blocks of 2^j neighbouring bins added up. -/
def merged (ys : List ℚ) (j : Nat) : List ℚ := (List.range (ys.length / 2 ^ j)).map (blockSum ys j)

/-- The peak after j merging steps, at the resolution 2^j·res, is not significant enough. -/
def Rejected (P : TFParams) (ys : List ℚ) (res : ℚ) (j : Nat) : Prop :=
  ∃ s, P.signif (merged ys j) (2 ^ j * res) = .ok s ∧ s ≠ 0 ∧ s < P.threshold

/-- The peak after j merging steps is significant enough. -/
def Accepted (P : TFParams) (ys : List ℚ) (res : ℚ) (j : Nat) : Prop :=
  ∃ s, P.signif (merged ys j) (2 ^ j * res) = .ok s ∧ s ≠ 0 ∧ P.threshold ≤ s

/-- `d` is the smaller delay for the first highest bin of a periodic correlation with bins of width `r`. -/
def PeakDelay (rnd : ℚ → ℚ) (zs : List ℚ) (r d : ℚ) : Prop :=
  ∃ p, FirstMax zs p ∧ (2 * p < zs.length ∧ d = rnd (p * r) ∨ zs.length ≤ 2 * p ∧ d = -rnd (((zs.length - p : Nat) : ℚ) * r))

/-- The peak that is used first: the first acceptable one of the merged correlations up to 10^4 ns. -/
def FirstPeak (P : TFParams) (ys : List ℚ) (res : ℚ) (j : Nat) (d : ℚ) : Prop :=
  Accepted P ys res j ∧ (∀ i < j, Rejected P ys res i) ∧ (j = 0 ∨ 2 ^ j * res ≤ 10 ^ 4) ∧ 2 ^ j ∣ ys.length ∧
    PeakDelay P.rnd (merged ys j) (2 ^ j * res) d

end Fp.Spec
