import Verif.Model.Float
import Mathlib.Data.Int.ModEq

/-! # Specification of the direct correlation `g2` -/
namespace Fp.Spec

/-- The events of the correlation: later than `start`, by at most 2^27 ns. -/
def g2Events (start : ℚ) (arr : List ℚ) : List ℚ := arr.filter fun x => start < x ∧ x - start ≤ 134217728

/-- Number of pairs with a delay below 10^7 ns that falls into bin `k` of `N = 262144` bins of width `delta`, taken modulo `N`. -/
def g2Pairs (delta : ℚ) (a b : List ℚ) (k : Nat) : Nat :=
  (b.map fun y => a.countP fun x => y - x < 10000000 ∧ ⌊(y - x) / delta⌋ ≡ (k : ℤ) [ZMOD 262144]).sum

/-- The same without the limit on the delay. -/
def g2AllPairs (delta : ℚ) (a b : List ℚ) (k : Nat) : Nat :=
  (b.map fun y => a.countP fun x => ⌊(y - x) / delta⌋ ≡ (k : ℤ) [ZMOD 262144]).sum

end Fp.Spec
