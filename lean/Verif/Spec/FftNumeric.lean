import Verif.Model.FftNumeric

/-! # Accuracy of numerical Fourier transforms (C115) -/
namespace Fp.Spec
open Fp

/-- The complex number a machine number stands for. -/
noncomputable def toC (z : CNum) : ℂ := ⟨z.1, z.2⟩

/-- The sum of the squares of a spectrum given by its first half: all coefficients except the first and the last stand for two. -/
noncomputable def energy (X : List ℂ) : ℝ :=
  ∑ m ∈ Finset.range X.length, (if m = 0 ∨ m + 1 = X.length then 1 else 2) * ‖X[m]?.getD 0‖ ^ 2

/-- The sum of the squares of a signal. -/
def squares (x : List ℝ) : ℝ := (x.map fun v => v ^ 2).sum

/-- Transforms of length `n` with relative error `η` (in the root mean square, as usual for fast Fourier transforms), and products
with relative error `μ`. -/
structure Accurate (F : Fourier) (n : Nat) (η μ : ℝ) : Prop where
  forward : ∀ x : List Nat, x.length = n → (F.rfft x).length = n / 2 + 1 ∧
    energy (List.zipWith (fun u v => u - v) ((F.rfft x).map toC) (rfft (x.map fun k : Nat => (k : ℝ)))) ≤
      η ^ 2 * energy (rfft (x.map fun k : Nat => (k : ℝ)))
  product : ∀ u v : CNum, ‖toC (F.conjMul u v) - (starRingEnd ℂ) (toC u) * toC v‖ ≤ μ * (‖toC u‖ * ‖toC v‖)
  inverse : ∀ X : List CNum, X.length = n / 2 + 1 → (F.irfft X).length = n ∧
    squares (List.zipWith (fun u v => u - v) ((F.irfft X).map fun v : ℚ => (v : ℝ)) (irfft (X.map toC))) ≤
      η ^ 2 * squares (irfft (X.map toC))

end Fp.Spec
