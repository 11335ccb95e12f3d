import Verif.Model.FpFind
import Verif.Spec.Epoch

/-! # Specifications for the compensation search -/
namespace Fp.Spec

/-- The correction (dt, df) applied to a target timestamp. -/
def corrected (dt df t : ℚ) : ℚ := (t - dt) / (1 + df)

/-- All corrections of a history, one after the other. -/
def composed (trace : List TFEntry) (t : ℚ) : ℚ := trace.foldl (fun t e => corrected e.dt1 e.df1 t) t

/-- Rounding with a relative error of at most 2^-53 (exact arithmetic and IEEE doubles alike). -/
def RelErr (rnd : ℚ → ℚ) : Prop := ∀ x, |rnd x - x| ≤ |x| / 2 ^ 53

/-- Alternating numbers 0, 1, -1, …, m, -m. -/
def alternating : Nat → List ℤ
  | 0 => [0]
  | m + 1 => alternating m ++ [(m : ℤ) + 1, -((m : ℤ) + 1)]

/-- Increasing numbers 0, 1, …, m. -/
def increasing : Nat → List ℤ
  | 0 => [0]
  | m + 1 => increasing m ++ [(m : ℤ) + 1]

/-- The corrections `freqcd` accepts (freqcd.c:164 and 213: magnitude below 2^21). -/
def freqcdAccepts (n : ℤ) : Prop := |n| < 2 ^ 21

end Fp.Spec
