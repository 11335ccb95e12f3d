import Verif.Model.Rounded
import Verif.Spec.Utils

/-! # Specification for the rounded operations -/
namespace Fp.Spec

/-- A time in ns of the resolution of the timestamp cards, 1/256 ns, of less than 2^53 ns (104 days). -/
def OnGrid (t : ℚ) : Prop := ∃ m : ℤ, t = (m : ℚ) / 256 ∧ |m| < 2 ^ 61

end Fp.Spec
