import Verif.Model.Detune
import Verif.Spec.Raw

/-! # Specification for the detuning of timestamps -/
namespace Fp.Spec

/-- The time shown by a clock that runs faster by `ratio` from the time `t0` on, and is ahead by `offset`. -/
def detunedClock (ratio offset t0 t : ℚ) : ℚ := t0 + (t - t0) * (1 + ratio) + offset

end Fp.Spec
