import Verif.Spec.Freqcd
import Mathlib.Algebra.Order.Ring.Int
import Mathlib.Algebra.Order.Group.Unbundled.Abs

/-! Specification vocabulary for several corrections one after the other. -/
namespace Fp.Spec

/-- `freqcd` with the constant correction `n` in units of 2^-34 has turned the events `src` into `out`; every read completed an
event. -/
def CorrectedBy (legacy : Bool) (n : ℤ) (rs : List Round) (src out : Bytes) : Prop :=
  ∃ (s s' : FState) (f : BitVec 32) (fo : Bool) (fsrc : Bytes) (stop : Option Stop), f.toInt = n ∧ |n| < 2 ^ 21 ∧ Initial s f fo src fsrc ∧
    fRun legacy rs s = .ok (s', stop) ∧ (Throughout legacy rs s fun s1 => s1.fcorr = f) ∧ NoStall legacy rs s ∧ s'.out = out

end Fp.Spec
