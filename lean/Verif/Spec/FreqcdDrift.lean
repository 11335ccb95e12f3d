import Mathlib.Algebra.BigOperators.Group.Finset.Basic
import Mathlib.Data.Rat.Cast.Order
import Verif.Spec.Freqcd

/-! Specification vocabulary for `freqcd` with a correction that changes. -/
namespace Fp.Spec

/-- The time of the last input event that has been written in the state `x` (of the first event, if none has been written). -/
def writtenUpTo (legacy : Bool) (src : Bytes) (x : FState) : Nat := ((times legacy src)[x.out.length / 8 - 1]?).getD 0

/-- `f p` is the correction in force at the beginning of pass `p`, and `T p` the time up to which events have been written
then. -/
def Corrections (legacy : Bool) (rs : List Round) (s : FState) (src : Bytes) (f : Nat → Int) (T : Nat → Nat) : Prop :=
  ∀ p ≤ rs.length, ∀ x, fRun legacy (rs.take p) s = .ok (x, none) → x.fcorr.toInt = f p ∧ writtenUpTo legacy src x = T p

/-- The corrections of `m` passes added up over time, up to time `t`: the integral from the first event to `t` of the step
function that is `f p` between `T p` and `T (p + 1)`, in units of the relative frequency `2^-34`. -/
def accumulated (f : Nat → Int) (T : Nat → Nat) (m t : Nat) : Rat :=
  ∑ p ∈ Finset.range m, (f p : Rat) * ((min t (T (p + 1)) : Nat) - (min t (T p) : Nat)) / 2 ^ 34

end Fp.Spec
