import Verif.Spec.Decimal
import Verif.Model.FpText

/-! # Specification of the line printed by fpfind -/
namespace Fp.Spec

/-- `t` is the decimal text of the integer `n`. -/
def IntText (t : List Char) (n : ℤ) : Prop :=
  ∃ ds k, ds ≠ [] ∧ Digits ds k ∧ ((t = ds ∧ n = k) ∨ (t = '-' :: ds ∧ n = -(k : ℤ)))

/-- `t` is a text for the double `x`: a numeral that does not look like an integer, whose value `r` is nearest to `x` among the
doubles; it has as few significant digits as possible. -/
def DoubleText (t : List Char) (x : ℚ) : Prop :=
  ∃ r, Denotes t r ∧ fl 53 r = x ∧ ('.' ∈ t ∨ 'e' ∈ t) ∧
    ∃ p ≤ 17, 1 ≤ p ∧ SigRound p x r ∧ ∀ q, 1 ≤ q → q < p → ∀ s, SigRound q x s → fl 53 s ≠ x

/-- The text of a frequency: of a double, or of an integer number of units 2^-34. -/
def FreqText (t : List Char) : ℚ ⊕ ℤ → Prop
  | .inl x => DoubleText t x
  | .inr n => IntText t n

/-- `line` shows `o`: the frequency, then, if it is shown, a tab and the time, and a newline. -/
def Printed (o : FpOutput) (line : List Char) : Prop :=
  ∃ f, FreqText f o.df ∧
    ((o.dt = none ∧ line = f ++ ['\n']) ∨ ∃ dt t, o.dt = some dt ∧ IntText t dt ∧ line = f ++ '\t' :: t ++ ['\n'])

/-- What a printed result is meant to do when its line arrives at the frequency channel of `freqcd`, whose correction is `f`:
a number of units 2^-34 alone becomes the correction if it is in range; everything else is ignored. -/
def applied (f : BitVec 32) (o : FpOutput) : BitVec 32 :=
  match o.df, o.dt with
  | .inr n, none => if |n| < 2 ^ 21 then BitVec.ofInt 32 n else f
  | _, _ => f

end Fp.Spec
