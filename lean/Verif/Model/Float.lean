import Mathlib.Data.Int.Log
import Mathlib.Data.Rat.Floor
import Mathlib.Tactic.Linarith
import Mathlib.Tactic.Ring
import Mathlib.Tactic.FieldSimp
import Mathlib.Tactic.NormNum
import Mathlib.Tactic.Positivity

/-!
# Binary floating point as rounded rationals

Runtime model (trusted base), not code of the repository.  A float is the rational number it denotes.  Every operation
computes exactly and then rounds to the nearest number with `p` significant bits, ties to even: `p = 53` is C `double` /
numpy `float64`, `p = 64` is the x87 `long double` that numpy exposes as `float128` on x86-64 Linux.
Simplifications: unbounded exponent range, no NaN, no infinities, no signed zero.
-/
namespace Fp

/-- Round to the nearest integer, ties to even (also Python's built-in `round(x)`). -/
def rne (x : ℚ) : ℤ :=
  if x - ⌊x⌋ < 1 / 2 then ⌊x⌋
  else if 1 / 2 < x - ⌊x⌋ then ⌊x⌋ + 1
  else if ⌊x⌋ % 2 = 0 then ⌊x⌋ else ⌊x⌋ + 1

/-- Round to `p` significant bits, ties to even. -/
def fl (p : ℕ) (x : ℚ) : ℚ :=
  if x = 0 then 0
  else (rne (x / 2 ^ (Int.log 2 |x| - ((p : ℤ) - 1))) : ℚ) * 2 ^ (Int.log 2 |x| - ((p : ℤ) - 1))

end Fp
