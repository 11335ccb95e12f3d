import Mathlib.Data.Nat.Digits.Defs
import Mathlib.Data.Rat.Floor
import Mathlib.Algebra.Ring.Parity

/-!
# Specification of decimal numerals and of rounding to significant digits
-/
namespace Fp.Spec

/-- `l` is a string of decimal digits with value `n`. -/
def Digits (l : List Char) (n : ℕ) : Prop :=
  ∃ ds : List ℕ, List.Forall₂ (fun c d => "0123456789".toList[d]? = some c) l ds ∧ n = Nat.ofDigits 10 ds.reverse

/-- The exponent part of a numeral: nothing, or `e`, a sign and digits. -/
def Exponent (t : List Char) (ex : ℤ) : Prop :=
  (t = [] ∧ ex = 0) ∨ ∃ E k, E ≠ [] ∧ Digits E k ∧ ((t = 'e' :: '+' :: E ∧ ex = k) ∨ (t = 'e' :: '-' :: E ∧ ex = -k))

/-- `t` is a numeral for `x`: optional minus sign, digits `I`, optional point and digits `F`, optional exponent. -/
def Denotes (t : List Char) (x : ℚ) : Prop :=
  ∃ (s I F X : List Char) (n : ℕ) (ex : ℤ),
    t = s ++ (I ++ (if F = [] then [] else '.' :: F) ++ X) ∧ I ≠ [] ∧ Digits (I ++ F) n ∧ Exponent X ex ∧
    ((s = [] ∧ x = n * 10 ^ (ex - F.length)) ∨ (s = ['-'] ∧ x = -(n * 10 ^ (ex - F.length))))

/-- `r` is `x` rounded to `p` significant decimal digits: the nearest multiple of `10^q`, where `|x|` has `p` digits
before the position `q`; ties go to the even multiple. -/
def SigRound (p : ℕ) (x r : ℚ) : Prop :=
  (x = 0 ∧ r = 0) ∨ ∃ k q : ℤ, (10 : ℚ) ^ (q + p - 1) ≤ |x| ∧ |x| < 10 ^ (q + p) ∧ r = k * 10 ^ q ∧
    |x - r| ≤ 10 ^ q / 2 ∧ (|x - r| = 10 ^ q / 2 → Even k)

end Fp.Spec
