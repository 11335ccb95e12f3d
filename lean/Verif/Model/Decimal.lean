import Verif.Model.Float
import Verif.Model.Py

/-!
# Decimal texts of floats

Runtime model (trusted base), not code of the repository: CPython's formatting of floats with `g` and `f` presentation
types and the conversion `float(text)`.  Both are correctly rounded, ties to even (`Python/dtoa.c`).
Simplifications: as in `Model/Float.lean` the exponent range is unbounded, there are no NaNs, infinities or signed zeros.
-/
namespace Fp

/-- Decimal digit. -/
def decChar (d : Nat) : Char := Char.ofNat (48 + d)

/-- The last `k` decimal digits of `n`. -/
def fixDigits : Nat → Nat → List Char
  | 0, _ => []
  | k + 1, n => fixDigits k (n / 10) ++ [decChar (n % 10)]

/-- `str(n)`. -/
def natDigits (n : Nat) : List Char := fixDigits (Nat.log 10 n + 1) n

/-- Drop trailing zeros. -/
def stripZeros (l : List Char) : List Char := (l.reverse.dropWhile (· == '0')).reverse

/-- The `p` significant decimal digits of `x > 0` and its decimal exponent: `x ≈ m * 10^(e-p+1)` with
`10^(p-1) ≤ m < 10^p`. -/
def sigDigits (p : Nat) (x : ℚ) : Nat × Int :=
  let e := Int.log 10 x
  let m := (rne (x / 10 ^ (e - p + 1))).toNat
  if m = 10 ^ p then (10 ^ (p - 1), e + 1) else (m, e)

/-- The fraction with its point, without trailing zeros; nothing if it is zero. -/
def pointG (l : List Char) : List Char := if stripZeros l = [] then [] else '.' :: stripZeros l

/-- The text after the sign for significant digits `ds` (`p` of them) and exponent `e`, as `%g` writes it: without
exponent if `-4 <= e < p`, trailing zeros of the fraction removed, the exponent with sign and at least two digits. -/
def layoutG (p : Nat) (ds : List Char) (e : Int) : List Char :=
  if 0 ≤ e ∧ e < p then ds.take (e.toNat + 1) ++ pointG (ds.drop (e.toNat + 1))
  else if -4 ≤ e ∧ e < 0 then '0' :: pointG (List.replicate (-e - 1).toNat '0' ++ ds)
  else ds.take 1 ++ pointG (ds.drop 1) ++ 'e' :: (if e < 0 then '-' else '+') ::
    (if e.natAbs < 10 then '0' :: natDigits e.natAbs else natDigits e.natAbs)

/-- `'{:.{p}g}'.format(x)` of a float; precision 0 counts as 1. -/
def formatG (p : Nat) (x : ℚ) : List Char :=
  let p := max p 1
  if x = 0 then ['0']
  else
    let d := sigDigits p |x|
    (if x < 0 then ['-'] else []) ++ layoutG p (fixDigits p d.1) d.2

/-- `'{:.{d}f}'.format(x)` of a float. -/
def formatF (d : Nat) (x : ℚ) : List Char :=
  let m := (rne (|x| * 10 ^ d)).toNat
  (if x < 0 then ['-'] else []) ++ natDigits (m / 10 ^ d) ++ (if d = 0 then [] else '.' :: fixDigits d m)

/-- Numbers are right-aligned in a field of width `w`. -/
def padLeft (w : Nat) (t : List Char) : List Char := List.replicate (w - t.length) ' ' ++ t

/-- The value of a string of decimal digits, `none` if it contains anything else. -/
def digitsVal (l : List Char) : Option Nat :=
  if l.all Char.isDigit then some (l.foldl (fun n c => 10 * n + (c.toNat - 48)) 0) else none

/-- Optional sign. -/
def signOf : List Char → Int × List Char
  | '-' :: r => (-1, r)
  | '+' :: r => (1, r)
  | r => (1, r)

/-- The exact value of a decimal text: sign, digits with at most one point, optional exponent.  White space around it,
underscores, `inf` and `nan`, which `float` also accepts, are left out. -/
def decimalOf (t : List Char) : Option ℚ :=
  let s := signOf t
  let mant := s.2.takeWhile (fun c => c != 'e' && c != 'E')
  let rest := s.2.dropWhile (fun c => c != 'e' && c != 'E')
  let int := mant.takeWhile (· != '.')
  let frac := (mant.dropWhile (· != '.')).drop 1
  if int ++ frac = [] then none
  else match digitsVal (int ++ frac) with
    | none => none
    | some n =>
      match rest with
      | [] => some (s.1 * n * 10 ^ (-(frac.length : Int)))
      | _ :: r =>
        let es := signOf r
        if es.2 = [] then none
        else match digitsVal es.2 with
          | none => none
          | some k => some (s.1 * n * 10 ^ (es.1 * k - (frac.length : Int)))

/-- `float(text)`. -/
def floatText (t : List Char) : Except PyErr ℚ :=
  match decimalOf t with
  | none => .error .valueError
  | some x => .ok (fl 53 x)

end Fp
