import Verif.Spec.Epoch

/-! # Which names are numbers (C23) -/
namespace Fp.Spec

/-- Hexadecimal digits of both cases. -/
def hexDigitChars : List Char :=
  ['0', '1', '2', '3', '4', '5', '6', '7', '8', '9', 'a', 'b', 'c', 'd', 'e', 'f', 'A', 'B', 'C', 'D', 'E', 'F']

/-- Hexadecimal digits, with single underscores between them. -/
def DigitsBody (b : List Char) : Prop :=
  b ≠ [] ∧ (∀ c ∈ b, c = '_' ∨ c ∈ hexDigitChars) ∧ b.head? ≠ some '_' ∧ b.getLast? ≠ some '_' ∧ ¬ ['_', '_'] <:+: b

/-- White space, a sign, the prefix 0x, digits, white space; all except the digits are optional. -/
def HexLiteral (s : List Char) (v : Int) : Prop :=
  ∃ sp1 sign pfx b sp2, s = sp1 ++ (sign ++ pfx ++ b) ++ sp2 ∧
    (∀ c ∈ sp1 ++ sp2, c ∈ [' ', '\t', '\n', '\r', Char.ofNat 11, Char.ofNat 12]) ∧
    sign ∈ [[], ['+'], ['-']] ∧ pfx ∈ [[], ['0', 'x'], ['0', 'X'], ['0', 'x', '_'], ['0', 'X', '_']] ∧ DigitsBody b ∧
    v = (if sign = ['-'] then -1 else 1) * (digitsValue ((b.filter fun c => decide (c ≠ '_')).map Char.toLower) : Int)

end Fp.Spec
