import Verif.Spec.Raw

/-!
# Specification vocabulary for damaged text files (C116)
-/
namespace Fp.Spec
open Fp

/-- A visible ASCII character that cannot occur in a hexadecimal number. -/
def Foreign (c : Char) : Prop :=
  33 ≤ c.toNat ∧ c.toNat ≤ 126 ∧ c ∉ "0123456789abcdefABCDEF_xX+-".toList

/-- The file has the character `c` among the first `w` characters of a line, not behind a `#`. -/
def InField (w : Nat) (c : Char) (file : List Char) : Prop :=
  ∃ before pfx after, file = before ++ (pfx ++ c :: after) ∧ (before = [] ∨ ∃ b, before = b ++ ['\n']) ∧
    pfx.length < w ∧ '\n' ∉ pfx ∧ '#' ∉ pfx

/-- What remains of an a2 event when its line is cut after `j` of the 16 digits: the event of the number that the digits
left make. -/
def cutA2 (j : Nat) (e : Nat × Nat) : Nat × Nat :=
  let word := (e.1 * 2 ^ 10 + e.2) / 16 ^ (16 - j)
  (word / 2 ^ 10, word % 16)

/-- What remains of an a0 event when its second line is cut after `j` of the 8 digits: the upper 32 bits of the time are
those that the digits left make. -/
def cutA0 (j : Nat) (e : Nat × Nat) : Nat × Nat :=
  (e.1 / 2 ^ 22 / 16 ^ (8 - j) * 2 ^ 22 + e.1 % 2 ^ 22, e.2)

/-- The values of events. -/
def valuesOf (evs : List (Num × Nat)) : List (ℚ × Nat) := evs.map fun e => (e.1.val, e.2)

end Fp.Spec
