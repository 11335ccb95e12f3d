import Verif.Spec.Decimal

/-!
# Specification of help texts and of error messages
-/
namespace Fp.Spec

/-- `d` is the part of `s` before the first `Changelog:`. -/
def BeforeChangelog (s d : List Char) : Prop :=
  (d = s ∧ ¬ "Changelog:".toList <:+: s) ∨
  ∃ rest, s = d ++ "Changelog:".toList ++ rest ∧ ∀ d' rest', s = d' ++ "Changelog:".toList ++ rest' → d.length ≤ d'.length

/-- `out` is `d` with every run of newlines replaced by one space. -/
inductive Flow : List Char → List Char → Prop
  | last (s : List Char) : '\n' ∉ s → Flow s s
  | more (s rest out : List Char) (k : ℕ) : '\n' ∉ s → 1 ≤ k → rest.head? ≠ some '\n' → Flow rest out →
      Flow (s ++ List.replicate k '\n' ++ rest) (s ++ ' ' :: out)

/-- `out` is `d` with the first run of newlines replaced by an empty line and all others by one space. -/
def Reflow (d out : List Char) : Prop :=
  ('\n' ∉ d ∧ out = d) ∨
  ∃ s k rest out', '\n' ∉ s ∧ 1 ≤ k ∧ rest.head? ≠ some '\n' ∧ d = s ++ List.replicate k '\n' ++ rest ∧ Flow rest out' ∧
    out = s ++ "\n\n".toList ++ out'

/-- A value as shown in a message: label, unit, width of the field, decimals, value and tolerance of the value (the value
itself may be the result of a calculation). -/
structure Shown where
  label : List Char
  unit : List Char
  width : ℕ
  decimals : ℕ
  value : ℚ
  tolerance : ℚ

/-- `t` shows the value: label, equals sign, spaces up to the width, a numeral with the value rounded to the decimals, unit. -/
def Shown.As (f : Shown) (t : List Char) : Prop :=
  ∃ num x r, t = f.label ++ "=".toList ++ List.replicate (f.width - num.length) ' ' ++ num ++ f.unit ∧ Denotes num r ∧
    |x - f.value| ≤ f.tolerance ∧ |r - x| ≤ 10 ^ (-(f.decimals : ℤ)) / 2 ∧ ∃ k : ℤ, r = k * 10 ^ (-(f.decimals : ℤ))

/-- A list separated by `, `. -/
def commaList : List (List Char) → List Char
  | [] => []
  | a :: l => a ++ (l.map (fun b => ", ".toList ++ b)).flatten

/-- The values shown in a message, in this order: significance, resolution, time differences, frequency difference. -/
def shownValues (s r dt1 dt2 dt df : Option ℚ) : List Shown :=
  (s.toList.map fun x => ⟨"S".toList, [], 8, 3, x, 0⟩) ++
  (r.toList.map fun x => ⟨"r".toList, [], 5, 0, x, 0⟩) ++
  (dt1.toList.map fun x => ⟨"dt1".toList, [], 11, 0, x, 0⟩) ++
  (dt2.toList.map fun x => ⟨"dt2".toList, [], 11, 0, x, 0⟩) ++
  (dt.toList.map fun x => ⟨"dt".toList, [], 11, 0, x, 0⟩) ++
  (df.toList.map fun x => ⟨"df".toList, "ppm".toList, 0, 4, x * 10 ^ 6, |x * 10 ^ 6| * 2 ^ (-53 : ℤ)⟩)

/-- The characters that end a line in Python: `\n` to `\r`, the separators FS, GS, RS, NEL, LS and PS. -/
def LineEnd (c : Char) : Prop :=
  (10 ≤ c.toNat ∧ c.toNat ≤ 13) ∨ (28 ≤ c.toNat ∧ c.toNat ≤ 30) ∨ c.toNat = 0x85 ∨ c.toNat = 0x2028 ∨ c.toNat = 0x2029

/-- The lines of a text without carriage returns; the last one need not be ended. -/
inductive LinesOf : List Char → List (List Char) → Prop
  | nil : LinesOf [] []
  | last (l : List Char) : l ≠ [] → (∀ c ∈ l, ¬ LineEnd c) → LinesOf l [l]
  | more (l : List Char) (c : Char) (rest : List Char) (ls : List (List Char)) : (∀ c ∈ l, ¬ LineEnd c) → LineEnd c →
      LinesOf rest ls → LinesOf (l ++ c :: rest) (l :: ls)

end Fp.Spec
