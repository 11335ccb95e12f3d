import Verif.Spec.Text
import Verif.Spec.FpText

/-! # Specification of the statistics report (C110) -/
namespace Fp.Spec

/-- A line with a label and an integer, right-aligned in a column. -/
def CountLine (label : List Char) (column : ℕ) (n : ℕ) (line : List Char) : Prop :=
  ∃ k ds, line = label ++ List.replicate k ' ' ++ ds ∧ ds ≠ [] ∧ Digits ds n ∧ line.length = label.length + column

/-- A line with a label and a number of seconds with nine decimals, off by at most `tol` seconds. -/
def SecondsLine (label : List Char) (x tol : ℚ) (line : List Char) : Prop :=
  ∃ k num r, line = label ++ List.replicate k ' ' ++ num ∧ Denotes num r ∧ |r - x| ≤ tol ∧ (∃ i : ℤ, r = i * 10 ^ (-9 : ℤ)) ∧
    label.length + 15 ≤ line.length

/-- The tolerance of times of magnitude `t` (in ns), in seconds: half a nanosecond and the rounding of floats. -/
def secondsTol (t : ℚ) : ℚ := 10 ^ (-9 : ℤ) / 2 + |t| / 10 ^ 9 / 2 ^ 50

/-- The line with the size of the file in MB (2^20 bytes), with three decimals; none if there is no file. -/
def SizeLines (size : Option ℕ) (lines : List (List Char)) : Prop :=
  match size with
  | none => lines = []
  | some n => ∃ num r, lines = ["Filesize (MB): ".toList ++ num] ∧ Denotes num r ∧ |r - n / 2 ^ 20| ≤ 1 / 2000

/-- What a report is about: number of events, events per channel, with several channels and with none, patterns that occur, and the
times of the first and the last event in ns. -/
structure Facts where
  total : ℕ
  ch : Fin 4 → ℕ
  multi : ℕ
  non : ℕ
  patterns : List ℕ
  first : ℚ
  last : ℚ

/-- The text of a report: name and size of the file; the counts right-aligned in a column as wide as the total; duration, start and
end; the rate, rounded down, for a duration that is right to 2^-51; the patterns. -/
def ReportText (name : List Char) (size : Option ℕ) (f : Facts) (lines : List (List Char)) : Prop :=
  ∃ sz total c1 c2 c3 c4 cm c0 d st en rt ps, lines = ("Name: ".toList ++ name) :: sz ++ [total, c1, c2, c3, c4, cm, c0, d, st, en,
      "Event rate (/s) : ".toList ++ rt, "Detection patterns: [".toList ++ commaList ps ++ "]".toList] ∧
    SizeLines size sz ∧
    CountLine "Total events    : ".toList (Nat.log 10 f.total + 1) f.total total ∧
    CountLine "  Channel 1     : ".toList (Nat.log 10 f.total + 1) (f.ch 0) c1 ∧
    CountLine "  Channel 2     : ".toList (Nat.log 10 f.total + 1) (f.ch 1) c2 ∧
    CountLine "  Channel 3     : ".toList (Nat.log 10 f.total + 1) (f.ch 2) c3 ∧
    CountLine "  Channel 4     : ".toList (Nat.log 10 f.total + 1) (f.ch 3) c4 ∧
    CountLine "  Multi-channel : ".toList (Nat.log 10 f.total + 1) f.multi cm ∧
    CountLine "  No channel    : ".toList (Nat.log 10 f.total + 1) f.non c0 ∧
    SecondsLine "Duration (s) : ".toList ((f.last - f.first) / 10 ^ 9) (secondsTol (f.last - f.first)) d ∧
    SecondsLine "  ~ start    : ".toList (f.first / 10 ^ 9) (secondsTol f.first) st ∧
    SecondsLine "  ~ end      : ".toList (f.last / 10 ^ 9) (secondsTol f.last) en ∧
    (∃ dur : ℚ, |dur - (f.last - f.first) / 10 ^ 9| ≤ |f.last - f.first| / 10 ^ 9 / 2 ^ 51 ∧ IntText rt ⌊(f.total : ℚ) / dur⌋) ∧
    List.Forall₂ (fun t n => t ≠ [] ∧ Digits t n) ps f.patterns

end Fp.Spec
