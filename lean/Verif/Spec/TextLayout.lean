import Verif.Spec.RawMain

/-!
# Specification vocabulary for text files edited by hand (C141)
-/
namespace Fp.Spec
open Fp

/-- A comment: nothing, or `#` and printable ASCII characters. -/
def Comment (c : List Char) : Prop := c = [] ∨ ∃ t, c = '#' :: t ∧ ∀ x ∈ t, 32 ≤ x.toNat ∧ x.toNat ≤ 126

/-- The end of a line, on Unix or on Windows. -/
def FileLineEnd (e : List Char) : Prop := e = ['\n'] ∨ e = ['\r', '\n']

/-- The text holds the given entries, one per line in order; between them may be empty lines, blanks around the entries,
comments behind them or on lines of their own, and the last line end may be missing. -/
inductive LaidOut : List (List Char) → List Char → Prop
  | done : LaidOut [] []
  | empty {ls : List (List Char)} {f : List Char} (n : Nat) (c e : List Char) (hc : Comment c) (he : FileLineEnd e) (h : LaidOut ls f) :
      LaidOut ls ((List.replicate n ' ' ++ c) ++ (e ++ f))
  | entry {ls : List (List Char)} {f : List Char} (n : Nat) (l : List Char) (m : Nat) (c e : List Char) (hc : Comment c)
      (he : FileLineEnd e) (h : LaidOut ls f) :
      LaidOut (l :: ls) ((List.replicate n ' ' ++ l ++ List.replicate m ' ' ++ c) ++ (e ++ f))
  | final (n : Nat) (l : List Char) (m : Nat) (c : List Char) (hc : Comment c) :
      LaidOut [l] (List.replicate n ' ' ++ l ++ List.replicate m ' ' ++ c)
  | finalEmpty (n : Nat) (c : List Char) (hc : Comment c) : LaidOut [] (List.replicate n ' ' ++ c)

/-- An entry of a text file: visible ASCII characters other than `#`. -/
def TextEntry (l : List Char) : Prop := l ≠ [] ∧ ∀ c ∈ l, 33 ≤ c.toNat ∧ c.toNat ≤ 126 ∧ c ≠ '#'

/-- The entries of a text file that holds the given events: two numbers of 8 digits or one of 16 per event. -/
def entries (fmt : Fmt) (raws : List (Nat × Nat)) : List (List Char) :=
  match fmt with
  | .a0 => raws.flatMap fun r => [hexPad 8 (r.1 % 2 ^ 22 * 2 ^ 10 + r.2), hexPad 8 (r.1 / 2 ^ 22)]
  | .a1 => []
  | .a2 => raws.map fun r => hexPad 16 (r.1 * 2 ^ 10 + r.2)

/-- The bytes of an ASCII text. -/
def asciiBytes (f : List Char) : Bytes := f.map fun c => UInt8.ofNat c.toNat

/-- The text with the line ends of Windows. -/
def windows (f : List Char) : List Char := f.flatMap fun c => if c = '\n' then ['\r', '\n'] else [c]

/-- Two runs of `parse_timestamps` had the same effect, apart from the given file. -/
def SameEffect (inp : List Char) (a b : TsResult) : Prop :=
  a.report = b.report ∧ a.err = b.err ∧ ∀ n, n ≠ inp → a.files n = b.files n

end Fp.Spec
