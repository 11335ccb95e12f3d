import Verif.Model.RawFilter
import Verif.Model.FpText
import Verif.Model.UtilsText

/-!
# Model of the text printed by `print_statistics_report` (`src/fpfind/lib/parse_timestamps.py`)

`Model/RawFilter.lean` has the values and the failures; here are the lines.
-/
namespace Fp

/-- `{x:15.9f}` and `{x:>15.9f}` of a numpy float, parse_timestamps.py:514-516: formatted as the Python float it converts to. -/
def secondsText (x : ℚ) : List Char := padLeft 15 (formatF 9 (fl 53 x))

/-- `width`, parse_timestamps.py:502-504: `np.log10` is exact enough for the floor below 10^15 events. -/
def reportWidth (n : Nat) : Nat := if n = 0 then 0 else Nat.log 10 n + 1

/-- `str` of a list of numpy integers (numpy 1), parse_timestamps.py:518. -/
def patternsText (ps : List Nat) : List Char := '[' :: joinWith ", ".toList (ps.map natDigits) ++ [']']

/-- The line with the size of the file, parse_timestamps.py:499-501; `size` is in bytes, if there is a regular file of that name. -/
def sizeText : Option Nat → List (List Char)
  | some n => ["Filesize (MB): ".toList ++ formatF 3 (fl 53 ((n : ℚ) / 2 ^ 20))]
  | none => []

/-- `print_statistics_report`, parse_timestamps.py:498-518: the lines printed and the exception that ended it, if any.  `w` is
the width of the floats. -/
def reportLines (w : Nat) (name : List Char) (size : Option Nat) (r : Report) : List (List Char) × Option PyErr :=
  let head := ("Name: ".toList ++ name) :: sizeText size
  let width := reportWidth r.numEvents
  let total := "Total events    : ".toList ++ padLeft width (natDigits r.numEvents)
  if r.numEvents = 0 then (head ++ [total], none)
  else match r.start, r.stop with
    | some s, some e =>
      let duration := fl w (fl w (e - s) * fl 53 (1 / 1000000000))
      let counts := [
        "  Channel 1     : ".toList ++ padLeft width (natDigits r.ch1),
        "  Channel 2     : ".toList ++ padLeft width (natDigits r.ch2),
        "  Channel 3     : ".toList ++ padLeft width (natDigits r.ch3),
        "  Channel 4     : ".toList ++ padLeft width (natDigits r.ch4),
        "  Multi-channel : ".toList ++ padLeft width (natDigits r.multi),
        "  No channel    : ".toList ++ padLeft width (natDigits r.non)]
      let times := [
        "Duration (s) : ".toList ++ secondsText duration,
        "  ~ start    : ".toList ++ secondsText (fl w (s * fl 53 (1 / 1000000000))),
        "  ~ end      : ".toList ++ secondsText (fl w (e * fl 53 (1 / 1000000000)))]
      if duration = 0 then (head ++ [total] ++ counts ++ times, some .overflowError)
      else (head ++ [total] ++ counts ++ times ++
        ["Event rate (/s) : ".toList ++ intText ⌊(r.numEvents : ℚ) / duration⌋,
         "Detection patterns: ".toList ++ patternsText r.patterns], none)
    | _, _ => (head ++ [total], some .typeError)

end Fp
