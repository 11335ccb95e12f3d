import Verif.Model.Decimal

/-!
# Texts and rounding for people: src/fpfind/lib/utils.py and src/fpfind/lib/constants.py
-/
namespace Fp

/- Results can be compared (for the examples). -/
deriving instance DecidableEq for Except

/-- A Python number: `int` or `float`.  numpy's floats are Python floats; numpy's integers are not modelled. -/
inductive PyNum
  | int (n : Int)
  | float (x : ℚ)
  deriving DecidableEq

/-- What `round` of utils.py:18-43 returns: a number or, for floats with `sf`, a text. -/
inductive RoundResult
  | num (v : PyNum)
  | text (t : List Char)
  deriving DecidableEq

/-- Python's own `round(number, ndigits)` (`inbuilt_round`, utils.py:17 and 37). -/
def builtinRound : PyNum → Option Int → PyNum
  | .int n, none => .int n
  | .int n, some d => if 0 ≤ d then .int n else .int (rne ((n : ℚ) / 10 ^ (-d)) * 10 ^ (-d).toNat)
  | .float x, none => .int (rne x)
  | .float x, some d => .float (fl 53 ((rne (x * 10 ^ d) : ℚ) / 10 ^ d))

/-- The first overflowing double, 2^1024. -/
def doubleMax : ℚ := 2 ^ 1024

/-- `round`, utils.py:18-43.  `'{:.{p}g}'.format` of an `int` converts it to a float first.  A negative precision is a
`ValueError`.  A text beyond the range of doubles becomes infinity, which `int` refuses and `format` writes as `inf`. -/
def utilsRound (number : PyNum) (ndigits : Option Int) (sf : Option Int) (dp : Option Int) : Except PyErr RoundResult :=
  -- lines 32-33: 'dp' overrides 'ndigits'
  let dp := if ndigits.isSome ∧ dp.isNone then ndigits else dp
  match sf with
  -- lines 36-37
  | none => .ok (.num (builtinRound number dp))
  | some p =>
    match number with
    -- lines 40-42
    | .int n =>
      if p < 0 then .error .valueError
      else if doubleMax ≤ |fl 53 (n : ℚ)| then .error .overflowError
      else do
        let y ← floatText (formatG p.toNat (fl 53 (n : ℚ)))
        if doubleMax ≤ |y| then .error .overflowError
        else .ok (.num (.int (if 0 ≤ y then ⌊y⌋ else ⌈y⌉)))
    -- lines 40 and 43
    | .float x =>
      if p < 0 then .error .valueError
      else do
        let y ← floatText (formatG p.toNat x)
        if doubleMax ≤ |y| then .ok (.text ((if y < 0 then ['-'] else []) ++ "inf".toList))
        else .ok (.text (formatG p.toNat y))

/-! ## Help texts -/

/-- `s.partition(pat)[0]`: the text before the first occurrence of `pat`, all of it if there is none. -/
def partitionHead (pat : List Char) : List Char → List Char
  | [] => []
  | c :: r => if pat.isPrefixOf (c :: r) then [] else c :: partitionHead pat r

/-- `re.sub(r"\n+", rep, s, count=1)`: the first run of newlines. -/
def subFirstRun (rep : List Char) : List Char → List Char
  | [] => []
  | c :: r => if c = '\n' then rep ++ r.dropWhile (· == '\n') else c :: subFirstRun rep r

/-- `re.sub(r"\n+", rep, s)`: all runs of newlines; `inRun` says whether the character before is a newline that has been
replaced already. -/
def subRuns (rep : List Char) : Bool → List Char → List Char
  | _, [] => []
  | inRun, c :: r =>
    if c = '\n' then (if inRun then subRuns rep true r else rep ++ subRuns rep true r) else c :: subRuns rep false r

/-- `re.sub(pat, rep, s)` for a non-empty literal pattern: all occurrences from the left.  `skip` counts the characters of a
match that are still to be removed. -/
def subLiteral (pat rep : List Char) : Nat → List Char → List Char
  | _, [] => []
  | skip + 1, _ :: r => subLiteral pat rep skip r
  | 0, c :: r =>
    if pat.isPrefixOf (c :: r) then rep ++ subLiteral pat rep (pat.length - 1) r else c :: subLiteral pat rep 0 r

/-- utils.py:429. -/
def placeholder : List Char := "~~~PLACEHOLDER~~~".toList

/-- `parse_docstring_description`, utils.py:428-437. -/
def parseDocstring (docstring : List Char) : List Char :=
  let d := partitionHead "Changelog:".toList docstring
  let d := subFirstRun placeholder d
  let d := subRuns " ".toList false d
  subLiteral placeholder "\n\n".toList 0 d

/-! ## Messages of failed peak searches -/

/-- `PeakFindingFailed`, constants.py:20-38: the message and the optional values.  Integers are formatted like the floats
they convert to, so values are given as floats. -/
structure PeakFindingFailed where
  message : List Char
  s : Option ℚ := none
  r : Option ℚ := none
  dt1 : Option ℚ := none
  dt2 : Option ℚ := none
  dt : Option ℚ := none
  df : Option ℚ := none

/-- `sep.join(parts)`. -/
def joinWith (sep : List Char) : List (List Char) → List Char
  | [] => []
  | [a] => a
  | a :: b :: l => a ++ sep ++ joinWith sep (b :: l)

/-- `PeakFindingFailed.__str__`, constants.py:40-57. -/
def PeakFindingFailed.str (e : PeakFindingFailed) : List Char :=
  let one (v : Option ℚ) (f : ℚ → List Char) : List (List Char) := match v with
    | none => []
    | some x => [f x]
  let suppl :=
    one e.s (fun x => "S=".toList ++ padLeft 8 (formatF 3 x)) ++
    one e.r (fun x => "r=".toList ++ padLeft 5 (formatF 0 x)) ++
    one e.dt1 (fun x => "dt1=".toList ++ padLeft 11 (formatF 0 x)) ++
    one e.dt2 (fun x => "dt2=".toList ++ padLeft 11 (formatF 0 x)) ++
    one e.dt (fun x => "dt=".toList ++ padLeft 11 (formatF 0 x)) ++
    one e.df (fun x => "df=".toList ++ formatF 4 (fl 53 (x * 1000000)) ++ "ppm".toList)
  if suppl = [] then e.message
  else e.message ++ " (".toList ++ joinWith ", ".toList suppl ++ ")".toList

/-! ## Help of the command line -/

/-- The line boundaries of `str.splitlines`. -/
def isLineEnd (c : Char) : Bool :=
  c.toNat ∈ [10, 11, 12, 13, 28, 29, 30, 0x85, 0x2028, 0x2029]

/-- `text.splitlines()`; `cur` is the line begun so far (reversed), `started` whether there is one. -/
def splitLinesGo : List Char → Bool → List Char → List (List Char)
  | cur, started, [] => if started then [cur.reverse] else []
  | cur, _, '\r' :: '\n' :: r => cur.reverse :: splitLinesGo [] false r
  | cur, _, c :: r => if isLineEnd c then cur.reverse :: splitLinesGo [] false r else splitLinesGo (c :: cur) true r

/-- utils.py:335. -/
def rawIndicator : List Char := "rawtext|".toList

/-- `ArgparseCustomFormatter._split_lines`, utils.py:363-367; `wrap` is the method of the base class. -/
def splitHelp (wrap : List Char → Nat → List (List Char)) (text : List Char) (width : Nat) : List (List Char) :=
  if rawIndicator.isPrefixOf text then splitLinesGo [] false (text.drop rawIndicator.length) else wrap text width

/-- `ArgparseCustomFormatter._format_action_invocation`, utils.py:337-361, for actions with option strings; `args` is what
`_format_args` returns, `nargs0` says that the option takes no value. -/
def formatInvocation (options : List (List Char)) (nargs0 : Bool) (args : List Char) : List Char :=
  let parts := if nargs0 then options else options.dropLast ++ (options.getLast?.map (· ++ " ".toList ++ args)).toList
  joinWith ", ".toList parts

end Fp
