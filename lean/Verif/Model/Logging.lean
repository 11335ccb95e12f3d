import Verif.Model.Py
import Mathlib.Logic.Function.Basic

/-! # Model of `src/fpfind/lib/logging.py` and of the `profile` decorator in `src/fpfind/fpfind.py` -/
namespace Fp

/-- `s.partition(sep)` for a non-empty separator (an empty one raises `ValueError`): text before the first occurrence, whether
there is one, text after it. -/
def pyPartition (sep : List Char) : List Char → List Char × Bool × List Char
  | [] => if sep = [] then ([], true, []) else ([], false, [])
  | c :: cs =>
    if sep <+: (c :: cs) then ([], true, (c :: cs).drop sep.length)
    else
      let (p, f, t) := pyPartition sep cs
      (c :: p, f, t)

/-- The attribute `details` of a log record: absent or `None`, a dictionary, a list or tuple, or anything else.  Keys, values and
items are given as the strings they are formatted to. -/
inductive LogDetails
  | none
  | dict (items : List (List Char × List Char))
  | list (items : List (List Char))
  | other (text : List Char)

/-- `{details}` in the machine-readable format, logging.py:89, is `str(details)`: left as a parameter. -/
abbrev StrOf := LogDetails → List Char

/-- `LoggingOverrideFormatter.format` from line 82 on, logging.py:82-111.  `message` is what the base class has formatted;
`isspace` is `str.isspace` for one character.  The replacement of function name, file name and line number (logging.py:75-81)
happens before and only changes `message`.  An empty delimiter raises `ValueError` in `partition`. -/
def logFormat (isspace : Char → Bool) (strOf : StrOf) (human : Bool) (delim : List Char) (message : List Char) (details : LogDetails) :
    Except PyErr (List Char) :=
  match details with
  | .none => .ok message
  | d =>
    if !human then .ok (message ++ ['\t'] ++ strOf d)
    else
      let items? : Option (List (List Char)) := match d with
        | .dict items => some (items.map fun kv => kv.1 ++ [':', ' '] ++ kv.2)
        | .list items => some items
        | _ => Option.none
      match items? with
      | Option.none => .ok message
      | some [] => .ok message
      | some (d0 :: ds) =>
        if delim = [] then .error .valueError
        else
          let (pre, _, text) := pyPartition delim message
          let stripped := text.dropWhile (· == ' ')
          let pad := List.replicate (text.length - stripped.length) ' '
          let pre' := pre.map fun c => if isspace c then c else ' '
          let line := fun (p t : List Char) => p ++ delim ++ pad ++ [' ', ' '] ++ t
          let messages := if stripped = [] then line pre d0 :: ds.map (line pre') else message :: (d0 :: ds).map (line pre')
          .ok (List.intercalate ['\n'] messages)

/-- The logging levels used: `logging.DEBUG`, `INFO`, `WARNING`, `ERROR`. -/
def logDEBUG : Int := 10
@[inherit_doc logDEBUG] def logINFO : Int := 20
@[inherit_doc logDEBUG] def logWARNING : Int := 30
@[inherit_doc logDEBUG] def logERROR : Int := 40

/-- `verbosity2level`, logging.py:143-146, with Python's negative indices. -/
def verbosity2level (verbosity : Int) : Except PyErr Int :=
  let levels := [logWARNING, logINFO, logDEBUG]
  let v := min verbosity ((levels.length : Int) - 1)
  let i := if v < 0 then v + levels.length else v
  if i < 0 then .error .indexError
  else match levels[i.toNat]? with
    | some l => .ok l
    | none => .error .indexError

/-- `label2level`, logging.py:148-155; `none` stands for a label that is not a string, e.g. `None`. -/
def label2level (label : Option String) : Int :=
  match label with
  | some "debug" => logDEBUG
  | some "info" => logINFO
  | some "warning" => logWARNING
  | some "error" => logERROR
  | _ => logWARNING

/-- A handler of a logger: to standard error or to a file (opened with mode "w"), and whether it is human-readable. -/
inductive LogHandler
  | stderr (human : Bool)
  | file (path : String) (human : Bool)
  deriving DecidableEq

/-- A logger of the `logging` module. -/
structure LoggerState where
  handlers : List LogHandler
  propagate : Bool
  level : Int

/-- The loggers by name; a name that is not used yet has the defaults of the `logging` module. -/
abbrev Loggers := String → LoggerState

/-- Loggers at the start of a program. -/
def freshLoggers : Loggers := fun _ => { handlers := [], propagate := true, level := 0 }

/-- `get_logger`, logging.py:113-128. -/
def getLogger (L : Loggers) (name : String) (level : Option String) (human : Bool) : Loggers :=
  let lg := L name
  let lg := if lg.handlers = [] then { lg with handlers := lg.handlers ++ [.stderr human], propagate := false } else lg
  Function.update L name { lg with level := label2level level }

/-- `set_logfile`, logging.py:130-141, for a file that can be opened. -/
def setLogfile (L : Loggers) (name : String) (path : String) (human : Bool) : Loggers :=
  Function.update L name { L name with handlers := (L name).handlers ++ [.file path human] }

/-! ## The `profile` decorator -/

/-- A call of a profiled function: its name, the profiled calls it makes (each with a flag whether it catches an exception from
it), and whether it raises an exception itself after them. -/
inductive PCall
  | mk (name : String) (calls : List (PCall × Bool)) (raises : Bool)

/-- A line written by the decorator: START or END, padding, name of the function (the elapsed time is left out). -/
structure PLine where
  start : Bool
  pad : Nat
  name : String
  deriving DecidableEq

mutual
/-- `wrapper`, fpfind.py:73-95.  State: `PROFILE_LEVEL`.  Returns the lines logged, the new level, and whether the call raised. -/
def runCall (level : Int) : PCall → List PLine × Int × Bool
  | .mk name calls raises =>
    let pad := (2 * level).toNat
    let (body, level', failed) := runCalls (level + 1) calls
    (⟨true, pad, name⟩ :: body ++ [⟨false, pad, name⟩], level' - 1, failed || raises)
/-- The body of a profiled function: its calls in order, up to the first exception that is not caught. -/
def runCalls (level : Int) : List (PCall × Bool) → List PLine × Int × Bool
  | [] => ([], level, false)
  | (c, caught) :: rest =>
    let (lines, level', failed) := runCall level c
    if failed && !caught then (lines, level', true)
    else
      let (lines', level'', failed') := runCalls level' rest
      (lines ++ lines', level'', failed')
end

end Fp
