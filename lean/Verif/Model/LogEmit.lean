import Verif.Model.Logging
import Verif.Model.EpochHead

/-! # Model of where log messages go

The loggers of the package (`src/fpfind/lib/logging.py`, `fpfind.py:43,554-556`, `parse_epochs.py:24`) together with the root logger,
which `parse_epochs.py` uses directly (`logging.debug`, lines 275, 320, 336, 345, 538, 554, 564).  The dispatch of records follows the
`logging` module of Python (`Logger.isEnabledFor`, `Logger.callHandlers`, `logging.debug`, `basicConfig`), without filters and without
`logging.disable`; handlers have level NOTSET, as all handlers made by the package. -/
namespace Fp

/-- A handler of the root logger: the one of `basicConfig()`, or one of the application. -/
inductive RootHandler
  | basic
  | app (id : Nat)
  deriving DecidableEq

/-- Where a record is written: by a handler of a logger, by a handler of the root logger, or by the handler of last resort (standard
error, warnings and above). -/
inductive LogSink
  | own (h : LogHandler)
  | root (h : RootHandler)
  | lastResort
  deriving DecidableEq

/-- All loggers of a program: the named ones, and handlers and level of the root logger. -/
structure LogWorld where
  loggers : Loggers
  rootHandlers : List RootHandler
  rootLevel : Int

/-- Loggers at the start of a program (the root logger has level WARNING). -/
def freshWorld : LogWorld := { loggers := freshLoggers, rootHandlers := [], rootLevel := logWARNING }

/-- The named ancestors of a logger, nearest first: the parts of the name before each dot. -/
def logAncestors (name : String) : List String :=
  (((List.range name.toList.length).filter fun i => name.toList[i]? = some '.').reverse).map fun i => String.ofList (name.toList.take i)

/-- `Logger.getEffectiveLevel`: the first level other than NOTSET on the way to the root. -/
def effectiveLevel (W : LogWorld) (name : String) : Int :=
  (((name :: logAncestors name).map fun n => (W.loggers n).level).find? (· ≠ 0)).getD W.rootLevel

/-- The handlers found by `Logger.callHandlers` on the way from a list of loggers to the root, up to one that does not propagate. -/
def handlersFrom (W : LogWorld) : List String → List LogSink
  | [] => W.rootHandlers.map .root
  | n :: ns => (W.loggers n).handlers.map .own ++ if (W.loggers n).propagate then handlersFrom W ns else []

/-- Where a message of level `level` of the logger `name` is written. -/
def logEmit (W : LogWorld) (name : String) (level : Int) : List LogSink :=
  if level < effectiveLevel W name then []
  else match handlersFrom W (name :: logAncestors name) with
    | [] => if logWARNING ≤ level then [.lastResort] else []
    | hs => hs

/-- `logging.basicConfig()`, or with handlers of the application, `logging.basicConfig(handlers=…)`: no effect if the root logger has
handlers. -/
def basicConfig (hs : List RootHandler) (W : LogWorld) : LogWorld :=
  if W.rootHandlers = [] then { W with rootHandlers := hs } else W

/-- The effect of `logging.debug(…)` on the loggers: `basicConfig()` if the root logger has no handlers. -/
def rootDebug (W : LogWorld) : LogWorld := if W.rootHandlers = [] then basicConfig [.basic] W else W

/-- `logger.setLevel(level)`. -/
def setLevel (W : LogWorld) (name : String) (level : Int) : LogWorld :=
  { W with loggers := Function.update W.loggers name { W.loggers name with level := level } }

/-- The effect of `read_T2` on the loggers, parse_epochs.py:279-386, for a resolution of `TSRES`: nothing before the header is unpacked (line 299), then
`logging.debug` at least once (line 320); further calls of it change nothing.  `none` is a file that cannot be opened. -/
def readT2Log (file : Option Bytes) (W : LogWorld) : LogWorld :=
  match file with
  | none => W
  | some f => match readT2Header f with
    | .error _ => W
    | .ok _ => rootDebug W

/-- The effect of `read_T4` on the loggers, parse_epochs.py:510-572 (`logging.debug` at line 538). -/
def readT4Log (file : Option Bytes) (W : LogWorld) : LogWorld :=
  match file with
  | none => W
  | some f => match readT4Header f with
    | .error _ => W
    | .ok _ => rootDebug W

/-- Name of the logger of fpfind.py, imported by the entry point `fpfind.fpfind:main`. -/
def fpfindLogger : String := "fpfind.fpfind"
/-- Name of the logger of parse_epochs.py. -/
def epochLogger : String := "fpfind.lib.parse_epochs"

/-- The loggers after the imports: parse_epochs.py:24, then fpfind.py:43. -/
def importLog (W : LogWorld) : LogWorld :=
  { W with loggers := getLogger (getLogger W.loggers epochLogger (some "warning") false) fpfindLogger none true }

/-- Start of `main`, fpfind.py:553-556: the file of `--logging`, and the level of the number of `-v`. -/
def mainLog (logfile : Option String) (verbosity : Int) (W : LogWorld) : Except PyErr LogWorld := do
  let W1 : LogWorld := match logfile with
    | none => W
    | some p => { W with loggers := setLogfile W.loggers fpfindLogger p true }
  let l ← verbosity2level verbosity
  return setLevel W1 fpfindLogger l

end Fp
