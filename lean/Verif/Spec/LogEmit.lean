import Verif.Model.LogEmit

/-! # Specifications for where log messages go -/
namespace Fp.Spec

/-- Calls that change loggers: `get_logger` and `set_logfile`, `setLevel` on a logger, and what the application or the readers of
epochs do to the root logger. -/
inductive WorldOp
  | get (name : String) (level : Option String) (human : Bool)
  | file (name : String) (path : String) (human : Bool)
  | level (name : String) (level : Int)
  | config (hs : List RootHandler)
  | readT2 (file : Option Bytes)
  | readT4 (file : Option Bytes)

/-- The effect of a call. -/
def runWorldOp (W : LogWorld) : WorldOp → LogWorld
  | .get n lv h => { W with loggers := getLogger W.loggers n lv h }
  | .file n p h => { W with loggers := setLogfile W.loggers n p h }
  | .level n l => setLevel W n l
  | .config hs => basicConfig hs W
  | .readT2 f => readT2Log f W
  | .readT4 f => readT4Log f W

/-- The effect of a sequence of calls. -/
def runWorld (ops : List WorldOp) (W : LogWorld) : LogWorld := ops.foldl runWorldOp W

/-- The log files of a logger, in the order of the calls. -/
def logFiles (name : String) (ops : List WorldOp) : List LogHandler := ops.filterMap fun op => match op with
  | .file n p h => if n = name then some (.file p h) else none
  | _ => none

/-- The levels a logger is given, in the order of the calls. -/
def logLevels (name : String) (ops : List WorldOp) : List Int := ops.filterMap fun op => match op with
  | .get n lv _ => if n = name then some (label2level lv) else none
  | .level n l => if n = name then some l else none
  | _ => none

/-- A call about a logger. -/
def About (name : String) : WorldOp → Prop
  | .get n _ _ => n = name
  | .file n _ _ => n = name
  | .level n _ => n = name
  | _ => False

end Fp.Spec
