import Verif.Model.Logging

/-! # Specifications for logging and profiling -/
namespace Fp.Spec

/-- The first occurrence of `delim` in `line` follows `p` and is followed by `rest`. -/
def FirstAt (delim line p rest : List Char) : Prop :=
  line = p ++ delim ++ rest ∧ ∀ p' rest', line = p' ++ delim ++ rest' → p.length ≤ p'.length

/-- `p` is as long as `pre`, consists of white space, and agrees with `pre` wherever `pre` has white space (tabs). -/
def Blanked (isspace : Char → Bool) (pre p : List Char) : Prop :=
  p.length = pre.length ∧ (∀ c ∈ p, isspace c) ∧ ∀ (j : Nat) (c : Char), pre[j]? = some c → isspace c → p[j]? = some c

/-- Number of leading blanks. -/
def indent (text : List Char) : Nat := (text.takeWhile (· == ' ')).length

/-- The items shown for the details of a record: `key: value` for dictionaries, the items of a list or tuple. -/
def itemsOf : LogDetails → List (List Char)
  | .dict items => items.map fun kv => kv.1 ++ ": ".toList ++ kv.2
  | .list items => items
  | _ => []

/-- Log lines of properly nested calls at nesting depth `d`: every START has an END of the same name, both indented by
two blanks per level, and what is between them is nested one level deeper. -/
inductive Nested : Nat → List PLine → Prop
  | nil (d : Nat) : Nested d []
  | call (d : Nat) (name : String) (body rest : List PLine) (hb : Nested (d + 1) body) (hr : Nested d rest) :
    Nested d (⟨true, 2 * d, name⟩ :: body ++ ⟨false, 2 * d, name⟩ :: rest)

/-- Calls of `get_logger` and `set_logfile` (the latter with a logger obtained by name). -/
inductive LogOp
  | get (name : String) (level : Option String) (human : Bool)
  | file (name : String) (path : String) (human : Bool)

/-- The logger a call is about. -/
def opName : LogOp → String
  | .get n _ _ => n
  | .file n _ _ => n

/-- The effect of a call. -/
def runOp (L : Loggers) : LogOp → Loggers
  | .get n lv h => getLogger L n lv h
  | .file n p h => setLogfile L n p h

/-- The effect of a sequence of calls. -/
def runOps (ops : List LogOp) (L : Loggers) : Loggers := ops.foldl runOp L

/-- The handlers for files asked for, in order. -/
def filesOf (ops : List LogOp) : List LogHandler := ops.filterMap fun op => match op with
  | .file _ p h => some (.file p h)
  | _ => none

/-- The levels asked for, in order. -/
def levelsOf (ops : List LogOp) : List (Option String) := ops.filterMap fun op => match op with
  | .get _ lv _ => some lv
  | _ => none

end Fp.Spec
