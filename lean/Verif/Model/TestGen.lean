import Verif.Model.Raw

/-!
# Model of `src/fpfind/lib/generate_freqcd_testcase.py`

File names are strings of characters.  Not modelled: errors of the operating system (missing permissions and the like),
the text of the help message and of the warnings.
-/
namespace Fp

/-- `LEGACY`, generate_freqcd_testcase.py:42: the variable of the module. -/
def moduleLegacy : Bool := false

/-- `get_event`, generate_freqcd_testcase.py:44-63, with the variable `LEGACY` of the module as the first argument. -/
def getEvent (legacy : Bool) (timestamp : Int) (detectors : Int) : Except PyErr Bytes :=
  if ¬ 0 ≤ timestamp then .error .assertionError
  else
    let timestamp : Nat := if timestamp ≥ 1 <<< 54 then timestamp.toNat &&& 0x3FFFFFFFFFFFFF else timestamp.toNat
    if ¬ (0 ≤ detectors ∧ detectors < 16) then .error .assertionError
    else
      let event := (timestamp <<< 10) + detectors.toNat
      let event := if legacy then ((event &&& 0xFFFFFFFF) <<< 32) + (event >>> 32) else event
      packQ event

/-- What is written to the standard output: bytes, or a line with a number. -/
inductive Out
  | raw (b : Bytes)
  | num (n : Int)
  deriving DecidableEq

/-- The files and the standard output. -/
structure World where
  files : List Char → Option Bytes
  out : List Out

/-- The contents of a file set. -/
def World.put (w : World) (name : List Char) (c : Option Bytes) : World :=
  { w with files := fun n => if n = name then c else w.files n }

/-- `fwrite`, generate_freqcd_testcase.py:65-67: append. -/
def World.append (w : World) (name : List Char) (b : Bytes) : World := w.put name (some ((w.files name).getD [] ++ b))

/-- `write`, lines 69-71 and 89-93: to the standard output, or to the file given with -o. -/
def writeEvent (o : Option (List Char)) (b : Bytes) (w : World) : World :=
  match o with
  | some name => w.append name b
  | none => { w with out := w.out ++ [.raw b] }

/-- Lines 99-100. -/
def writeAll (o : Option (List Char)) : List Int → World → World × Option PyErr
  | [], w => (w, none)
  | t :: ts, w =>
    match getEvent moduleLegacy t 1 with
    | .error e => (w, some e)
    | .ok b => writeAll o ts (writeEvent o b w)

/-- What `int(input())` meets: a text that `int` understands, another text (`ValueError`), or Ctrl-C. -/
inductive Typed
  | number (n : Int)
  | other
  | interrupt

/-- Lines 137-145; at the end of the input `input()` raises `EOFError`.  The two lines of text printed before are not modelled. -/
def interactive (o : Option (List Char)) : List Typed → World → World × Option PyErr
  | [], w => (w, some .eofError)
  | .other :: ls, w => interactive o ls w
  | .interrupt :: _, w => (w, none)
  | .number t :: ls, w =>
    match getEvent moduleLegacy t 1 with
    | .error e => (w, some e)
    | .ok b => interactive o ls (writeEvent o b w)

/-- `int(t * 256)`, line 123: the product of an `np_float` and an integer, truncated. -/
def showTime (fw : Nat) (t : Num) : Int := ⌊fl fw (t.val * Tsres.ps4.value)⌋

/-- Lines 115-128.  `temp` tells whether `name` is the temporary file. -/
def convertInput (fw : Nat) (x : Bool) (name : List Char) (temp : Bool) (stdin : Bytes) (w : World) : World × Option PyErr :=
  let w := w.put name (some stdin)
  let r : World × Option PyErr :=
    match readA1 fw x .ns1 true ((w.files name).getD []) with
    | .error e => (w, some e)
    | .ok events => ({ w with out := w.out ++ events.map fun e => .num (showTime fw e.1) }, none)
  if temp then (r.1.put name none, r.2) else r

/-- The parsed arguments, lines 74-78. -/
structure GenArgs where
  o : Option (List Char)
  t : Option (List Int)
  x : Bool
  infile : Option (List Char)

/-- An argument that counts as true in Python. -/
def truthy {α : Type} : Option (List α) → Option (List α)
  | some [] => none
  | a => a

/-- `main` after the arguments have been parsed, lines 85-145.  `LEGACY = True` (line 87) sets a variable of `main` only.
`tempname` is the random name of line 113; `lines` is the standard input seen by `input()`, `stdin` as bytes. -/
def genMain (fw : Nat) (a : GenArgs) (tempname : List Char) (stdin : Bytes) (lines : List Typed) (w : World) :
    World × Option PyErr :=
  let o := truthy a.o
  let w := match o with
    | some name => w.put name (some [])
    | none => w
  match truthy a.t, truthy a.infile with
  | some ts, _ => writeAll o ts w
  | none, some name => convertInput fw a.x (if name = ['-'] then tempname else name) (name = ['-']) stdin w
  | none, none => interactive o lines w

end Fp
