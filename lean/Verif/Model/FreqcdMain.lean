import Verif.Model.Freqcd
import Verif.Model.Float

/-!
# Model of the options of `freqcd`

`src/fpfind/lib/getopt.c` and the first part of `main` in `src/fpfind/freqcd.c`.  C strings are byte strings without their
terminating zero.
-/
namespace Fp

/-- `optind` and the static pointer `place` of getopt.c:39-55 (the string that is left to scan). -/
structure GState where
  optind : Nat
  place : Bytes
  deriving DecidableEq

/-- What `getopt` returns: -1, `?`, or an option letter with `optarg`. -/
inductive GRes
  | done
  | bad
  | opt (c : UInt8) (arg : Option Bytes)
  deriving DecidableEq

/-- The option string of freqcd.c:181, `"i:o:F:f:xdh"`. -/
def optString : Bytes := [105, 58, 111, 58, 70, 58, 102, 58, 120, 100, 104]

/-- getopt.c:69-105: the part after the scanning pointer has been updated.  `place` is not empty there. -/
def getoptLetter (argv : List Bytes) (optind : Nat) (place : Bytes) : GRes × GState :=
  match place with
  | [] => (.done, ⟨optind, []⟩)
  | optopt :: place =>
    let oli := optString.dropWhile (· ≠ optopt)
    if optopt = 58 ∨ oli = [] then
      if optopt = 45 then (.done, ⟨optind, place⟩)
      else (.bad, ⟨if place = [] then optind + 1 else optind, place⟩)
    else if oli.tail.head? ≠ some 58 then (.opt optopt none, ⟨if place = [] then optind + 1 else optind, place⟩)
    else if place ≠ [] then (.opt optopt (some place), ⟨optind + 1, []⟩)
    else match argv[optind + 1]? with
      | none => (.bad, ⟨optind + 1, []⟩)
      | some a => (.opt optopt (some a), ⟨optind + 2, []⟩)

/-- `getopt`, getopt.c:53-106. -/
def getopt (argv : List Bytes) (g : GState) : GRes × GState :=
  if g.place = [] then
    match argv[g.optind]? with
    | none => (.done, ⟨g.optind, []⟩)
    | some a =>
      if a.head? ≠ some 45 then (.done, ⟨g.optind, []⟩)
      else if a.tail.head? = some 45 then (.done, ⟨g.optind + 1, []⟩)
      else getoptLetter argv g.optind (if a.tail = [] then a else a.tail)
  else getoptLetter argv g.optind g.place

/-- How the program ends before it starts its work: `return -emsg(code)`, `exit(1)` after the usage message, or a write
beyond the end of a file name buffer. -/
inductive Exit
  | error (code : Nat)
  | usage
  | overrun
  deriving DecidableEq, Repr

/-- The variables set by the options, freqcd.c:173-178; the file names are arrays of 200 bytes, initially zero. -/
structure Opts where
  fcorr : BitVec 32
  infilename : Bytes
  outfilename : Bytes
  freqfilename : Bytes
  islegacy : Bool
  isdecimal : Bool
  deriving DecidableEq

/-- freqcd.c:173-178. -/
def opts0 : Opts :=
  { fcorr := 0, infilename := List.replicate 200 0, outfilename := List.replicate 200 0, freqfilename := List.replicate 200 0,
    islegacy := false, isdecimal := false }

/-- `sscanf(arg, "%200s", buf)` and `buf[199] = 0`, freqcd.c:183-194: skips white space and stores up to 200 other characters
and a zero; `code` is the error if there are none. -/
def scanName (code : Nat) (arg buf : Bytes) : Except Exit Bytes :=
  let word := ((arg.dropWhile isCSpace).takeWhile fun c : UInt8 => !isCSpace c).take 200
  if word = [] then .error (.error code)
  else if buf.length < word.length + 1 then .error .overrun
  else .ok ((word ++ 0 :: buf.drop (word.length + 1)).set 199 0)

/-- `sscanf(arg, "%d", &fcorr)`, freqcd.c:196: `strtol` cut to 32 bits; what follows the number is ignored. -/
def scanInt (arg : Bytes) : Except Exit (BitVec 32) :=
  match strtol arg with
  | some (v, _) => .ok (BitVec.ofInt 32 v)
  | none => .error (.error 4)

/-- The `switch`, freqcd.c:182-207. -/
def applyOpt (o : Opts) (c : UInt8) (arg : Option Bytes) : Except Exit Opts :=
  if c = 105 then (scanName 2 (arg.getD []) o.infilename).map fun b => { o with infilename := b }
  else if c = 111 then (scanName 8 (arg.getD []) o.outfilename).map fun b => { o with outfilename := b }
  else if c = 70 then (scanName 10 (arg.getD []) o.freqfilename).map fun b => { o with freqfilename := b }
  else if c = 102 then (scanInt (arg.getD [])).map fun v => { o with fcorr := v }
  else if c = 120 then .ok { o with islegacy := true }
  else if c = 100 then .ok { o with isdecimal := true }
  else if c = 104 then .error .usage
  else .ok o

/-- The loop over the options, freqcd.c:181-208, with at most `fuel` calls of `getopt`; `none` if they do not suffice. -/
def optLoop (argv : List Bytes) : Nat → GState → Opts → Option (Except Exit Opts)
  | 0, _, _ => none
  | fuel + 1, g, o =>
    match getopt argv g with
    | (.done, _) => some (.ok o)
    | (.bad, g) => optLoop argv fuel g o
    | (.opt c arg, g) =>
      match applyOpt o c arg with
      | .error e => some (.error e)
      | .ok o => optLoop argv fuel g o

/-- `FCORR_DTOB`, freqcd.c:170: 2^34 / 10^10, a double. -/
def dtob : ℚ := fl 53 (2 ^ 34 / 10 ^ 10)

/-- Conversion of a double to `int` (`cvttsd2si`): truncation; out of range the result is -2^31. -/
def dToI (x : ℚ) : BitVec 32 :=
  let t : Int := if 0 ≤ x then ⌊x⌋ else ⌈x⌉
  if -2 ^ 31 ≤ t ∧ t < 2 ^ 31 then BitVec.ofInt 32 t else BitVec.ofInt 32 (-2 ^ 31)

/-- `fcorr = (int) fcorr * FCORR_DTOB`, freqcd.c:212: the product is a double. -/
def decimalCorr (f : BitVec 32) : BitVec 32 := dToI (fl 53 ((f.toInt : ℚ) * dtob))

/-- What the rest of the program uses: correction, format and the three file names (empty: not given). -/
structure Config where
  fcorr : BitVec 32
  legacy : Bool
  infile : Bytes
  outfile : Bytes
  freqfile : Bytes
  deriving DecidableEq

/-- The zero-terminated string in a file name buffer. -/
def bufName (b : Bytes) : Bytes := b.takeWhile (· ≠ 0)

/-- The check of the correction, freqcd.c:212-213, and the names passed to `open`, lines 216-232. -/
def finish (o : Opts) : Except Exit Config :=
  let f := if o.isdecimal then decimalCorr o.fcorr else o.fcorr
  if (cabs f).slt fcorrMax then
    .ok { fcorr := f, legacy := o.islegacy, infile := bufName o.infilename, outfile := bufName o.outfilename,
          freqfile := bufName o.freqfilename }
  else .error (.error 5)

/-- From the arguments (`argv` with the name of the program) to the configuration, freqcd.c:181-232; at most `fuel` calls of
`getopt`. -/
def mainOpts (fuel : Nat) (argv : List Bytes) : Option (Except Exit Config) :=
  (optLoop argv fuel ⟨1, []⟩ opts0).map fun r => r.bind finish

end Fp
