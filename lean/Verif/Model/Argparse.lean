import Verif.Model.Logging
import Verif.Model.Decimal
import Verif.Model.RawMain
import Verif.Model.FpText
import Verif.Model.TestGen

/-! # Model of the command lines of the Python programs

`ArgumentParser.parse_args` of the module `argparse` of Python (3.11; `_parse_known_args`, `_parse_optional`, `_get_option_tuples`,
`_match_argument`, `_match_arguments_partial`, `_get_values`), for the features used by the package: options without value
(`store_true`, `count`, `help`), with one value, with one or more values (`nargs="+"`), required options, abbreviations, and positional
arguments of which the last may be optional (`nargs="?"`).  Not modelled: the texts of usage, help and messages.  Then the parsers of
`parse_timestamps` (`parse_timestamps.py:687-714`), `fpfind` (`fpfind.py:424-551`, without configuration files, where `configargparse`
does what `argparse` does) and `generate_freqcd_testcase` (`generate_freqcd_testcase.py:74-85`). -/
namespace Fp

/-- A word of the command line. -/
abbrev Word := List Char

/-- What an option does: `flag` for `store_true` and `count`. -/
inductive ArgKind
  | flag
  | help
  | value
  | many
  deriving DecidableEq

/-- An option: `ok` tells which values type and choices accept. -/
structure ArgOpt where
  names : List Word
  kind : ArgKind
  dest : String
  required : Bool
  ok : Word → Bool

/-- A positional argument of type `str`. -/
structure ArgPos where
  dest : String
  optional : Bool

/-- A parser. -/
structure ArgSpec where
  opts : List ArgOpt
  pos : List ArgPos

/-- How a parser ends otherwise: with a message and exit status 2, or with the help and exit status 0. -/
inductive ArgExit
  | error
  | help
  deriving DecidableEq

/-- `_option_string_actions`, in the order of registration. -/
def ArgSpec.table (S : ArgSpec) : List (Word × ArgOpt) := S.opts.flatMap fun o => o.names.map fun n => (n, o)

/-- The option of a name. -/
def ArgSpec.find (S : ArgSpec) (w : Word) : Option ArgOpt := (S.table.find? fun x => x.1 = w).map (·.2)

/-- An option found in a word: action (`none` for an unknown one), option string, separator and explicit argument. -/
structure OptHit where
  opt : Option ArgOpt
  name : Word
  eq : Bool
  arg : Option Word

/-- `_get_option_tuples`, for a word of at least two characters that begins with a dash. -/
def optionTuples (S : ArgSpec) (w : Word) : List OptHit :=
  if w[1]? = some '-' then
    let (p, sep, e) := pyPartition ['='] w
    (S.table.filter fun x => p.isPrefixOf x.1).map fun x => ⟨some x.2, x.1, sep, if sep then some e else none⟩
  else
    S.table.filterMap fun x =>
      if x.1 = w.take 2 then some ⟨some x.2, x.1, false, some (w.drop 2)⟩
      else if w.isPrefixOf x.1 then some ⟨some x.2, x.1, false, none⟩
      else none

/-- `_negative_number_matcher`, the pattern `^-\d+$|^-\d*\.\d+$` (for ASCII digits; `$` also matches before a final newline). -/
def looksNegative (w : Word) : Bool :=
  match w with
  | '-' :: r =>
    let r := if r.getLast? = some '\n' then r.dropLast else r
    let int := r.takeWhile Char.isDigit
    match r.dropWhile Char.isDigit with
    | [] => int ≠ []
    | '.' :: f => f ≠ [] && f.all Char.isDigit
    | _ => false
  | _ => false

/-- `_parse_optional`: `none` for the error of an ambiguous abbreviation, `some none` for an argument. -/
def parseOptional (S : ArgSpec) (w : Word) : Option (Option OptHit) :=
  if w.head? ≠ some '-' then some none
  else match S.find w with
    | some o => some (some ⟨some o, w, false, none⟩)
    | none =>
      if w.length = 1 then some none
      else
        let (p, sep, e) := pyPartition ['='] w
        match (if sep then S.find p else none) with
        | some o => some (some ⟨some o, p, true, some e⟩)
        | none =>
          match optionTuples S w with
          | [h] => some (some h)
          | _ :: _ :: _ => none
          | [] =>
            if looksNegative w then some none
            else if ' ' ∈ w then some none
            else some (some ⟨none, w, false, none⟩)

/-- The pattern of a word: option, argument, or the word `--`. -/
inductive ArgCls
  | o (h : OptHit)
  | a
  | dash

/-- Whether a word was found to be an option. -/
def ArgCls.isOpt : ArgCls → Bool
  | .o _ => true
  | _ => false

/-- Whether a word is an argument. -/
def ArgCls.isArg : ArgCls → Bool
  | .a => true
  | _ => false

/-- Whether a word is the first `--`. -/
def ArgCls.isDash : ArgCls → Bool
  | .dash => true
  | _ => false

/-- First part of `_parse_known_args`: all words after `--` are arguments. -/
def classify (S : ArgSpec) : List Word → Option (List (ArgCls × Word))
  | [] => some []
  | w :: ws =>
    if w = ['-', '-'] then some ((.dash, w) :: ws.map fun v => (.a, v))
    else match parseOptional S w, classify S ws with
      | some none, some r => some ((.a, w) :: r)
      | some (some h), some r => some ((.o h, w) :: r)
      | _, _ => none

/-- Options that take no value (`nargs=0`). -/
def ArgKind.takesNone : ArgKind → Bool
  | .flag => true
  | .help => true
  | _ => false

/-- The options of one word: those that are complete, with their values, an unknown rest, and the last one if it has to look for
values in the following words. -/
structure Cluster where
  done : List (ArgOpt × List Word)
  extra : Option Word
  open_ : Option ArgOpt

/-- Loop of `consume_optional` while there is an explicit argument `arg`. -/
def cluster (S : ArgSpec) (o : ArgOpt) (name : Word) (eq : Bool) (arg : Word) : Except ArgExit Cluster :=
  if o.kind.takesNone then
    if name[1]? = some '-' then .error .error
    else match arg with
      | [] => .error .error
      | c :: arg' =>
        if eq ∨ c = '-' then .error .error
        else match S.find ['-', c] with
          | none => .ok ⟨[(o, [])], some ('-' :: c :: arg'), none⟩
          | some o2 =>
            match arg' with
            | [] => .ok ⟨[(o, [])], none, some o2⟩
            | '=' :: arg'' => match cluster S o2 ['-', c] true arg'' with
              | .error e => .error e
              | .ok r => .ok { r with done := (o, []) :: r.done }
            | d :: arg'' => match cluster S o2 ['-', c] false (d :: arg'') with
              | .error e => .error e
              | .ok r => .ok { r with done := (o, []) :: r.done }
  else .ok ⟨[(o, [arg])], none, none⟩
termination_by arg.length

/-- `take_action`: conversion of the values; the help ends the program. -/
def takeAction (o : ArgOpt) (vals : List Word) : Except ArgExit (String × List Word) :=
  if vals.all o.ok then (if o.kind = .help then .error .help else .ok (o.dest, vals)) else .error .error

/-- Several actions one after the other. -/
def takeActions : List (ArgOpt × List Word) → Except ArgExit (List (String × List Word))
  | [] => .ok []
  | (o, vals) :: l => match takeAction o vals with
    | .error e => .error e
    | .ok t => match takeActions l with
      | .error e => .error e
      | .ok r => .ok (t :: r)

/-- `match_argument` for the words after the option: how many are its values. -/
def matchArgument (k : ArgKind) (rest : List (ArgCls × Word)) : Except ArgExit Nat :=
  match k with
  | .flag => .ok 0
  | .help => .ok 0
  | .value => match rest with
    | (.a, _) :: _ => .ok 1
    | _ => .error .error
  | .many => match (rest.takeWhile fun x => x.1.isArg).length with
    | 0 => .error .error
    | n => .ok n

/-- `consume_optional`: actions taken, unknown words, remaining words. -/
def consumeOpt (S : ArgSpec) (h : OptHit) (w : Word) (rest : List (ArgCls × Word)) :
    Except ArgExit (List (String × List Word) × List Word × List (ArgCls × Word)) :=
  match h.opt with
  | none => .ok ([], [w], rest)
  | some o =>
    match (match h.arg with
      | some arg => cluster S o h.name h.eq arg
      | none => .ok ⟨[], none, some o⟩) with
    | .error e => .error e
    | .ok c =>
      match c.open_ with
      | none => match takeActions c.done with
        | .error e => .error e
        | .ok t => .ok (t, c.extra.toList, rest)
      | some o2 => match matchArgument o2.kind rest with
        | .error e => .error e
        | .ok n => match takeActions (c.done ++ [(o2, (rest.take n).map (·.2))]) with
          | .error e => .error e
          | .ok t => .ok (t, c.extra.toList, rest.drop n)

/-- One positional: dashes, an argument, dashes; an optional one also matches without argument. -/
def matchPos (p : ArgPos) (rest : List (ArgCls × Word)) : Option (List Word × List (ArgCls × Word)) :=
  let d1 := rest.takeWhile fun x => x.1.isDash
  match rest.dropWhile fun x => x.1.isDash with
  | (.a, v) :: r =>
    some (d1.map (·.2) ++ v :: (r.takeWhile fun x => x.1.isDash).map (·.2), r.dropWhile fun x => x.1.isDash)
  | r => if p.optional then some (d1.map (·.2), r) else none

/-- `consume_positionals`: values of the positionals (without the first `--`), positionals left, remaining words. -/
def consumePos : List ArgPos → List (ArgCls × Word) → List (String × List Word) × List ArgPos × List (ArgCls × Word)
  | [], r => ([], [], r)
  | p :: ps, r => match matchPos p r with
    | none => ([], p :: ps, r)
    | some (vs, r') =>
      let (t, ps', r'') := consumePos ps r'
      ((p.dest, vs.erase ['-', '-']) :: t, ps', r'')

/-- The loop of `_parse_known_args`, and the positionals after the last option: actions taken, extra words, positionals left.  Every
step consumes a word. -/
def argLoop (S : ArgSpec) : Nat → List (ArgCls × Word) → List ArgPos →
    Except ArgExit (List (String × List Word) × List Word × List ArgPos)
  | 0, _, _ => .error .error
  | n + 1, rest, ps =>
    if ¬ rest.any (fun x => x.1.isOpt) then
      let (t, ps', r) := consumePos ps rest
      .ok (t, r.map (·.2), ps')
    else match rest with
      | (.o h, w) :: r => match consumeOpt S h w r with
        | .error e => .error e
        | .ok (t, ex, r') => match argLoop S n r' ps with
          | .error e => .error e
          | .ok (t2, ex2, ps2) => .ok (t ++ t2, ex ++ ex2, ps2)
      | _ =>
        let (t, ps', r) := consumePos ps rest
        if r.length < rest.length then
          match argLoop S n r ps' with
          | .error e => .error e
          | .ok (t2, ex2, ps2) => .ok (t ++ t2, ex2, ps2)
        else
          match argLoop S n (rest.dropWhile fun x => !x.1.isOpt) ps' with
          | .error e => .error e
          | .ok (t2, ex2, ps2) => .ok (t ++ t2, (rest.takeWhile fun x => !x.1.isOpt).map (·.2) ++ ex2, ps2)

/-- `parse_args`: the actions taken, with their values, in order.  Errors: also missing required arguments and extra words. -/
def argParse (S : ArgSpec) (argv : List Word) : Except ArgExit (List (String × List Word)) :=
  match classify S argv with
  | none => .error .error
  | some l => match argLoop S (l.length + 1) l S.pos with
    | .error e => .error e
    | .ok (t, ex, ps) =>
      if (∃ o ∈ S.opts, o.required = true ∧ ∀ x ∈ t, x.1 ≠ o.dest) ∨ (∃ p ∈ ps, p.optional = false) ∨ ex ≠ [] then .error .error
      else .ok t

/-- The values of the last action for a destination. -/
def argLast (t : List (String × List Word)) (dest : String) : Option (List Word) :=
  ((t.filter fun x => x.1 = dest).getLast?).map (·.2)

/-- The single value of a destination, if it was given. -/
def argValue (t : List (String × List Word)) (dest : String) : Option Word := (argLast t dest).bind List.head?

/-- Whether a flag was given. -/
def argFlag (t : List (String × List Word)) (dest : String) : Bool := t.any fun x => x.1 = dest

/-- `int(text)`: sign and digits (white space and underscores, which `int` also accepts, are left out). -/
def intOf (w : Word) : Option Int :=
  let s := signOf w
  if s.2 = [] then none else (digitsVal s.2).map fun n => s.1 * n

/-- Any text. -/
def anyText (_ : Word) : Bool := true
/-- `type=int`. -/
def isInt (w : Word) : Bool := (intOf w).isSome
/-- `type=float`. -/
def isFloat (w : Word) : Bool := (decimalOf w).isSome
/-- `choices=["0","1","2"]`. -/
def isFormat (w : Word) : Bool := w = ['0'] ∨ w = ['1'] ∨ w = ['2']

/-- An option without value. -/
def argSwitch (names : List String) (dest : String) : ArgOpt := ⟨names.map String.toList, .flag, dest, false, anyText⟩
/-- An option with a value. -/
def argStore (names : List String) (dest : String) (ok : Word → Bool) : ArgOpt := ⟨names.map String.toList, .value, dest, false, ok⟩

/-- The parser of `parse_timestamps`, parse_timestamps.py:687-707. -/
def tsSpec : ArgSpec where
  opts := [
    ⟨["-h".toList, "--help".toList], .help, "help", false, anyText⟩,
    ⟨["-A".toList], .value, "A", true, isFormat⟩,
    argSwitch ["-X"] "X",
    argStore ["-a"] "a" isFormat,
    argSwitch ["-x"] "x",
    argSwitch ["-p", "--print"] "print",
    argSwitch ["-q", "--quiet"] "quiet",
    argStore ["--pfilter-pattern"] "pfilter_pattern" isInt,
    argSwitch ["--pfilter-mask"] "pfilter_mask",
    argSwitch ["--pfilter-invert"] "pfilter_invert",
    argStore ["--tfilter-start"] "tfilter_start" isFloat,
    argStore ["--tfilter-end"] "tfilter_end" isFloat,
    argSwitch ["--inmemory"] "inmemory"]
  pos := [⟨"infile", false⟩, ⟨"outfile", true⟩]

/-- `[…][int(args.A)]`, parse_timestamps.py:719-722. -/
def fmtOf (w : Word) : Fmt := if w = ['0'] then .a0 else if w = ['1'] then .a1 else .a2

/-- What happens to a command line: exit status of the parser, the program run, or a value the model of the program does not cover
(a negative pattern, an input name that is the word `--` twice). -/
inductive CliOut (α : Type)
  | exit (status : Nat)
  | ran (result : α)
  | outside

/-- A number that the models keep as a natural number, `default` if the option was not given; `none` for a negative one. -/
def argNat (t : List (String × List Word)) (dest : String) (default : Nat) : Option Nat :=
  match argValue t dest with
  | none => some default
  | some w => match intOf w with
    | some n => if 0 ≤ n then some n.toNat else none
    | none => none

/-- A float, `none` if the option was not given. -/
def argFloat (t : List (String × List Word)) (dest : String) : Option ℚ := ((argValue t dest).bind decimalOf).map (fl 53)

/-- `args` of `main`, parse_timestamps.py:714. -/
def tsArgs (t : List (String × List Word)) : Option TsArgs :=
  match argValue t "infile", argNat t "pfilter_pattern" 0 with
  | some infile, some pat => some {
      inFmt := fmtOf ((argValue t "A").getD [])
      legacyIn := argFlag t "X"
      outFmt := fmtOf ((argValue t "a").getD ['1'])
      legacyOut := argFlag t "x"
      print := argFlag t "print"
      filter := {
        pattern := if argFlag t "pfilter_pattern" then some pat else none
        mask := argFlag t "pfilter_mask"
        invert := argFlag t "pfilter_invert"
        start := argFloat t "tfilter_start"
        stop := argFloat t "tfilter_end" }
      inmemory := argFlag t "inmemory"
      infile := infile
      outfile := argValue t "outfile" }
  | _, _ => none

/-- `parse_timestamps` with its command line (without the name of the program), parse_timestamps.py:686-773: without words the help is
printed and the exit status is 1. -/
def tsCli (fw : Nat) (argv : List Word) (files : Files) : CliOut TsResult :=
  if argv = [] then .exit 1
  else match argParse tsSpec argv with
    | .error .error => .exit 2
    | .error .help => .exit 0
    | .ok t => match tsArgs t with
      | none => .outside
      | some a => .ran (tsMain fw a files)

/-- `choices=range(1<<4)`. -/
def isOutput (w : Word) : Bool := match intOf w with
  | some n => 0 ≤ n ∧ n < 16
  | none => false

/-- The parser of `fpfind`, fpfind.py:427-541. -/
def fpSpec : ArgSpec where
  opts := [
    argSwitch ["-h", "--help"] "help",
    argSwitch ["-v", "--verbosity"] "verbosity",
    argStore ["-L", "--logging"] "logging" anyText,
    argSwitch ["--quiet"] "quiet",
    argStore ["--config"] "config" anyText,
    argStore ["--save"] "save" anyText,
    argSwitch ["--experiment"] "experiment",
    argStore ["-t", "--reference"] "reference" anyText,
    argStore ["-T", "--target"] "target" anyText,
    argSwitch ["-X", "--legacy"] "legacy",
    argStore ["-Z", "--skip-duration"] "skip_duration" isFloat,
    argStore ["-d", "--sendfiles"] "sendfiles" anyText,
    argStore ["-D", "--t1files"] "t1files" anyText,
    argStore ["-e", "--first-epoch"] "first_epoch" anyText,
    argStore ["-z", "--skip-epochs"] "skip_epochs" isInt,
    argStore ["-k", "--num-wraps"] "num_wraps" isInt,
    argStore ["-q", "--buffer-order"] "buffer_order" isInt,
    argStore ["-R", "--initial-res"] "initial_res" isInt,
    argStore ["-r", "--final-res"] "final_res" isInt,
    argStore ["-s", "--separation"] "separation" isFloat,
    argStore ["-S", "--threshold"] "threshold" isFloat,
    argStore ["-V", "--output"] "output" isOutput,
    argSwitch ["-P", "--precomp-enable"] "precomp_enable",
    argStore ["--precomp-start"] "precomp_start" isFloat,
    argStore ["--precomp-step"] "precomp_step" isFloat,
    argStore ["--precomp-stop"] "precomp_stop" isFloat,
    argSwitch ["--precomp-ordered"] "precomp_ordered",
    argSwitch ["--precomp-fullscan"] "precomp_fullscan"]
  pos := []

/-- A file named by an option: `none` if it does not exist. -/
def argFile (files : Files) (t : List (String × List Word)) (dest : String) : Option (Option Bytes) :=
  match argValue t dest with
  | none => some none
  | some name => (files name).map some

/-- `args` of `main`, fpfind.py:544, with the contents of the files and directories named (defaults of fpfind.py:474-541). -/
def fpArgs (files : Files) (dirs : Word → EpochDir) (t : List (String × List Word)) : Option FpMainArgs := do
  let reference ← argFile files t "reference"
  let target ← argFile files t "target"
  let numWraps ← argNat t "num_wraps" 1
  let bufferOrder ← argNat t "buffer_order" 26
  let initialRes ← argNat t "initial_res" 16
  let finalRes ← argNat t "final_res" 1
  let output ← argNat t "output" 0
  return {
    sendfiles := (argValue t "sendfiles").map dirs
    t1files := (argValue t "t1files").map dirs
    reference := reference
    target := target
    legacy := argFlag t "legacy"
    skipDuration := (argFloat t "skip_duration").getD 0
    firstEpoch := argValue t "first_epoch"
    skipEpochs := ((argValue t "skip_epochs").bind intOf).getD 0
    initialRes := initialRes
    bufferOrder := bufferOrder
    numWraps := numWraps
    separation := (argFloat t "separation").getD 6
    finalRes := finalRes
    threshold := (argFloat t "threshold").getD 6
    output := output
    precompEnable := argFlag t "precomp_enable"
    precompStart := (argFloat t "precomp_start").getD 0
    precompStep := (argFloat t "precomp_step").getD (fl 53 (1 / 10 ^ 7))
    precompStop := (argFloat t "precomp_stop").getD (fl 53 (1 / 10 ^ 5))
    precompOrdered := argFlag t "precomp_ordered"
    precompFullscan := argFlag t "precomp_fullscan" }

/-- `fpfind` with its command line, fpfind.py:424-677, if there is no configuration file: `--config` and `--save` are outside the
model, as are negative sizes and missing files, a resolution of zero (`ZeroDivisionError` in line 157) and a separation of zero
(line 242 divides by it, which gives NaN).  Without words, and with `-h`, the exit status is 1 (lines 547-551). -/
def fpCli (env : NumEnv) (fuel : Nat) (argv : List Word) (files : Files) (dirs : Word → EpochDir) :
    CliOut (Option (Except PyErr (Option (List Char)))) :=
  match argParse fpSpec argv with
  | .error _ => .exit 2
  | .ok t =>
    if argFlag t "config" ∨ argFlag t "save" then .outside
    else if argFlag t "help" ∨ argv = [] then .exit 1
    else match fpArgs files dirs t with
      | none => .outside
      | some a => if a.initialRes = 0 ∨ a.separation = 0 then .outside else .ran (fpMain env fuel a)

/-- The parser of `generate_freqcd_testcase`, generate_freqcd_testcase.py:74-78. -/
def genSpec : ArgSpec where
  opts := [
    ⟨["-h".toList, "--help".toList], .help, "help", false, anyText⟩,
    argStore ["-o"] "o" anyText,
    ⟨["-t".toList], .many, "t", false, isInt⟩,
    argSwitch ["-x"] "x"]
  pos := [⟨"infile", true⟩]

/-- `generate_freqcd_testcase` with its command line, generate_freqcd_testcase.py:74-145. -/
def genCli (fw : Nat) (argv : List Word) (tempname : List Char) (stdin : Bytes) (lines : List Typed) (w : World) :
    CliOut (World × Option PyErr) :=
  if argv = [] then .exit 1
  else match argParse genSpec argv with
    | .error .error => .exit 2
    | .error .help => .exit 0
    | .ok t => .ran (genMain fw {
        o := argValue t "o"
        t := (argLast t "t").map fun l => l.filterMap intOf
        x := argFlag t "x"
        infile := argValue t "infile" } tempname stdin lines w)

end Fp
