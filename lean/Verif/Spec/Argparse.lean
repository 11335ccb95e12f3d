import Verif.Model.Argparse
import Verif.Spec.Decimal

/-! # Specifications for command lines -/
namespace Fp.Spec

/-- A name of one letter, such as `-A`. -/
def ShortName (n : Word) (c : Char) : Prop := n = ['-', c] ∧ c ≠ '-' ∧ c ≠ '=' ∧ c ≠ '.' ∧ c.isDigit = false

/-- A long name, such as `--print`. -/
def LongName (n : Word) : Prop := ∃ r, n = '-' :: '-' :: r ∧ r ≠ [] ∧ '=' ∉ r

/-- A parser whose options have short and long names, all different. -/
structure GoodSpec (S : ArgSpec) : Prop where
  names : ∀ o ∈ S.opts, ∀ n ∈ o.names, (∃ c, ShortName n c) ∨ LongName n
  nodup : (S.opts.flatMap ArgOpt.names).Nodup

/-- A negative decimal number without exponent: `-` and digits, or `-`, digits (perhaps none), a point and digits. -/
def NegNumber (w : Word) : Prop :=
  ∃ I F : List Char, (∀ c ∈ I, c.isDigit = true) ∧ (∀ c ∈ F, c.isDigit = true) ∧
    ((w = '-' :: I ∧ I ≠ []) ∨ (w = '-' :: (I ++ '.' :: F) ∧ F ≠ []))

/-- A word that cannot be taken for an option: it does not begin with a dash, or is a single dash or a negative number. -/
def PlainWord (w : Word) : Prop := w.head? ≠ some '-' ∨ w = ['-'] ∨ NegNumber w

/-- What a user writes for an option: its name alone (`--print`), name and value in two words (`-A 1`, `--tfilter-start 1.5`), in one
word with `=` (`--tfilter-start=1.5`), or letters in one word, the last one perhaps with a value (`-A1`, `-Xp`, `-XpA1`). -/
inductive Setting
  | flag (o : ArgOpt) (name : Word)
  | pair (o : ArgOpt) (name value : Word)
  | equals (o : ArgOpt) (name value : Word)
  | letters (fs : List (ArgOpt × Char)) (o : ArgOpt) (c : Char) (value : Word)

/-- The words on the command line. -/
def Setting.words : Setting → List Word
  | .flag _ n => [n]
  | .pair _ n v => [n, v]
  | .equals _ n v => [n ++ '=' :: v]
  | .letters fs _ c v => ['-' :: (fs.map (·.2) ++ c :: v)]

/-- What is set: destinations and their values (none for options without value). -/
def Setting.sets : Setting → List (String × List Word)
  | .flag o _ => [(o.dest, [])]
  | .pair o _ v => [(o.dest, [v])]
  | .equals o _ v => [(o.dest, [v])]
  | .letters fs o _ v => fs.map (fun x => (x.1.dest, [])) ++ [(o.dest, if o.kind = .value then [v] else [])]

/-- A setting of options of the parser with values of the right type. -/
def Setting.Ok (S : ArgSpec) : Setting → Prop
  | .flag o n => o ∈ S.opts ∧ n ∈ o.names ∧ o.kind = .flag
  | .pair o n v => o ∈ S.opts ∧ n ∈ o.names ∧ o.kind = .value ∧ o.ok v = true ∧ PlainWord v
  | .equals o n v => o ∈ S.opts ∧ n ∈ o.names ∧ o.kind = .value ∧ o.ok v = true
  | .letters fs o c v =>
    (∀ x ∈ fs, x.1 ∈ S.opts ∧ ['-', x.2] ∈ x.1.names ∧ x.1.kind = .flag) ∧ o ∈ S.opts ∧ ['-', c] ∈ o.names ∧
      ((o.kind = .flag ∧ v = []) ∨ (o.kind = .value ∧ v ≠ [] ∧ v.head? ≠ some '=' ∧ o.ok v = true))

/-- All words of some settings. -/
def cmdWords (l : List Setting) : List Word := l.flatMap Setting.words

/-- Everything that is set, in order. -/
def cmdSets (l : List Setting) : List (String × List Word) := l.flatMap Setting.sets

/-- The value given last for a destination. -/
def lastSet (l : List Setting) (dest : String) : Option Word :=
  ((cmdSets l).reverse.find? fun x => x.1 = dest).bind fun x => x.2.head?

/-- Whether an option was given. -/
def Given (l : List Setting) (dest : String) : Prop := ∃ x ∈ cmdSets l, x.1 = dest

/-- A word that begins with a dash but is neither an option (in any of the forms above, or abbreviated) nor a number. -/
def Unknown (S : ArgSpec) (w : Word) : Prop :=
  (∃ c r, w = '-' :: c :: r ∧ ∀ o ∈ S.opts, ∀ n ∈ o.names, n ≠ ['-', c] ∧ ¬ w.takeWhile (· ≠ '=') <+: n) ∧
    ¬ NegNumber w ∧ w ≠ ['-', '-'] ∧ ' ' ∉ w ∧ '\n' ∉ w

/-- The text of a format of `parse_timestamps`. -/
def FmtText (v : Word) (f : Fmt) : Prop := (v = ['0'] ∧ f = .a0) ∨ (v = ['1'] ∧ f = .a1) ∨ (v = ['2'] ∧ f = .a2)

/-- A value given by a numeral: the double nearest to it; `d` if the option was not given. -/
def FloatSet (l : List Setting) (dest : String) (d y : Option ℚ) : Prop :=
  (lastSet l dest = none → y = d) ∧ ∀ v x, lastSet l dest = some v → Denotes v x → y = some (fl 53 x)

/-- A natural number given by digits; `d` if the option was not given. -/
def NatSet (l : List Setting) (dest : String) (d y : Option ℕ) : Prop :=
  (lastSet l dest = none → y = d) ∧ ∀ v n, lastSet l dest = some v → Digits v n → y = some n

/-- What the options of `parse_timestamps` ask for. -/
structure TsMeaning (l : List Setting) (a : TsArgs) : Prop where
  inFmt : ∃ v, lastSet l "A" = some v ∧ FmtText v a.inFmt
  outFmt : (lastSet l "a" = none ∧ a.outFmt = .a1) ∨ ∃ v, lastSet l "a" = some v ∧ FmtText v a.outFmt
  legacyIn : a.legacyIn = true ↔ Given l "X"
  legacyOut : a.legacyOut = true ↔ Given l "x"
  print : a.print = true ↔ Given l "print"
  pattern : NatSet l "pfilter_pattern" none a.filter.pattern
  mask : a.filter.mask = true ↔ Given l "pfilter_mask"
  invert : a.filter.invert = true ↔ Given l "pfilter_invert"
  start : FloatSet l "tfilter_start" none a.filter.start
  stop : FloatSet l "tfilter_end" none a.filter.stop
  inmemory : a.inmemory = true ↔ Given l "inmemory"

/-- The resolution and the separation given are not zero (`fpfind` divides by them). -/
def SizesNotZero (l : List Setting) : Prop :=
  (∀ v, lastSet l "initial_res" = some v → ¬ Digits v 0) ∧ ∀ x, FloatSet l "separation" (some 6) (some x) → x ≠ 0

/-- What the options of `fpfind` ask for, with the contents of the files and directories named; the resolution and the separation are
not zero. -/
structure FpMeaning (files : Files) (dirs : Word → EpochDir) (l : List Setting) (a : FpMainArgs) : Prop where
  sendfiles : a.sendfiles = (lastSet l "sendfiles").map dirs
  t1files : a.t1files = (lastSet l "t1files").map dirs
  reference : a.reference = (lastSet l "reference").bind files
  target : a.target = (lastSet l "target").bind files
  legacy : a.legacy = true ↔ Given l "legacy"
  skipDuration : FloatSet l "skip_duration" (some 0) (some a.skipDuration)
  firstEpoch : a.firstEpoch = lastSet l "first_epoch"
  skipEpochs : (lastSet l "skip_epochs" = none → a.skipEpochs = 0) ∧
    ∀ v n, lastSet l "skip_epochs" = some v → Digits v n → a.skipEpochs = n
  initialRes : NatSet l "initial_res" (some 16) (some a.initialRes)
  bufferOrder : NatSet l "buffer_order" (some 26) (some a.bufferOrder)
  numWraps : NatSet l "num_wraps" (some 1) (some a.numWraps)
  separation : FloatSet l "separation" (some 6) (some a.separation)
  finalRes : NatSet l "final_res" (some 1) (some a.finalRes)
  threshold : FloatSet l "threshold" (some 6) (some a.threshold)
  output : NatSet l "output" (some 0) (some a.output)
  precompEnable : a.precompEnable = true ↔ Given l "precomp_enable"
  precompStart : FloatSet l "precomp_start" (some 0) (some a.precompStart)
  precompStep : FloatSet l "precomp_step" (some (fl 53 (1 / 10 ^ 7))) (some a.precompStep)
  precompStop : FloatSet l "precomp_stop" (some (fl 53 (1 / 10 ^ 5))) (some a.precompStop)
  precompOrdered : a.precompOrdered = true ↔ Given l "precomp_ordered"
  precompFullscan : a.precompFullscan = true ↔ Given l "precomp_fullscan"
  sizes : a.initialRes ≠ 0 ∧ a.separation ≠ 0

end Fp.Spec
