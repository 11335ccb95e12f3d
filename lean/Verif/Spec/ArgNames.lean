import Verif.Spec.Argparse

/-! # Specifications for the names of options -/
namespace Fp.Spec

/-- Types of values. -/
inductive ValueType
  | none
  | text
  | whole
  | number
  | format
  | output

/-- Whether words are accepted as values of a type: any text; whole numbers, but nothing with other characters than digits and signs;
numerals, but nothing without a digit; the formats 0, 1 and 2; numbers below 16. -/
def Accepts (ok : Word → Bool) : ValueType → Prop
  | .none => True
  | .text => ∀ v, ok v = true
  | .whole => (∀ v n, v ≠ [] → Digits v n → ok v = true) ∧ ∀ v, ok v = true → v ≠ [] ∧ ∀ c ∈ v, c.isDigit = true ∨ c = '+' ∨ c = '-'
  | .number => (∀ v x, Denotes v x → ok v = true) ∧ ∀ v, ok v = true → ∃ c ∈ v, c.isDigit = true
  | .format => ∀ v, ok v = true ↔ ∃ f, FmtText v f
  | .output => ∀ v n, v ≠ [] → Digits v n → (ok v = true ↔ n < 16)

/-- A row of a table of options: names, what is set, kind of option, whether it is required, type of its value. -/
structure OptRow where
  names : List String
  dest : String
  kind : ArgKind
  required : Bool
  type : ValueType

/-- An option as in a row. -/
def OptRow.Is (o : ArgOpt) (r : OptRow) : Prop :=
  o.names = r.names.map String.toList ∧ o.dest = r.dest ∧ o.kind = r.kind ∧ o.required = r.required ∧ Accepts o.ok r.type

/-- The options of `parse_timestamps`, as its help lists them. -/
def tsTable : List OptRow := [
  ⟨["-h", "--help"], "help", .help, false, .none⟩,
  ⟨["-A"], "A", .value, true, .format⟩,
  ⟨["-X"], "X", .flag, false, .none⟩,
  ⟨["-a"], "a", .value, false, .format⟩,
  ⟨["-x"], "x", .flag, false, .none⟩,
  ⟨["-p", "--print"], "print", .flag, false, .none⟩,
  ⟨["-q", "--quiet"], "quiet", .flag, false, .none⟩,
  ⟨["--pfilter-pattern"], "pfilter_pattern", .value, false, .whole⟩,
  ⟨["--pfilter-mask"], "pfilter_mask", .flag, false, .none⟩,
  ⟨["--pfilter-invert"], "pfilter_invert", .flag, false, .none⟩,
  ⟨["--tfilter-start"], "tfilter_start", .value, false, .number⟩,
  ⟨["--tfilter-end"], "tfilter_end", .value, false, .number⟩,
  ⟨["--inmemory"], "inmemory", .flag, false, .none⟩]

/-- The options that `fpfind` and `fpplot` have in common: help and logging, and the input. -/
def commonTable : List OptRow := [
  ⟨["-h", "--help"], "help", .flag, false, .none⟩,
  ⟨["-v", "--verbosity"], "verbosity", .flag, false, .none⟩,
  ⟨["-L", "--logging"], "logging", .value, false, .text⟩,
  ⟨["--quiet"], "quiet", .flag, false, .none⟩,
  ⟨["--config"], "config", .value, false, .text⟩,
  ⟨["--save"], "save", .value, false, .text⟩,
  ⟨["--experiment"], "experiment", .flag, false, .none⟩,
  ⟨["-t", "--reference"], "reference", .value, false, .text⟩,
  ⟨["-T", "--target"], "target", .value, false, .text⟩,
  ⟨["-X", "--legacy"], "legacy", .flag, false, .none⟩,
  ⟨["-Z", "--skip-duration"], "skip_duration", .value, false, .number⟩,
  ⟨["-d", "--sendfiles"], "sendfiles", .value, false, .text⟩,
  ⟨["-D", "--t1files"], "t1files", .value, false, .text⟩,
  ⟨["-e", "--first-epoch"], "first_epoch", .value, false, .text⟩]

/-- The options of `fpfind`. -/
def fpTable : List OptRow := commonTable ++ [
  ⟨["-z", "--skip-epochs"], "skip_epochs", .value, false, .whole⟩,
  ⟨["-k", "--num-wraps"], "num_wraps", .value, false, .whole⟩,
  ⟨["-q", "--buffer-order"], "buffer_order", .value, false, .whole⟩,
  ⟨["-R", "--initial-res"], "initial_res", .value, false, .whole⟩,
  ⟨["-r", "--final-res"], "final_res", .value, false, .whole⟩,
  ⟨["-s", "--separation"], "separation", .value, false, .number⟩,
  ⟨["-S", "--threshold"], "threshold", .value, false, .number⟩,
  ⟨["-V", "--output"], "output", .value, false, .output⟩,
  ⟨["-P", "--precomp-enable"], "precomp_enable", .flag, false, .none⟩,
  ⟨["--precomp-start"], "precomp_start", .value, false, .number⟩,
  ⟨["--precomp-step"], "precomp_step", .value, false, .number⟩,
  ⟨["--precomp-stop"], "precomp_stop", .value, false, .number⟩,
  ⟨["--precomp-ordered"], "precomp_ordered", .flag, false, .none⟩,
  ⟨["--precomp-fullscan"], "precomp_fullscan", .flag, false, .none⟩]

/-- The options of `fpplot`. -/
def plotTable : List OptRow := commonTable ++ [
  ⟨["-n", "--num-epochs"], "num_epochs", .value, false, .whole⟩,
  ⟨["-z", "--skip-epochs"], "skip_epochs", .value, false, .whole⟩,
  ⟨["--freq"], "freq", .value, false, .number⟩,
  ⟨["--time"], "time", .value, false, .number⟩,
  ⟨["--width"], "width", .value, false, .number⟩,
  ⟨["--duration"], "duration", .value, false, .number⟩,
  ⟨["--save-plot"], "save_plot", .value, false, .text⟩]

/-- The options of `generate_freqcd_testcase`. -/
def genTable : List OptRow := [
  ⟨["-h", "--help"], "help", .help, false, .none⟩,
  ⟨["-o"], "o", .value, false, .text⟩,
  ⟨["-t"], "t", .many, false, .whole⟩,
  ⟨["-x"], "x", .flag, false, .none⟩]

/-- A word of option letters in which some options without value are followed by a letter that is no option, such as `-Xk`. -/
def UnknownLetter (S : ArgSpec) (w : Word) : Prop :=
  ∃ (fs : List (ArgOpt × Char)) (c : Char) (r : Word), w = '-' :: (fs.map (·.2) ++ c :: r) ∧ fs ≠ [] ∧
    (∀ x ∈ fs, x.1 ∈ S.opts ∧ ['-', x.2] ∈ x.1.names ∧ x.1.kind = .flag) ∧ c ≠ '=' ∧ ∀ o ∈ S.opts, ['-', c] ∉ o.names

end Fp.Spec
