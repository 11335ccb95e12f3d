import Verif.Spec.Argparse

/-! # Specifications for programs called from the shell -/
namespace Fp.Spec

/-- If the option was given, its value is written as a numeral. -/
def GivenNumeral (l : List Setting) (dest : String) : Prop := ∀ v, lastSet l dest = some v → ∃ x, Denotes v x

/-- If the option was given, its value is written with digits. -/
def GivenDigits (l : List Setting) (dest : String) : Prop := ∀ v, lastSet l dest = some v → ∃ n, Digits v n

/-- The filters that the options ask for. -/
structure FilterMeaning (l : List Setting) (F : FilterArgs) : Prop where
  pattern : NatSet l "pfilter_pattern" none F.pattern
  mask : F.mask = true ↔ Given l "pfilter_mask"
  invert : F.invert = true ↔ Given l "pfilter_invert"
  start : FloatSet l "tfilter_start" none F.start
  stop : FloatSet l "tfilter_end" none F.stop
  whole : GivenDigits l "pfilter_pattern"
  numerals : GivenNumeral l "tfilter_start" ∧ GivenNumeral l "tfilter_end"

/-- The format of the input file. -/
def InFormat (l : List Setting) (f : Fmt) (legacy : Bool) : Prop :=
  (∃ v, lastSet l "A" = some v ∧ FmtText v f) ∧ (legacy = true ↔ Given l "X")

/-- The format of the output file. -/
def OutFormat (l : List Setting) (f : Fmt) (legacy : Bool) : Prop :=
  ((lastSet l "a" = none ∧ f = .a1) ∨ ∃ v, lastSet l "a" = some v ∧ FmtText v f) ∧ (legacy = true ↔ Given l "x")

/-- What `fpfind` prints when it is called: `r` is the outcome, given enough time. -/
def FpPrints (env : NumEnv) (words : List Word) (files : Files) (dirs : Word → EpochDir) (r : Except PyErr (Option (List Char))) : Prop :=
  ∃ N, ∀ fuel, N ≤ fuel → fpCli env fuel words files dirs = .ran (some r)

/-- A call of `fpfind` within the model. -/
structure FpCall (files : Files) (l : List Setting) : Prop where
  some_ : l ≠ []
  ok : ∀ s ∈ l, s.Ok fpSpec
  inside : ∀ d ∈ ["help", "config", "save"], ¬ Given l d
  digits : ∀ d ∈ ["num_wraps", "buffer_order", "initial_res", "final_res", "output", "skip_epochs"], GivenDigits l d
  numerals : ∀ d ∈ ["skip_duration", "separation", "threshold", "precomp_start", "precomp_step", "precomp_stop"], GivenNumeral l d
  files : ∀ d ∈ ["reference", "target"], ∀ v, lastSet l d = some v → (files v).isSome = true
  sizes : SizesNotZero l

end Fp.Spec
