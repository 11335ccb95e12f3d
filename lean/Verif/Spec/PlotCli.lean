import Verif.Model.PlotCli
import Verif.Spec.Shell

/-! # Specifications for `fpplot` called from the shell -/
namespace Fp.Spec

/-- What the options of `fpplot` ask for, with the contents of the files and directories named. -/
structure PlotMeaning (files : Files) (dirs : Word → EpochDir) (l : List Setting) (a : PlotArgs) : Prop where
  sendfiles : a.sendfiles = (lastSet l "sendfiles").map dirs
  t1files : a.t1files = (lastSet l "t1files").map dirs
  reference : a.reference = (lastSet l "reference").bind files
  target : a.target = (lastSet l "target").bind files
  legacy : a.legacy = true ↔ Given l "legacy"
  skipDuration : FloatSet l "skip_duration" (some 0) (some a.skipDuration)
  firstEpoch : a.firstEpoch = lastSet l "first_epoch"
  numEpochs : (lastSet l "num_epochs" = none → a.numEpochs = 1) ∧ ∀ v n, lastSet l "num_epochs" = some v → Digits v n → a.numEpochs = n
  skipEpochs : (lastSet l "skip_epochs" = none → a.skipEpochs = 0) ∧
    ∀ v n, lastSet l "skip_epochs" = some v → Digits v n → a.skipEpochs = n
  freq : FloatSet l "freq" (some 0) (some a.freq)
  time : FloatSet l "time" (some 0) (some a.time)
  duration : FloatSet l "duration" none a.duration

/-- A call of `fpplot` within the model: options of the program with proper values, none of those left out, existing files. -/
structure PlotCall (files : Files) (l : List Setting) : Prop where
  some_ : l ≠ []
  ok : ∀ s ∈ l, s.Ok plotSpec
  inside : ∀ d ∈ ["help", "config", "save", "experiment"], ¬ Given l d
  digits : ∀ d ∈ ["num_epochs", "skip_epochs"], GivenDigits l d
  numerals : ∀ d ∈ ["skip_duration", "freq", "time", "duration"], GivenNumeral l d
  files : ∀ d ∈ ["reference", "target"], ∀ v, lastSet l d = some v → (files v).isSome = true

/-- The same options about the events in a call of `fpfind` and in one of `fpplot`. -/
def SameSource (l l' : List Setting) : Prop :=
  (∀ d ∈ ["sendfiles", "t1files", "reference", "target", "skip_duration", "first_epoch", "skip_epochs"], lastSet l' d = lastSet l d) ∧
  (Given l' "legacy" ↔ Given l "legacy")

/-- The arrays (reference and corrected target) that `fpplot` makes a histogram of. -/
def PlotShows (rnd rndA : ℚ → ℚ) (words : List Word) (files : Files) (dirs : Word → EpochDir)
    (r : Except PyErr (Option (List ℚ × List ℚ))) : Prop :=
  ∃ N, ∀ fuel, N ≤ fuel → plotCli rnd rndA fuel words files dirs = .ran (some r)

end Fp.Spec
