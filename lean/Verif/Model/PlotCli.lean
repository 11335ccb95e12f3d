import Verif.Model.Argparse
import Verif.Model.Plot

/-!
# Model of the command line of `fpplot`

The parser is that of `src/fpfind/fpplot.py`, read by the model of argparse.  The functions of the package `boiler` that print the help
and set up logging are not part of the repository: calls without words or with `-h`, `--config`, `--save` or `--experiment` are outside
the model, as are missing files.
-/
namespace Fp

/-- The parser of `fpplot`, fpplot.py:48-124. -/
def plotSpec : ArgSpec where
  opts := [
    argSwitch ["-h", "--help"] "help",
    argSwitch ["-v", "--verbosity"] "verbosity",
    argStore ["-L", "--logging"] "logging" anyText,
    argSwitch ["--quiet"] "quiet",
    argStore ["--config"] "config" anyText,
    argStore ["--save"] "save" anyText,
    argSwitch ["--experiment"] "experiment",
    argStore ["-t", "--reference"] "reference" anyText,
    argStore ["-T", "--target"] "target" anyText,
    argSwitch ["-X", "--legacy"] "legacy",
    argStore ["-Z", "--skip-duration"] "skip_duration" isFloat,
    argStore ["-d", "--sendfiles"] "sendfiles" anyText,
    argStore ["-D", "--t1files"] "t1files" anyText,
    argStore ["-e", "--first-epoch"] "first_epoch" anyText,
    argStore ["-n", "--num-epochs"] "num_epochs" isInt,
    argStore ["-z", "--skip-epochs"] "skip_epochs" isInt,
    argStore ["--freq"] "freq" isFloat,
    argStore ["--time"] "time" isFloat,
    argStore ["--width"] "width" isFloat,
    argStore ["--duration"] "duration" isFloat,
    argStore ["--save-plot"] "save_plot" anyText]
  pos := []

/-- `args` of `main`, fpplot.py:127, with the contents of the files and directories named. -/
def plotArgs (files : Files) (dirs : Word → EpochDir) (t : List (String × List Word)) : Option PlotArgs := do
  let reference ← argFile files t "reference"
  let target ← argFile files t "target"
  return {
    sendfiles := (argValue t "sendfiles").map dirs
    t1files := (argValue t "t1files").map dirs
    reference := reference
    target := target
    legacy := argFlag t "legacy"
    skipDuration := (argFloat t "skip_duration").getD 0
    firstEpoch := argValue t "first_epoch"
    numEpochs := ((argValue t "num_epochs").bind intOf).getD 1
    skipEpochs := ((argValue t "skip_epochs").bind intOf).getD 0
    freq := (argFloat t "freq").getD 0
    time := (argFloat t "time").getD 0
    duration := argFloat t "duration" }

/-- `fpplot` with its command line, fpplot.py:46-176: the arrays that are given to `histogram`. -/
def plotCli (rnd rndA : ℚ → ℚ) (fuel : Nat) (argv : List Word) (files : Files) (dirs : Word → EpochDir) :
    CliOut (Option (Except PyErr (Option (List ℚ × List ℚ)))) :=
  match argParse plotSpec argv with
  | .error _ => .exit 2
  | .ok t =>
    if argFlag t "config" ∨ argFlag t "save" ∨ argFlag t "help" ∨ argFlag t "experiment" ∨ argv = [] then .outside
    else match plotArgs files dirs t with
      | none => .outside
      | some a => .ran (plotArrays rnd rndA fuel a)

end Fp
