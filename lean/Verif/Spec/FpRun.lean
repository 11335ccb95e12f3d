import Verif.Model.FpText
import Verif.Spec.Epoch

/-! # Specification of a run of fpfind -/
namespace Fp.Spec

/-- What the command line asks the search to do for reference times `a` and target times `b`: 2^q bins, correlations of length
resolution · bins · wraps, the second one later by the given multiple of this length. -/
def searchParams (env : NumEnv) (args : FpMainArgs) (a b : List ℚ) : TFParams where
  ats := a
  numBins := 2 ^ args.bufferOrder
  target := args.finalRes
  threshold := args.threshold
  sep := env.rnd (args.separation * env.rnd ((args.initialRes * 2 ^ args.bufferOrder * args.numWraps : Nat) : ℚ))
  duration := ((args.initialRes * 2 ^ args.bufferOrder * args.numWraps : Nat) : ℚ)
  endTime := min (a.getLastD 0) (b.getLastD 0)
  rnd := env.rnd
  rndA := env.rndA
  xcorr := env.xcorr
  signif := env.signif

/-- The search (`time_freq`) for reference times `a` and target times `b` ends with `r`. -/
def Search (env : NumEnv) (args : FpMainArgs) (a b : List ℚ) (r : TFResult) : Prop :=
  Returns (fun fuel => timeFreq (searchParams env args a b) fuel b args.initialRes) r

/-- Target times after a frequency precompensation `d`. -/
def precompensated (env : NumEnv) (d : ℚ) (b : List ℚ) : List ℚ := b.map fun t => env.rndA (env.rndA t / env.rnd (1 + d))

/-- The precompensations to be tried. -/
def precs (env : NumEnv) (args : FpMainArgs) : List ℚ :=
  if args.precompEnable = true then
    generatePrecompensations env.rnd args.precompStart args.precompStop args.precompStep args.precompOrdered
  else [0]

/-- The normalised times of the reference and of the target, both not empty. -/
def Input (env : NumEnv) (args : FpMainArgs) (a b : List ℚ) : Prop :=
  Returns (fun fuel => mainInput env.rnd env.rndA fuel args.toFpArgs) (.ok (some [a, b])) ∧ a ≠ [] ∧ b ≠ []

end Fp.Spec
