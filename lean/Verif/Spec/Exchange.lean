import Verif.Spec.Pipeline

/-! # C125: exchanging the two recordings -/
namespace Fp.Spec

/-- The same call with the recordings of reference and target exchanged. -/
def exchangedFiles (args : FpMainArgs) : FpMainArgs := { args with reference := args.target, target := args.reference }

/-- The error of the printed correction at reference time `t`: that of the search, and the time is printed as a whole number. -/
def printedError (args : FpMainArgs) (sep B δ : ℚ) (k : Nat) (t : ℚ) : ℚ := pipelineError args sep B δ k t + (1 / 2 + 1 / 2 ^ 8)

end Fp.Spec
