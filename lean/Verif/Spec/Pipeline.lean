import Verif.Model.FpText

/-! # C124: the error that fpfind leaves -/
namespace Fp.Spec

/-- The error left at reference time `t`, in ns, by a run of fpfind that ended after `k` refinements, with windows `sep` apart, times
up to `B` and a spread `δ` of the coincidences: the final resolution and the spread, growing with the distance in time, and rounding. -/
def pipelineError (args : FpMainArgs) (sep B δ : ℚ) (k : Nat) (t : ℚ) : ℚ :=
  (args.finalRes + δ + 2 ^ args.bufferOrder * args.finalRes / 2 ^ 50 + (k + 1) * (B + (k + 1) * (101 * 10 ^ 6)) / 2 ^ 49 +
    2 * (args.finalRes + δ + 2 ^ args.bufferOrder * args.finalRes / 2 ^ 50 + (k + 1) * (B + (k + 1) * (101 * 10 ^ 6)) / 2 ^ 49) * (t / sep)) *
      (1 + 1 / 2 ^ 10) + 4 * ((k + 1) * (B + (k + 1) * (101 * 10 ^ 6)) / 2 ^ 49)

end Fp.Spec
