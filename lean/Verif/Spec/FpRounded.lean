import Verif.Spec.FpFind

/-! # Specification for the rounding errors of the compensation search -/
namespace Fp.Spec

/-- All corrections of a history, one after the other, in rounded arithmetic: scalars with `rnd`, timestamps with `rndA`. -/
def composedR (rnd rndA : ℚ → ℚ) (trace : List TFEntry) (t : ℚ) : ℚ :=
  trace.foldl (fun t e => rndA (rndA (t - e.dt1) / rnd (1 + e.df1))) t

end Fp.Spec
