import Verif.Spec.FpAccuracy
import Verif.Spec.FpRounded

/-! # Specification of two runs with reference and target exchanged -/
namespace Fp.Spec

/-- A run of `time_freq` returned (dt, df), and in its last iteration both delays were those of a target clock with relative
frequency offset `φ` and offset `τ` (as corrected before) up to `ε`.  `R` bounds the rounding errors of the run. -/
def FoundWithin (P : TFParams) (bts : List ℚ) (res φ τ ε R dt df : ℚ) : Prop :=
  ∃ (trace : List TFEntry) (e : TFEntry) (B : ℚ),
    Returns (fun fuel => timeFreq P fuel bts res) (.ok (dt, df, trace ++ [e])) ∧ trace.length + 1 ≤ 2 ^ 35 ∧
    R = (trace.length + 1) * (B + (trace.length + 1) * (101 * 10 ^ 6)) / 2 ^ 49 ∧
    |targetClock φ τ 0| ≤ B ∧ |targetClock φ τ P.sep| ≤ B ∧
    |e.dt1 - composedR P.rnd P.rndA trace (targetClock φ τ 0)| ≤ ε ∧
    |e.dt1 + e.df1 * P.sep - (composedR P.rnd P.rndA trace (targetClock φ τ P.sep) - P.sep)| ≤ ε

/-- The two clocks seen from each other: the reference as a function of the target. -/
def InverseClocks (φ τ φ' τ' : ℚ) : Prop := ∀ a, targetClock φ' τ' (targetClock φ τ a) = a

end Fp.Spec
