import Verif.Model.FpFind

/-! # Specification of the windows a result of fpfind rests on -/
namespace Fp.Spec

/-- There is an event in the window of length `dur` from `start` on; times relative to the start are rounded by `rnd`. -/
def EventsIn (rnd : ℚ → ℚ) (ts : List ℚ) (start dur : ℚ) : Prop := ∃ t ∈ ts, 0 ≤ rnd (t - start) ∧ rnd (t - start) < dur

/-- Both sides have events in both windows of length `dur`, which is at most twice the duration asked for. -/
def WindowsFilled (P : TFParams) (bts : List ℚ) (dur : ℚ) : Prop :=
  dur ≤ 2 * P.duration * (1 + 1 / 2 ^ 40) ∧
    EventsIn P.rndA P.ats 0 dur ∧ EventsIn P.rndA bts 0 dur ∧ EventsIn P.rndA P.ats P.sep dur ∧ EventsIn P.rndA bts P.sep dur

end Fp.Spec
