import Verif.Model.Plot

/-! # Specification for fpplot -/
namespace Fp.Spec

/-- The same files and options for both programs, where they exist in both. -/
def SameInput (A : FpArgs) (B : PlotArgs) : Prop :=
  B.sendfiles = A.sendfiles ∧ B.t1files = A.t1files ∧ B.reference = A.reference ∧ B.target = A.target ∧ B.legacy = A.legacy ∧
    B.skipDuration = A.skipDuration ∧ B.firstEpoch = A.firstEpoch ∧ B.skipEpochs = A.skipEpochs

/-- The time is within the duration (in ns), if there is one. -/
def Within (duration : Option ℚ) (t : ℚ) : Prop := ∀ d, duration = some d → t < d

instance (duration : Option ℚ) (t : ℚ) : Decidable (Within duration t) := by
  unfold Within
  cases duration with
  | none => exact isTrue (by simp)
  | some d => exact decidable_of_iff (t < d) (by simp)

end Fp.Spec
