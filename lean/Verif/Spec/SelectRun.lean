import Verif.Spec.ConvertRun

/-! # Specifications for selections before and after a correction -/
namespace Fp.Spec

/-- Filters for detectors only. -/
def Untimed (F : FilterArgs) : Prop := F.start = none ∧ F.stop = none

/-- No filters at all. -/
def Keeps (F : FilterArgs) : Prop := F.pattern = none ∧ Untimed F

/-- The events `e` and `e'` have the same detectors, and `e'` is later by `shift` up to `err`, in units of 4 ps (modulo the range of times). -/
def ShiftedEvent (shift err : ℚ) (e e' : ℕ × ℕ) : Prop :=
  e'.2 = e.2 ∧ ∃ c : ℤ, (e'.1 : ℤ) = (e.1 + c) % 2 ^ 54 ∧ |(c : ℚ) - shift| ≤ err

/-- The time of the first event. -/
def firstTime (l : List (ℕ × ℕ)) : ℕ := (l.head?.map Prod.fst).getD 0

/-- The number of blocks of 1024 events. -/
def blocksOf (l : List (ℕ × ℕ)) : ℕ := (l.length + 1023) / 1024

end Fp.Spec
