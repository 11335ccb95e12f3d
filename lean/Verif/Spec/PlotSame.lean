import Verif.Spec.PlotCli
import Verif.Spec.ConvertRun

/-! # Specifications for `fpplot` on timestamp files -/
namespace Fp.Spec

/-- `fpplot OPTIONS` on two timestamp files with the events `a` (reference) and `b` (target). -/
structure PlotOn (files : Files) (l : List Setting) (a b : List (Nat × Nat)) : Prop where
  call : PlotCall files l
  files : ∃ A B x, lastSet l "reference" = some A ∧ lastSet l "target" = some B ∧ (x = true ↔ Given l "legacy") ∧
    files A = some (fileOf .a1 x a) ∧ files B = some (fileOf .a1 x b)
  nodirs : lastSet l "sendfiles" = none ∧ lastSet l "t1files" = none
  valid : ∀ e ∈ a ++ b, Valid e

end Fp.Spec
