import Verif.Model.FpText
import Verif.Spec.Raw

/-! # Specification of the input of fpfind in terms of events -/
namespace Fp.Spec

/-- A command line for two timestamp files with the given events. -/
def rawArgs (args : FpMainArgs) (legacy : Bool) (a b : List (Nat × Nat)) : FpMainArgs :=
  { args with
    sendfiles := none
    t1files := none
    legacy := legacy
    reference := some (a.flatMap (a1Event legacy))
    target := some (b.flatMap (a1Event legacy)) }

/-- The times in ns of events of a timestamp file. -/
def nsTimes (l : List (Nat × Nat)) : List ℚ := l.map fun e => (e.1 : ℚ) / 256

end Fp.Spec
