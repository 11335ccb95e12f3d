import Verif.Model.FpText

/-! # Which options of `fpfind` matter -/
namespace Fp.Spec

/-- The same events are asked for: from the same epochs, if both directories are given (whatever timestamp files are named), otherwise
from the same timestamp files (whatever is said about epochs). -/
def SameEvents (a a' : FpMainArgs) : Prop :=
  (∃ d1 d2, a.sendfiles = some d1 ∧ a'.sendfiles = some d1 ∧ a.t1files = some d2 ∧ a'.t1files = some d2 ∧ a.firstEpoch = a'.firstEpoch ∧
    a.skipEpochs = a'.skipEpochs) ∨
  ((a.sendfiles = none ∨ a.t1files = none) ∧ (a'.sendfiles = none ∨ a'.t1files = none) ∧
    ((∃ A B, a.reference = some A ∧ a'.reference = some A ∧ a.target = some B ∧ a'.target = some B ∧ a.legacy = a'.legacy ∧
      a.skipDuration = a'.skipDuration) ∨
     ((a.reference = none ∨ a.target = none) ∧ (a'.reference = none ∨ a'.target = none))))

/-- The same search is asked for: precompensations matter if they are enabled. -/
def SameSearch (a a' : FpMainArgs) : Prop :=
  a.initialRes = a'.initialRes ∧ a.bufferOrder = a'.bufferOrder ∧ a.numWraps = a'.numWraps ∧ a.separation = a'.separation ∧
  a.finalRes = a'.finalRes ∧ a.threshold = a'.threshold ∧ a.precompFullscan = a'.precompFullscan ∧ a.precompEnable = a'.precompEnable ∧
  (a.precompEnable = true → a.precompStart = a'.precompStart ∧ a.precompStop = a'.precompStop ∧ a.precompStep = a'.precompStep ∧
    a.precompOrdered = a'.precompOrdered)

end Fp.Spec
