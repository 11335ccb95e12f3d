import Verif.Spec.Shell
import Verif.Spec.EpochRaw
import Verif.Spec.FpMain

/-! # Specifications for `fpfind` called with directories of epochs -/
namespace Fp.Spec

/-- The directory has the files of the epochs `vs` of a stream of events, and no others. -/
def StreamDir (d : EpochDir) (isT1 : Bool) (evs : List (Nat × Nat)) (vs : List Nat) : Prop :=
  d.names = vs.map (fun v : Nat => int2epoch (v : Int)) ∧ (∀ v ∈ vs, v < 2 ^ 32 ∧ d.file (int2epoch (v : Int)) ≠ none) ∧
    ∀ name file, d.file name = some file → ∃ v ∈ vs, name = int2epoch (v : Int) ∧ if isT1 then IsT1 v evs file else IsT2 v evs file

/-- Two command lines of `fpfind` with the same options, except for those that say where the events come from. -/
def SameOptions (l l' : List Setting) : Prop :=
  (∀ d ∈ ["first_epoch", "skip_epochs", "initial_res", "buffer_order", "num_wraps", "separation", "final_res", "threshold", "output",
    "precomp_start", "precomp_step", "precomp_stop"], lastSet l' d = lastSet l d) ∧
  ∀ d ∈ ["precomp_enable", "precomp_ordered", "precomp_fullscan"], (Given l' d ↔ Given l d)

end Fp.Spec
