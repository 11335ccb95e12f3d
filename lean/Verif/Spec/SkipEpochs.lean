import Verif.Spec.PlotSame
import Verif.Spec.Epoch

/-! # Specifications for skipped epochs -/
namespace Fp.Spec

/-- Two command lines about the same epoch directories `S` and `T`; the first one skips `k` epochs, the second one skips none and begins at
the epoch named `w`.  All other options are the same. -/
structure SkipAndStart (l l' : List Setting) (S T w : Word) (k : ℕ) : Prop where
  same : SameApart ["first_epoch", "skip_epochs"] l l'
  dirs : lastSet l "sendfiles" = some S ∧ lastSet l "t1files" = some T
  skips : ∃ v, lastSet l "skip_epochs" = some v ∧ Digits v k
  none : ∀ v, lastSet l' "skip_epochs" = some v → Digits v 0
  starts : lastSet l' "first_epoch" = some w

/-- The first epoch in both directories (not before the one asked for) is `m`, and the epoch `k` later is in both directories, too. -/
structure CommonStart (d1 d2 : EpochDir) (first : Option Word) (m k : ℕ) : Prop where
  epochs : ∃ e1 e2 f, EpochsOf d1.names e1 ∧ EpochsOf d2.names e2 ∧ first.map epoch2int = f.map Except.ok ∧
    IsLeast {v | Common e1 e2 f v} (m : ℤ) ∧ ((m + k : ℕ) : ℤ) ∈ e1 ∧ ((m + k : ℕ) : ℤ) ∈ e2

end Fp.Spec
