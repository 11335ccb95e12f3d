import Verif.Spec.PlotSame
import Verif.Spec.Epoch

/-! # Specifications for epoch directories compared with timestamp files -/
namespace Fp.Spec

/-- The T2 file of epoch `e` holds events at the times `ts` (in units of 1/256 ns from the last multiple of 2^17 epochs). -/
def HoldsT2 (d : EpochDir) (e : ℕ) (ts : List ℕ) : Prop :=
  ∃ tag len tw bb proto es body, d.file (int2epoch (e : ℤ)) = some (t2File tag e len tw bb proto body) ∧
    (tag < 2 ^ 32 ∧ e < 2 ^ 32 ∧ len < 2 ^ 32 ∧ 1 ≤ tw ∧ tw ≤ 32 ∧ bb ≤ 32 ∧ proto < 2 ^ 32) ∧ (∀ x ∈ es, Entry.Ok tw bb x) ∧
    (len = 0 ∨ len = es.length) ∧ Starts body (es.flatMap (Entry.bits tw bb) ++ terminator tw bb) ∧
    ts = (runningSums (e % 2 ^ 17 * 2 ^ 32) es).map (fun x => 32 * x.1) ∧ ∀ t ∈ ts, t < 2 ^ 54

/-- The T1 file of epoch `e` holds events at the times `ts` (likewise). -/
def HoldsT1 (d : EpochDir) (e : ℕ) (ts : List ℕ) : Prop :=
  ∃ evs, d.file (int2epoch (e : ℤ)) = some (t1File e evs) ∧ e < 2 ^ 32 ∧ (∀ x ∈ evs, T1Valid x ∧ ¬ ZeroEvent e x) ∧ evs.length < 2 ^ 32 ∧
    ts = evs.map fun x => t1Time e x.1

/-- The epochs `first` to `first + num - 1` of the two directories hold the times `ta` and `tb`. -/
def EpochsHold (d1 d2 : EpochDir) (first num : ℕ) (ta tb : List ℕ) : Prop :=
  ∃ xs ys : ℕ → List ℕ, (∀ i < num, HoldsT2 d1 (first + i) (xs i) ∧ HoldsT1 d2 (first + i) (ys i)) ∧
    ta = (List.range num).flatMap xs ∧ tb = (List.range num).flatMap ys

/-- The first epoch in both directories that is not before the one asked for is `m`. -/
def FirstCommon (d1 d2 : EpochDir) (first : Option Word) (m : ℕ) : Prop :=
  ∃ e1 e2 f, EpochsOf d1.names e1 ∧ EpochsOf d2.names e2 ∧ first.map epoch2int = f.map Except.ok ∧ IsLeast {v | Common e1 e2 f v} (m : ℤ)

end Fp.Spec
