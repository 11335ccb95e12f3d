import Verif.Model.UtilsMore
import Verif.Spec.Utils

/-! # Specifications for the largest peaks and the further statistics -/
namespace Fp.Spec

/-- What numpy promises about `argpartition`: all positions once each, and no value before position `j` is larger than
a value from there on. -/
def IsPartition {α : Type} [LinearOrder α] (l : List α) (j : Nat) (idx : List Nat) : Prop :=
  idx.Perm (List.range l.length) ∧
    ∀ a b : Nat, a < j → j ≤ b → ∀ x y : Nat, idx[a]? = some x → idx[b]? = some y → ∀ u v, l[x]? = some u → l[y]? = some v → u ≤ v

/-- What numpy promises about `argsort`: all positions once each, in increasing order of the values. -/
def IsArgsort {α : Type} [LinearOrder α] (l : List α) (idx : List Nat) : Prop :=
  idx.Perm (List.range l.length) ∧ idx.Pairwise fun x y => ∀ u v, l[x]? = some u → l[y]? = some v → u ≤ v

/-- Any implementation of both. -/
def SorterOk {α : Type} [LinearOrder α] (S : Sorter α) : Prop :=
  (∀ l j, j < l.length → IsPartition l j (S.part l j)) ∧ ∀ l, IsArgsort l (S.sort l)

/-- `(d1, d2)` are the two readings of bin `p` of `n` bins as a delay, the one nearer to zero first. -/
def DelaysOf (n : Nat) (res : ℚ) (p : Nat) (d1 d2 : ℚ) : Prop :=
  SameDelay (n * res) d1 (p * res) ∧ SameDelay (n * res) d2 (p * res) ∧ |d1| ≤ |d2| ∧ |d1| ≤ n * res / 2 ∧
    ((0 ≤ d1 ∧ d2 ≤ 0) ∨ (d1 ≤ 0 ∧ 0 ≤ d2)) ∧ (0 < p → d1 ≠ d2)

/-- `ps` are the positions of the `k` largest values, largest first. -/
def Largest {α : Type} [LinearOrder α] (hist : List α) (k : Nat) (ps : List Nat) : Prop :=
  ps.length = k ∧ ps.Nodup ∧ (∀ p ∈ ps, p < hist.length) ∧
    (ps.Pairwise fun p q => ∀ u v, hist[p]? = some u → hist[q]? = some v → v ≤ u) ∧
    ∀ p ∈ ps, ∀ q < hist.length, q ∉ ps → ∀ u v, hist[p]? = some u → hist[q]? = some v → v ≤ u

/-- A histogram on another scale and with another constant background. -/
def rescale (a b : ℝ) (l : List ℝ) : List ℝ := l.map fun x => a * x + b

end Fp.Spec
