import Verif.Spec.FpShift

/-! # Recordings with the same events in another order -/
namespace Fp.Spec

/-- The same elements with the same multiplicities, in any order except for the first and the last one. -/
structure SameEnds {α : Type} (l l' : List α) : Prop where
  perm : l.Perm l'
  first : l.head? = l'.head?
  last : l.getLast? = l'.getLast?

/-- The last element is the latest one. -/
def LastLatest {α : Type} (time : α → ℚ) (l : List α) : Prop := ∀ z, l.getLast? = some z → ∀ x ∈ l, time x ≤ time z

end Fp.Spec
