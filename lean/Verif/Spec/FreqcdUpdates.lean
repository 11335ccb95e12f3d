import Verif.Spec.Freqcd

/-! Specification vocabulary for the frequency channel of `freqcd` when everything has been written to it before. -/
namespace Fp.Spec

/-- A read of the frequency channel, if there is one, returns as much as is asked for and there is. -/
def FullFreq (r : Round) : Prop := r.freqRead = none ∨ ∃ k, r.freqRead = some (some k) ∧ 99 ≤ k

/-- Number of passes in which the frequency channel is read. -/
def freqPasses (rs : List Round) : Nat := rs.countP fun r : Round => r.freqRead.isSome

end Fp.Spec
