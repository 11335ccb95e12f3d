import Verif.Spec.FreqcdExact

/-! Specification vocabulary for the frequency that `freqcd` applies when its input arrives in pieces. -/
namespace Fp.Spec

/-- The reads of the passes `rs` deliver whole events: first the block `blocks[0]`, then `blocks[1]`, and so on, possibly with
passes in between in which there is nothing to read.  All writes are complete; there is no news on the frequency channel. -/
inductive Arrives : List (List (ℕ × ℕ)) → List Round → Prop
  | done : Arrives [] []
  | idle (bs : List (List (ℕ × ℕ))) (r : Round) (rs : List Round) : r.selectOk = true → r.inRead = none → r.freqRead = none →
      (∃ k, r.write = some k) → Arrives bs rs → Arrives bs (r :: rs)
  | block (b : List (ℕ × ℕ)) (bs : List (List (ℕ × ℕ))) (r : Round) (rs : List Round) : b ≠ [] → b.length ≤ 1024 → r.selectOk = true →
      r.inRead = some (some (8 * b.length)) → r.freqRead = none → (∃ k, r.write = some k ∧ 8 * b.length ≤ k) → Arrives bs rs →
      Arrives (b :: bs) (r :: rs)

/-- The last time of a block. -/
def lastTime (ref : ℕ) (b : List (ℕ × ℕ)) : ℕ := (b.getLast?.map Prod.fst).getD ref

/-- Every event is at least `a` and less than `d` units later than the last event of the block before (the time `ref` for the
first block). -/
def Spaced (a d : ℕ) : ℕ → List (List (ℕ × ℕ)) → Prop
  | _, [] => True
  | ref, b :: bs => (∀ e ∈ b, ref + a ≤ e.1 ∧ e.1 < ref + d) ∧ Spaced a d (lastTime ref b) bs

/-- The last events of successive blocks are at least `D` units apart; `ref` is the last time of the block before. -/
def Apart (D : ℕ) : ℕ → List (List (ℕ × ℕ)) → Prop
  | _, [] => True
  | ref, b :: bs => ref + D ≤ lastTime ref b ∧ Apart D (lastTime ref b) bs

/-- The events of the first block `k + 1` units earlier, those of the second block `k + 2` units, and so on. -/
def lowered : ℕ → List (List (ℕ × ℕ)) → List (ℕ × ℕ)
  | _, [] => []
  | k, b :: bs => (b.map fun e => (e.1 - (k + 1), e.2)) ++ lowered (k + 1) bs

end Fp.Spec
