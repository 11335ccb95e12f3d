import Verif.Spec.FpRun

/-! # Specification of the part of the recordings fpfind uses -/
namespace Fp.Spec

/-- The time at which the last window of a search ends at the latest: the separation and twice the duration, as the number of
wraps is rounded, and rounding errors. -/
def windowsEnd (P : TFParams) : ℚ := P.sep + 2 * P.duration * (1 + 1 / 2 ^ 40)

/-- The same for the clock of the target: its frequency is changed by less than 2^-13, and each of `k` iterations moves it by at
most 100 ms. -/
def targetEnd (P : TFParams) (k : Nat) : ℚ := (1 + 1 / 2 ^ 11) * windowsEnd P + k * (1001 * 10 ^ 5)

/-- The search has no time for more than `k` iterations: from at most `res` or 10 µs the resolution is improved by a factor of at
least `ρ` each time until it is the target. -/
structure AtMost (P : TFParams) (res : ℚ) (k : Nat) : Prop where
  duration : 0 < P.duration
  target : 0 < P.target
  start : 0 < res
  bins : 0 < P.numBins
  steps : ∃ (ρ : ℚ) (n : Nat), k = n + 2 ∧ 1 < ρ ∧ max res (10 ^ 4) ≤ P.target * ρ ^ (n + 1) ∧
    ρ * (1 + 1 / 2 ^ 53) * resRefineFactor * P.duration ≤ P.sep * (1 - 1 / 2 ^ 53) ^ 2
  few : k ≤ 1000

/-- The part of the reference recording that a run of fpfind uses, in ns from the common start. -/
def usedReference (env : NumEnv) (args : FpMainArgs) : ℚ := windowsEnd (searchParams env args [] [])

/-- The part of the target recording that it uses, for precompensations of at most `δ` and `k` iterations. -/
def usedTarget (env : NumEnv) (args : FpMainArgs) (δ : ℚ) (k : Nat) : ℚ :=
  (1 + δ) * (1 + 1 / 2 ^ 50) * targetEnd (searchParams env args [] []) k

end Fp.Spec
