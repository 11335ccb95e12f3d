import Verif.Props.Coverage

/-! # C131 for the values that `main` tries -/
namespace Fp
open Spec

/-- **C131** (what fpfind tries): with the precompensations enabled, an offset `x` within `--precomp-stop` of `--precomp-start` is less
than one step away from a value that `main` passes to the search, with at most 2 n + 1 others before for an offset of n steps. -/
theorem C131_tried (env : NumEnv) (henv : env.rnd = fl 53) (args : FpMainArgs) (hen : args.precompEnable = true)
    (hord : args.precompOrdered = false) (hstep : 0 < args.precompStep) (hstop : 0 ≤ args.precompStop) (x : ℚ)
    (hx : |x - args.precompStart| ≤ args.precompStop) :
    ∃ pre d post, args.precompensations env = pre ++ d :: post ∧
      |x - d| < args.precompStep + (2 * args.precompStop + |args.precompStart|) / 2 ^ 52 ∧
      (|x - args.precompStart| ≤ args.precompStop - args.precompStep / 2 →
        |x - d| ≤ args.precompStep / 2 + (2 * args.precompStop + |args.precompStart|) / 2 ^ 52) ∧
      (pre.length : ℚ) ≤ 2 * (|x - args.precompStart| / args.precompStep) + 1 := by
  obtain ⟨m, hm⟩ : ∃ m : Nat, (m : ℤ) = ⌊args.precompStop / args.precompStep⌋ :=
    ⟨_, Int.toNat_of_nonneg (Int.floor_nonneg.mpr (by positivity))⟩
  have h1 : (m : ℚ) ≤ args.precompStop / args.precompStep := by
    have := Int.floor_le (args.precompStop / args.precompStep)
    rw [← hm] at this
    exact_mod_cast this
  have h2 : args.precompStop / args.precompStep < m + 1 := by
    have := Int.lt_floor_add_one (args.precompStop / args.precompStep)
    rw [← hm] at this
    exact_mod_cast this
  obtain ⟨pre, d, post, a1, a2, a3, a4⟩ := C131_covered args.precompStart args.precompStop args.precompStep x m hstep h1 h2 (Or.inl hx)
  refine ⟨pre, d, post, ?_, a2, fun h => a3 ?_, a4⟩
  · unfold FpMainArgs.precompensations
    rw [if_pos hen, hord, henv, a1]
  · rw [div_lt_iff₀ hstep] at h2
    linarith

/-- **C131** (what fpfind tries, ordered): every offset from `--precomp-start` to `--precomp-stop` is less than one step away from a value
that `main` passes to the search. -/
theorem C131_tried_ordered (env : NumEnv) (henv : env.rnd = fl 53) (args : FpMainArgs) (hen : args.precompEnable = true)
    (hord : args.precompOrdered = true) (hstep : 0 < args.precompStep) (x : ℚ) (hx1 : args.precompStart ≤ x) (hx2 : x ≤ args.precompStop) :
    ∃ d ∈ args.precompensations env,
      |x - d| < args.precompStep + (3 * (args.precompStop - args.precompStart) + |args.precompStart|) / 2 ^ 52 := by
  obtain ⟨d, h1, h2, -⟩ := C131_ordered args.precompStart args.precompStop args.precompStep x hstep hx1 hx2
  refine ⟨d, ?_, h2⟩
  unfold FpMainArgs.precompensations
  rw [if_pos hen, hord, henv]
  exact h1

/-- **C131**: without `--precomp-enable` only the offset 0 is tried, whatever the other options. -/
theorem C131_disabled (env : NumEnv) (args : FpMainArgs) (h : args.precompEnable = false) : args.precompensations env = [0] := by
  simp [FpMainArgs.precompensations, h]

/-- A scan around 20 ppm: 5 ppm to both sides. -/
def awayArgs : FpMainArgs :=
  { scanArgs with precompStart := 20 / 10 ^ 6, precompStop := 5 / 10 ^ 6, precompStep := 1 / 10 ^ 6 }

/-- Instance of C131_tried: 22.4 ppm, away from zero. -/
example : ∃ d ∈ awayArgs.precompensations scanEnv, |224 / 10 ^ 7 - d| < 6 / 10 ^ 7 := by
  obtain ⟨pre, d, post, h1, -, h3, -⟩ := C131_tried scanEnv rfl awayArgs rfl rfl (by norm_num [awayArgs]) (by norm_num [awayArgs])
    (224 / 10 ^ 7) (by norm_num [awayArgs, abs_of_pos])
  refine ⟨d, by rw [h1]; simp, lt_of_le_of_lt (h3 (by norm_num [awayArgs, abs_of_pos])) ?_⟩
  norm_num [awayArgs, abs_of_pos]

/-- Instance of C131_tried_ordered: from 1 ppm to 4 ppm. -/
example : ∃ d ∈ FpMainArgs.precompensations scanEnv { awayArgs with precompStart := 1 / 10 ^ 6, precompStop := 4 / 10 ^ 6, precompOrdered := true },
    |26 / 10 ^ 7 - d| < 11 / 10 ^ 7 := by
  obtain ⟨d, h1, h2⟩ := C131_tried_ordered scanEnv rfl
    { awayArgs with precompStart := 1 / 10 ^ 6, precompStop := 4 / 10 ^ 6, precompOrdered := true } rfl rfl (by norm_num [awayArgs])
    (26 / 10 ^ 7) (by norm_num [awayArgs]) (by norm_num [awayArgs])
  refine ⟨d, h1, lt_of_lt_of_le h2 ?_⟩
  norm_num [awayArgs, abs_of_pos]

end Fp
