import Verif.Lemmas.Decimal

namespace Fp
open Spec

/-- C80: integers of fewer than 54 bits are rounded to the given number of significant digits (none counts as one). -/
theorem C80_int_partial (n : ℤ) (hn : |n| < 2 ^ 53) (p : ℕ) (ndigits dp : Option ℤ) :
    ∃ m : ℤ, utilsRound (.int n) ndigits (some p) dp = .ok (.num (.int m)) ∧ SigRound (max p 1) n m := by
  obtain ⟨r, -, h⟩ := formatG_spec p (n : ℚ)
  obtain ⟨m, rfl, h2⟩ := sigRound_int (le_max_right p 1) hn h
  have hn' : |(n : ℚ)| < 2 ^ 53 := by exact_mod_cast hn
  have hr := sigRound_abs (le_max_right p 1) h
  refine ⟨m, ?_, h⟩
  have hbig : (2 : ℚ) ^ 53 ≤ 2 ^ 1023 := pow_le_pow_right₀ (by norm_num) (by norm_num)
  have s1 : ¬ doubleMax ≤ |fl 53 (n : ℚ)| := max_fl_small (by
    generalize (2 : ℚ) ^ 1023 = K at *
    linarith [abs_nonneg (n : ℚ)])
  have s2 : ¬ doubleMax ≤ |fl 53 (m : ℚ)| := max_fl_small (by
    generalize (2 : ℚ) ^ 1023 = K at *
    linarith)
  have hT := floatText_formatG p n m h
  simp only [utilsRound]
  rw [if_neg (by omega), if_neg s1, fl_int 53 n hn, Int.toNat_natCast, hT]
  simp only [bind, Except.bind]
  rw [if_neg s2, h2]
  simp

/-- Example: `round(1234567, sf=3)` is `1230000`. -/
example : |(1234567 : ℤ)| < 2 ^ 53 ∧ utilsRound (.int 1234567) none (some 3) none = .ok (.num (.int 1230000)) := by
  refine ⟨by norm_num, ?_⟩
  decide +kernel

/-- C80: for floats up to half the largest one and at most 15 digits, the text denotes the correctly rounded number. -/
theorem C80_float_partial (x : ℚ) (hx : |x| ≤ 2 ^ 1023) (p : ℕ) (hp : p ≤ 15) (ndigits dp : Option ℤ) :
    ∃ t r, utilsRound (.float x) ndigits (some p) dp = .ok (.text t) ∧ Denotes t r ∧ SigRound (max p 1) x r := by
  obtain ⟨r, -, h⟩ := formatG_spec p x
  have hr := sigRound_abs (le_max_right p 1) h
  have s2 : ¬ doubleMax ≤ |fl 53 r| := max_fl_small (by
    generalize (2 : ℚ) ^ 1023 = K at *
    linarith)
  have hT := floatText_formatG p x r h
  obtain ⟨s, h1, h2⟩ := formatG_spec p (fl 53 r)
  have h3 := sigRound_fl (le_max_right p 1) (by omega) h
  rw [sigRound_unique h2 h3] at h1
  refine ⟨_, r, ?_, h1, h⟩
  simp only [utilsRound]
  rw [if_neg (by omega), Int.toNat_natCast, hT]
  simp only [bind, Except.bind]
  rw [if_neg s2]

/-- Example: `round(-0.00012345678, sf=3)` is `'-0.000123'` (here for the decimal number, not the double). -/
example : |(-12345678 / 100000000000 : ℚ)| ≤ 2 ^ 1023 ∧
    utilsRound (.float (-12345678 / 100000000000)) none (some 3) none = .ok (.text "-0.000123".toList) := by
  constructor
  · decide +kernel
  · decide +kernel

/-- C80: `round(10**23, sf=1)` is `99999999999999991611392`, although `10**23` has one significant digit. -/
theorem C80_int_violated :
    utilsRound (.int (10 ^ 23)) none (some 1) none = .ok (.num (.int 99999999999999991611392)) ∧
    SigRound 1 ((10 ^ 23 : ℤ) : ℚ) (10 ^ 23) ∧ ¬ SigRound 1 ((10 ^ 23 : ℤ) : ℚ) 99999999999999991611392 := by
  have h : SigRound 1 ((10 ^ 23 : ℤ) : ℚ) (10 ^ 23) := by
    refine .inr ⟨1, 23, ?_, ?_, ?_, ?_, ?_⟩ <;> norm_num
  refine ⟨by decide +kernel, h, fun h2 => ?_⟩
  have := sigRound_unique h h2
  norm_num at this

/-- C80: with 16 digits the double is rounded twice: the text returned for 100000000000000008388608 (a double) is
`9.999999999999999e+22`; rounded to 16 digits it is `10^23`. -/
theorem C80_float_violated :
    fl 53 100000000000000008388608 = 100000000000000008388608 ∧
    utilsRound (.float 100000000000000008388608) none (some 16) none = .ok (.text "9.999999999999999e+22".toList) ∧
    SigRound 16 100000000000000008388608 (10 ^ 23) ∧ ¬ Denotes "9.999999999999999e+22".toList (10 ^ 23) := by
  refine ⟨by decide +kernel, by decide +kernel, ?_, fun h => ?_⟩
  · refine .inr ⟨10 ^ 15, 8, ?_, ?_, ?_, ?_, ?_⟩ <;> norm_num
  · have h1 := decimalOf_spec h
    revert h1
    decide +kernel

/-- C80: near the largest double the result is not a number. -/
theorem C80_overflow_violated :
    fl 53 (2 ^ 1023 * (2 - 1 / 2 ^ 52)) = 2 ^ 1023 * (2 - 1 / 2 ^ 52) ∧
    utilsRound (.float (2 ^ 1023 * (2 - 1 / 2 ^ 52))) none (some 2) none = .ok (.text "inf".toList) ∧
    utilsRound (.int (2 ^ 1024 - 2 ^ 971)) none (some 2) none = .error .overflowError := by
  refine ⟨by decide +kernel, by decide +kernel, by decide +kernel⟩

/-- C80: without `sf` the digits are those of `dp`, or of `ndigits` if there is no `dp`. -/
theorem C80_digits (number : PyNum) (ndigits dp : Option ℤ) :
    ∃ v, utilsRound number ndigits none dp = .ok (.num v) ∧
      ∀ d, (dp = some d ∨ dp = none ∧ ndigits = some d) →
        match number with
        | .int n => ∃ m : ℤ, v = .int m ∧ (0 ≤ d → m = n) ∧
            (d < 0 → 10 ^ (-d).toNat ∣ m ∧ 2 * |m - n| ≤ 10 ^ (-d).toNat)
        | .float x => ∃ (k : ℤ) (y : ℚ), v = .float y ∧ |x - k * 10 ^ (-d)| ≤ 10 ^ (-d) / 2 ∧
            |y - k * 10 ^ (-d)| ≤ |(k : ℚ) * 10 ^ (-d)| * 2 ^ (-53 : ℤ) := by
  refine ⟨_, rfl, fun d hd => ?_⟩
  have he : (if ndigits.isSome = true ∧ dp.isNone = true then ndigits else dp) = some d := by
    rcases hd with rfl | ⟨rfl, rfl⟩ <;> simp
  rw [he]
  cases number with
  | int n =>
    simp only [builtinRound]
    by_cases h : 0 ≤ d
    · rw [if_pos h]
      exact ⟨n, rfl, fun _ => rfl, fun h' => by omega⟩
    · rw [if_neg h]
      refine ⟨_, rfl, fun h' => absurd h' h, fun _ => ⟨Dvd.intro_left _ rfl, ?_⟩⟩
      obtain ⟨j, rfl⟩ : ∃ j : ℕ, d = -(j : ℤ) := ⟨(-d).toNat, by omega⟩
      rw [neg_neg, Int.toNat_natCast, zpow_natCast]
      have hj : (0 : ℚ) < 10 ^ j := by positivity
      have h1 := rne_spec ((n : ℚ) / 10 ^ j)
      generalize rne ((n : ℚ) / 10 ^ j) = k at *
      have h2 : |(k : ℚ) * 10 ^ j - n| = |(k : ℚ) - n / 10 ^ j| * 10 ^ j := by
        conv_rhs => rw [← abs_of_pos hj, ← abs_mul, abs_of_pos hj, sub_mul, div_mul_cancel₀ _ hj.ne']
      have h3 : 2 * |(k : ℚ) * 10 ^ j - n| ≤ 10 ^ j := by
        rw [h2]
        have := mul_le_mul_of_nonneg_right h1 hj.le
        linarith
      exact_mod_cast h3
  | float x =>
    simp only [builtinRound]
    have hq : (0 : ℚ) < 10 ^ d := by positivity
    refine ⟨rne (x * 10 ^ d), _, rfl, ?_, ?_⟩
    · have h1 := rne_spec (x * 10 ^ d)
      generalize rne (x * 10 ^ d) = k at *
      rw [zpow_neg, ← div_eq_mul_inv]
      have h2 : |x - k / 10 ^ d| = |(k : ℚ) - x * 10 ^ d| / 10 ^ d := by
        conv_rhs => rw [← abs_of_pos hq, ← abs_div, abs_of_pos hq, sub_div, mul_div_cancel_right₀ _ hq.ne', abs_sub_comm]
      rw [h2, div_le_iff₀ hq]
      calc _ ≤ _ := h1
        _ = _ := by field_simp
    · have := fl_err 53 ((rne (x * 10 ^ d) : ℚ) / 10 ^ d)
      rw [zpow_neg, ← div_eq_mul_inv]
      exact this

/-- C80: without any number of digits the result is the nearest `int`, the even one of two. -/
theorem C80_whole (number : PyNum) :
    ∃ m : ℤ, utilsRound number none none none = .ok (.num (.int m)) ∧
      match number with
      | .int n => m = n
      | .float x => |x - m| ≤ 1 / 2 ∧ (|x - m| = 1 / 2 → Even m) := by
  cases number with
  | int n => exact ⟨n, rfl, rfl⟩
  | float x =>
    refine ⟨rne x, rfl, ?_, ?_⟩
    · rw [abs_sub_comm]; exact rne_spec x
    · rw [abs_sub_comm]; exact rne_tie x

/-- Example: `round(2.5)` is `2`, `round(-0.75)` is `-1`. -/
example : utilsRound (.float (5 / 2)) none none none = .ok (.num (.int 2)) ∧
    utilsRound (.float (-3 / 4)) none none none = .ok (.num (.int (-1))) := by decide +kernel

/-- Example: `round(1250, -2)` is `1200` (ties to even), and `dp` overrides `ndigits`. -/
example : utilsRound (.int 1250) (some (-2)) none none = .ok (.num (.int 1200)) ∧
    utilsRound (.int 1250) (some (-2)) none (some (-1)) = .ok (.num (.int 1250)) := by decide +kernel

end Fp
