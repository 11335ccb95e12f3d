import Verif.Lemmas.EndToEnd

/-! # `fpfind` and `freqcd` together: C65 -/
namespace Fp
open Spec

/-! ## C65 -/

/-- **C65** (with the roles exchanged): the inverted output corrects the events of the *target*.  If the target clock is
`(1 + df) a + τ` when the reference clock is `a` (`t` and `t0` read to within `q` units), the corrected time elapsed since the
first event is that of the reference clock, up to 3/2 units per read, the resolution of the printed number and the reading error. -/
theorem C65_target_partial (dt df : ℚ) (rs : List Round) (src : Bytes) (i t0 t o : ℕ) (h : Corrects true dt df rs src i t0 t o)
    (τ a a0 q : ℚ) (ha : |(t : ℚ) - targetClock df τ a| ≤ q) (ha0 : |(t0 : ℚ) - targetClock df τ a0| ≤ q) :
    ∃ c : ℤ, (o : ℤ) = (t + c) % 2 ^ 54 ∧
      |((t : ℚ) + c - t0) - (a - a0)| < (3 / 2 : ℚ) * (reads rs : ℚ) + |(t : ℚ) - t0| * (1 / 2 ^ 35 + 1 / 2 ^ 47) + 2 * q / (1 + df) := by
  obtain ⟨c, hc1, hc2⟩ := corrects_core h
  refine ⟨c, hc1, ?_⟩
  simp only [if_true] at hc2
  have hp : 0 < 1 + df := by
    have := (abs_le.mp h.bound).1
    norm_num at this
    linarith
  have e : (1 : ℚ) + (1 / (1 + df) - 1) = 1 / (1 + df) := by ring
  rw [e] at hc2
  have hd : |((t : ℚ) - t0) * (1 / (1 + df)) - (a - a0)| ≤ 2 * q / (1 + df) := by
    have e2 : ((t : ℚ) - t0) * (1 / (1 + df)) - (a - a0) =
        ((t - targetClock df τ a) - (t0 - targetClock df τ a0)) / (1 + df) := by
      unfold targetClock
      field_simp
      ring
    rw [e2, abs_div, abs_of_pos hp, div_le_div_iff_of_pos_right hp]
    refine (abs_sub _ _).trans ?_
    linarith
  have := abs_add_le (((t : ℚ) + c - t0) - (t - t0) * (1 / (1 + df))) (((t : ℚ) - t0) * (1 / (1 + df)) - (a - a0))
  rw [show ((t : ℚ) + c - t0) - (t - t0) * (1 / (1 + df)) + (((t : ℚ) - t0) * (1 / (1 + df)) - (a - a0)) =
    ((t : ℚ) + c - t0) - (a - a0) by ring] at this
  linarith

/-- **C65** (with the roles exchanged): the plain output corrects the events of the *reference* so that they keep pace with
the target clock. -/
theorem C65_reference_partial (dt df : ℚ) (rs : List Round) (src : Bytes) (i t0 t o : ℕ) (h : Corrects false dt df rs src i t0 t o)
    (τ a a0 q : ℚ) (ha : |(t : ℚ) - a| ≤ q) (ha0 : |(t0 : ℚ) - a0| ≤ q) :
    ∃ c : ℤ, (o : ℤ) = (t + c) % 2 ^ 54 ∧
      |((t : ℚ) + c - t0) - (targetClock df τ a - targetClock df τ a0)| <
        (3 / 2 : ℚ) * (reads rs : ℚ) + |(t : ℚ) - t0| * (1 / 2 ^ 35 + 1 / 2 ^ 47) + 2 * q * (1 + df) := by
  obtain ⟨c, hc1, hc2⟩ := corrects_core h
  refine ⟨c, hc1, ?_⟩
  simp only [Bool.false_eq_true, if_false] at hc2
  have hp : 0 < 1 + df := by
    have := (abs_le.mp h.bound).1
    norm_num at this
    linarith
  have hd : |((t : ℚ) - t0) * (1 + df) - (targetClock df τ a - targetClock df τ a0)| ≤ 2 * q * (1 + df) := by
    have e2 : ((t : ℚ) - t0) * (1 + df) - (targetClock df τ a - targetClock df τ a0) = ((t - a) - (t0 - a0)) * (1 + df) := by
      unfold targetClock
      ring
    rw [e2, abs_mul, abs_of_pos hp, mul_le_mul_iff_left₀ hp]
    refine (abs_sub _ _).trans ?_
    linarith
  have := abs_add_le (((t : ℚ) + c - t0) - (t - t0) * (1 + df)) (((t : ℚ) - t0) * (1 + df) - (targetClock df τ a - targetClock df τ a0))
  rw [show ((t : ℚ) + c - t0) - (t - t0) * (1 + df) + (((t : ℚ) - t0) * (1 + df) - (targetClock df τ a - targetClock df τ a0)) =
    ((t : ℚ) + c - t0) - (targetClock df τ a - targetClock df τ a0) by ring] at this
  linarith

/-- **C65 fails** as documented: the plain output doubles the frequency offset of the target instead of removing it. -/
theorem C65_doubled (dt df : ℚ) (rs : List Round) (src : Bytes) (i t0 t o : ℕ) (h : Corrects false dt df rs src i t0 t o)
    (τ a a0 q : ℚ) (ha : |(t : ℚ) - targetClock df τ a| ≤ q) (ha0 : |(t0 : ℚ) - targetClock df τ a0| ≤ q) :
    ∃ c : ℤ, (o : ℤ) = (t + c) % 2 ^ 54 ∧
      |((t : ℚ) + c - t0) - (1 + df) ^ 2 * (a - a0)| <
        (3 / 2 : ℚ) * (reads rs : ℚ) + |(t : ℚ) - t0| * (1 / 2 ^ 35 + 1 / 2 ^ 47) + 2 * q * (1 + df) := by
  obtain ⟨c, hc1, hc2⟩ := C65_reference_partial dt df rs src i t0 t o h τ _ _ q ha ha0
  refine ⟨c, hc1, ?_⟩
  have e : targetClock df τ (targetClock df τ a) - targetClock df τ (targetClock df τ a0) = (1 + df) ^ 2 * (a - a0) := by
    unfold targetClock
    ring
  rwa [e] at hc2

/-- **C65 fails**, a run: a target clock that is fast by 2^-14 and has counted 2^40 + 2^26 units; the correction printed by
`fpfind --output 2` makes the error of 2^26 units larger than 2^27. -/
theorem C65_violated : ∃ (rs : List Round) (src : Bytes) (a : ℤ) (o t : ℕ), Corrects false 0 (1 / 2 ^ 14) rs src 1 0 t o ∧
    (t : ℚ) = targetClock (1 / 2 ^ 14) 0 a ∧ (t : ℤ) - a = 2 ^ 26 ∧ 2 ^ 27 < (o : ℤ) - a := by
  obtain ⟨s', h1, h2, -⟩ := demo_run false [rd 16] 0 (BitVec.ofInt 32 (2 ^ 20)) false
    [0, 0, 0, 0, 0, 0, 0, 0, 0, 0, 0, 0, 16, 0, 4, 0] [] _ _ _ none ⟨rfl, rfl, rfl, by decide +kernel⟩
  refine ⟨[rd 16], [0, 0, 0, 0, 0, 0, 0, 0, 0, 0, 0, 0, 16, 0, 4, 0], 2 ^ 40, 2 ^ 40 + 2 ^ 27 + 2 ^ 12, 2 ^ 40 + 2 ^ 26,
    ⟨by norm_num [abs_of_pos], ?_⟩, by norm_num [targetClock], by norm_num, by norm_num⟩
  refine ⟨false, 2 ^ 20, _, s', false, [], none, by decide +kernel, by norm_num [freqcdAccepts], demo_initial 0 _ _ _ _, h1,
    closed_const (demo_initial _ _ _ _ _), demo_noStall (by decide +kernel), by decide +kernel, by decide +kernel, by decide +kernel,
    by rw [h2]; decide +kernel⟩

/-- Instance of `C65_target_partial`: the same clock, corrected with the inverted output, shows the time of the reference. -/
example : ∃ (rs : List Round) (src : Bytes) (a : ℤ) (o t : ℕ), Corrects true 0 (1 / 2 ^ 14) rs src 1 0 t o ∧
    (t : ℚ) = targetClock (1 / 2 ^ 14) 0 a ∧ (t : ℤ) - a = 2 ^ 26 ∧ (o : ℤ) = a := by
  obtain ⟨s', h1, h2, -⟩ := demo_run false [rd 16] 0 (BitVec.ofInt 32 (-2 ^ 20 + 64)) false
    [0, 0, 0, 0, 0, 0, 0, 0, 0, 0, 0, 0, 16, 0, 4, 0] [] _ _ _ none ⟨rfl, rfl, rfl, by decide +kernel⟩
  refine ⟨[rd 16], [0, 0, 0, 0, 0, 0, 0, 0, 0, 0, 0, 0, 16, 0, 4, 0], 2 ^ 40, 2 ^ 40, 2 ^ 40 + 2 ^ 26,
    ⟨by norm_num [abs_of_pos], ?_⟩, by norm_num [targetClock], by norm_num, by norm_num⟩
  refine ⟨false, -2 ^ 20 + 64, _, s', false, [], none, by decide +kernel, by norm_num [freqcdAccepts, abs_lt], demo_initial 0 _ _ _ _, h1,
    closed_const (demo_initial _ _ _ _ _), demo_noStall (by decide +kernel), by decide +kernel, by decide +kernel, by decide +kernel,
    by rw [h2]; decide +kernel⟩

/-- Instance of `C65_reference_partial`: a reference that has counted 2^40 units is brought to the 2^40 + 2^26 units of the target. -/
example : ∃ (rs : List Round) (src : Bytes) (o : ℕ), Corrects false 0 (1 / 2 ^ 14) rs src 1 0 (2 ^ 40) o ∧
    (o : ℚ) = targetClock (1 / 2 ^ 14) 0 (2 ^ 40) := by
  obtain ⟨s', h1, h2, -⟩ := demo_run false [rd 16] 0 (BitVec.ofInt 32 (2 ^ 20)) false
    [0, 0, 0, 0, 0, 0, 0, 0, 0, 0, 0, 0, 0, 0, 4, 0] [] _ _ _ none ⟨rfl, rfl, rfl, by decide +kernel⟩
  refine ⟨[rd 16], [0, 0, 0, 0, 0, 0, 0, 0, 0, 0, 0, 0, 0, 0, 4, 0], 2 ^ 40 + 2 ^ 26,
    ⟨by norm_num [abs_of_pos], ?_⟩, by norm_num [targetClock]⟩
  refine ⟨false, 2 ^ 20, _, s', false, [], none, by decide +kernel, by norm_num [freqcdAccepts, abs_lt], demo_initial 0 _ _ _ _, h1,
    closed_const (demo_initial _ _ _ _ _), demo_noStall (by decide +kernel), by decide +kernel, by decide +kernel, by decide +kernel,
    by rw [h2]; decide +kernel⟩

end Fp
