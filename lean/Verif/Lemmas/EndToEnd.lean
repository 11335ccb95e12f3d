import Verif.Props.Freqcd
import Verif.Props.FreqcdRuns
import Verif.Props.FpFind
import Verif.Spec.FpAccuracy
import Verif.Spec.EndToEnd

/-! Helper lemmas for `Verif/Props/EndToEnd.lean`. -/
namespace Fp
open Spec

theorem recip_err (u v : ℚ) (hu : 1 / 2 ≤ u) (hv : 1 / 2 ≤ v) : |1 / u - 1 / v| ≤ 4 * |u - v| := by
  have hu0 : 0 < u := by linarith
  have hv0 : 0 < v := by linarith
  have : 1 / u - 1 / v = (v - u) / (u * v) := by field_simp
  rw [this, abs_div, abs_of_pos (mul_pos hu0 hv0), div_le_iff₀ (mul_pos hu0 hv0), abs_sub_comm]
  have h4 : 1 ≤ 4 * (u * v) := by nlinarith
  have := abs_nonneg (u - v)
  nlinarith

/-- Error of the inverted frequency in doubles. -/
theorem invert_err (dt df : ℚ) (h : |df| ≤ 1 / 2 ^ 12) : |(invertComp (fl 53) dt df).2 - (1 / (1 + df) - 1)| ≤ 1 / 2 ^ 48 := by
  obtain ⟨h1, h2⟩ := abs_le.mp h
  unfold invertComp
  simp only
  have e1 : |fl 53 (1 + df) - (1 + df)| ≤ 1 / 2 ^ 53 := by
    have := fl_err_abs 53 (1 + df) 0 (by rw [abs_lt]; constructor <;> norm_num at * <;> linarith)
    norm_num at this ⊢
    exact this
  generalize fl 53 (1 + df) = u at *
  obtain ⟨e1a, e1b⟩ := abs_le.mp e1
  have hu : 3 / 4 ≤ u := by norm_num at *; linarith
  have hu' : u ≤ 5 / 4 := by norm_num at *; linarith
  have r1 := recip_err u (1 + df) (by linarith) (by norm_num at *; linarith)
  have hub : 1 / u ≤ 4 / 3 := by rw [div_le_iff₀ (by linarith)]; linarith
  have hup : 0 < 1 / u := by positivity
  generalize 1 / u = U at *
  generalize 1 / (1 + df) = V at *
  have e2 : |fl 53 U - U| ≤ 1 / 2 ^ 53 := by
    have := fl_err_abs 53 U 0 (by rw [abs_of_pos hup]; norm_num; linarith)
    norm_num at this ⊢
    exact this
  generalize fl 53 U = v at *
  obtain ⟨e2a, e2b⟩ := abs_le.mp e2
  have e3 : |fl 53 (v - 1) - (v - 1)| ≤ 1 / 2 ^ 53 := by
    have := fl_err_abs 53 (v - 1) 0 (by rw [abs_lt]; constructor <;> norm_num at * <;> linarith)
    norm_num at this ⊢
    exact this
  generalize fl 53 (v - 1) = w at *
  obtain ⟨e3a, e3b⟩ := abs_le.mp e3
  obtain ⟨r1a, r1b⟩ := abs_le.mp r1
  rw [abs_le]
  constructor <;> norm_num at * <;> linarith

/-- Error of the printed integer. -/
theorem printed_err (y : ℚ) (hy : |y| ≤ 1 / 2 ^ 11) : |(rne (fl 53 (y * 2 ^ 34)) : ℚ) / 2 ^ 34 - y| ≤ 1 / 2 ^ 35 + 1 / 2 ^ 64 := by
  have e1 : |fl 53 (y * 2 ^ 34) - y * 2 ^ 34| ≤ 1 / 2 ^ 30 := by
    have := fl_err_abs 53 (y * 2 ^ 34) 23 (by
      rw [abs_mul]
      norm_num at *
      linarith)
    norm_num at this ⊢
    exact this
  have e2 := rne_spec (fl 53 (y * 2 ^ 34))
  generalize fl 53 (y * 2 ^ 34) = x at *
  generalize (rne x : ℚ) = n at *
  obtain ⟨e1a, e1b⟩ := abs_le.mp e1
  obtain ⟨e2a, e2b⟩ := abs_le.mp e2
  rw [abs_le]
  constructor <;> norm_num at * <;> linarith

/-- The frequency correction that `freqcd` gets with output bit 1, and bit 0 set or not. -/
theorem correction_err (inv : Bool) (dt df : ℚ) (n : ℤ) (hdf : |df| ≤ 1 / 2 ^ 12)
    (hn : (fpOutput (fl 53) (if inv then 3 else 2) dt df).df = .inr n) :
    |(n : ℚ) / 2 ^ 34 - (if inv then 1 / (1 + df) - 1 else df)| ≤ 1 / 2 ^ 35 + 1 / 2 ^ 47 := by
  obtain ⟨h1, h2⟩ := abs_le.mp hdf
  cases inv
  · unfold fpOutput at hn
    simp only [Bool.false_eq_true, if_false] at hn ⊢
    norm_num at hn
    subst hn
    refine (printed_err df (hdf.trans (by norm_num))).trans (by norm_num)
  · unfold fpOutput at hn
    simp only [if_true] at hn ⊢
    norm_num at hn
    subst hn
    have hi := invert_err dt df hdf
    have hb : |1 / (1 + df) - 1| ≤ 1 / 2 ^ 12 + 1 / 2 ^ 20 := by
      have hp : 0 < 1 + df := by norm_num at *; linarith
      have : 1 / (1 + df) - 1 = -df / (1 + df) := by field_simp; ring
      rw [this, abs_div, abs_neg, abs_of_pos hp, div_le_iff₀ hp]
      refine hdf.trans ?_
      norm_num at *
      linarith
    generalize 1 / (1 + df) - 1 = V at *
    have := printed_err (invertComp (fl 53) dt df).2 (by
      generalize (invertComp (fl 53) dt df).2 = w at *
      obtain ⟨a1, a2⟩ := abs_le.mp hi
      obtain ⟨b1, b2⟩ := abs_le.mp hb
      rw [abs_le]
      constructor <;> norm_num at * <;> linarith)
    norm_num at this
    generalize (invertComp (fl 53) dt df).2 = w at *
    obtain ⟨a1, a2⟩ := abs_le.mp hi
    obtain ⟨b1, b2⟩ := abs_le.mp this
    rw [abs_le]
    constructor <;> norm_num at * <;> linarith

/-- Combination of all errors; `y` is the intended correction, `η` the error of the printed one. -/
theorem combine (c r t t0 n y η : ℚ) (hc : |c - (t - t0) * n / 2 ^ 34| < r) (hη : |n / 2 ^ 34 - y| ≤ η) :
    |(t + c - t0) - (t - t0) * (1 + y)| < r + |t - t0| * η := by
  have e : (t + c - t0) - (t - t0) * (1 + y) = (c - (t - t0) * n / 2 ^ 34) + (t - t0) * (n / 2 ^ 34 - y) := by ring
  rw [e]
  have h1 := abs_add_le (c - (t - t0) * n / 2 ^ 34) ((t - t0) * (n / 2 ^ 34 - y))
  rw [abs_mul] at h1
  have h2 := mul_le_mul_of_nonneg_left hη (abs_nonneg (t - t0))
  linarith

theorem ofInt_toInt (n : ℤ) (h : |n| < 2 ^ 21) : (BitVec.ofInt 32 n).toInt = n := by
  rw [abs_lt] at h
  rw [BitVec.toInt_ofInt]
  apply Int.bmod_eq_of_le <;> norm_num at * <;> omega

theorem corrects_core {inv : Bool} {dt df : ℚ} {rs : List Round} {src : Bytes} {i t0 t o : ℕ}
    (h : Corrects inv dt df rs src i t0 t o) :
    ∃ c : ℤ, (o : ℤ) = (t + c) % 2 ^ 54 ∧
      |((t : ℚ) + c - t0) - (t - t0) * (1 + (if inv then 1 / (1 + df) - 1 else df))| <
        (3 / 2 : ℚ) * (reads rs : ℚ) + |(t : ℚ) - t0| * (1 / 2 ^ 35 + 1 / 2 ^ 47) := by
  obtain ⟨legacy, n, s, s', fo, fsrc, stop, hn, hacc, hini, hrun, hconst, hns, hord, h0, ht, ho⟩ := h.run
  have hto := ofInt_toInt n hacc
  obtain ⟨c, hc1, hc2⟩ := C42_approximation_partial legacy rs s s' _ fo src fsrc hini stop hrun (by rw [hto]; exact hacc) hconst hord hns
    i o t t0 ho ht h0
  rw [hto] at hc2
  exact ⟨c, hc1, combine _ _ _ _ _ _ _ hc2 (correction_err inv dt df n h.bound hn)⟩

end Fp
