import Verif.Model.Float
import Mathlib.Algebra.Order.Field.Power

/-! Helper lemmas about `rne` and `fl`. -/
namespace Fp

theorem rne_int (n : ℤ) : rne (n : ℚ) = n := by
  unfold rne
  simp

theorem rne_spec (x : ℚ) : |(rne x : ℚ) - x| ≤ 1 / 2 := by
  have h1 := Int.floor_le x
  have h2 := Int.lt_floor_add_one x
  unfold rne
  split
  · rw [abs_le]; constructor <;> linarith
  · split
    · push_cast; rw [abs_le]; constructor <;> linarith
    · split
      · rw [abs_le]; constructor <;> linarith
      · push_cast; rw [abs_le]; constructor <;> linarith

theorem rne_mono {x y : ℚ} (h : x ≤ y) : rne x ≤ rne y := by
  have hf : ⌊x⌋ ≤ ⌊y⌋ := Int.floor_le_floor h
  rcases lt_or_eq_of_le hf with hlt | heq
  · have h1 : rne x ≤ ⌊x⌋ + 1 := by unfold rne; split_ifs <;> omega
    have h2 : ⌊y⌋ ≤ rne y := by unfold rne; split_ifs <;> omega
    omega
  · unfold rne
    rw [heq]
    split_ifs <;> first | omega | (exfalso; linarith)

theorem rne_le_int {x : ℚ} {n : ℤ} (h : x ≤ n) : rne x ≤ n := by
  have := rne_mono h
  rwa [rne_int] at this

theorem le_rne_int {x : ℚ} {n : ℤ} (h : (n : ℚ) ≤ x) : n ≤ rne x := by
  have := rne_mono h
  rwa [rne_int] at this

theorem fl_zero (p : ℕ) : fl p 0 = 0 := by simp [fl]

/-- Numbers with at most `p` significant bits are not changed by rounding. -/
theorem fl_exact (p : ℕ) (m e : ℤ) (hm : |m| < 2 ^ p) : fl p ((m : ℚ) * 2 ^ e) = (m : ℚ) * 2 ^ e := by
  by_cases hm0 : m = 0
  · subst hm0; simp [fl]
  have h2 : (0 : ℚ) < 2 ^ e := by positivity
  have hx : (m : ℚ) * 2 ^ e ≠ 0 := mul_ne_zero (by exact_mod_cast hm0) (ne_of_gt h2)
  unfold fl
  rw [if_neg hx]
  set x : ℚ := (m : ℚ) * 2 ^ e with hxdef
  set L := Int.log 2 |x| with hL
  -- L - (p-1) ≤ e
  have habs : |x| = (|m| : ℤ) * (2 : ℚ) ^ e := by
    rw [hxdef, abs_mul, abs_of_pos h2, ← Int.cast_abs]
  have hlt : |x| < 2 ^ (e + p) := by
    rw [habs, zpow_add₀ (by norm_num), mul_comm]
    apply mul_lt_mul_of_pos_left _ h2
    have : ((|m| : ℤ) : ℚ) < ((2 ^ p : ℤ) : ℚ) := by exact_mod_cast hm
    simpa using this
  have hxpos : 0 < |x| := abs_pos.mpr hx
  have hLlt : L < e + p := by
    have h1 := Int.zpow_log_le_self (b := 2) (R := ℚ) (by norm_num) hxpos
    have h3 : (2 : ℚ) ^ L < 2 ^ (e + p) := lt_of_le_of_lt (by simpa using h1) hlt
    exact (zpow_lt_zpow_iff_right₀ (by norm_num)).mp h3
  obtain ⟨k, hk⟩ : ∃ k : ℕ, e = (L - ((p : ℤ) - 1)) + k := ⟨(e - (L - ((p : ℤ) - 1))).toNat, by omega⟩
  set u := L - ((p : ℤ) - 1) with hu
  have hdiv : x / 2 ^ u = ((m * 2 ^ k : ℤ) : ℚ) := by
    rw [hxdef, hk, zpow_add₀ (by norm_num)]
    push_cast
    rw [zpow_natCast]
    field_simp
  rw [hdiv, rne_int, ← hdiv]
  field_simp

theorem fl_nat (p n : ℕ) (h : n < 2 ^ p) : fl p (n : ℚ) = n := by
  have := fl_exact p n 0 (by rw [abs_of_nonneg (by positivity)]; exact_mod_cast h)
  simpa using this

theorem fl_int (p : ℕ) (n : ℤ) (h : |n| < 2 ^ p) : fl p (n : ℚ) = n := by
  have := fl_exact p n 0 h
  simpa using this

theorem fl_nat_div (p n k : ℕ) (h : n < 2 ^ p) : fl p ((n : ℚ) / 2 ^ k) = (n : ℚ) / 2 ^ k := by
  have := fl_exact p n (-(k : ℤ)) (by rw [abs_of_nonneg (by positivity)]; exact_mod_cast h)
  rw [zpow_neg, zpow_natCast, ← div_eq_mul_inv] at this
  simpa using this

/-- The rounding error is at most half a unit in the last place. -/
theorem fl_err (p : ℕ) (x : ℚ) : |fl p x - x| ≤ |x| * 2 ^ (-(p : ℤ)) := by
  by_cases hx : x = 0
  · simp [hx, fl]
  unfold fl
  rw [if_neg hx]
  set L := Int.log 2 |x| with hL
  set u := L - ((p : ℤ) - 1) with hu
  have hupos : (0 : ℚ) < 2 ^ u := by positivity
  have hxpos : 0 < |x| := abs_pos.mpr hx
  have h1 : (2 : ℚ) ^ L ≤ |x| := by
    simpa using Int.zpow_log_le_self (b := 2) (R := ℚ) (by norm_num) hxpos
  have h2 := rne_spec (x / 2 ^ u)
  have h3 : (rne (x / 2 ^ u) : ℚ) * 2 ^ u - x = ((rne (x / 2 ^ u) : ℚ) - x / 2 ^ u) * 2 ^ u := by
    field_simp
  rw [h3, abs_mul, abs_of_pos hupos]
  calc |(rne (x / 2 ^ u) : ℚ) - x / 2 ^ u| * 2 ^ u ≤ 1 / 2 * 2 ^ u :=
        mul_le_mul_of_nonneg_right h2 hupos.le
    _ = 2 ^ L * 2 ^ (-(p : ℤ)) := by
        rw [hu, show L - ((p : ℤ) - 1) = L + (-(p : ℤ)) + 1 by ring, zpow_add₀ (by norm_num),
          zpow_add₀ (by norm_num)]
        ring
    _ ≤ |x| * 2 ^ (-(p : ℤ)) := mul_le_mul_of_nonneg_right h1 (by positivity)

theorem fl_nonneg (p : ℕ) {x : ℚ} (h : 0 ≤ x) : 0 ≤ fl p x := by
  unfold fl
  split
  · exact le_refl _
  · have : (0 : ℤ) ≤ rne (x / 2 ^ (Int.log 2 |x| - ((p : ℤ) - 1))) := by
      apply le_rne_int
      simp only [Int.cast_zero]
      positivity
    have h2 : (0 : ℚ) ≤ (rne (x / 2 ^ (Int.log 2 |x| - ((p : ℤ) - 1))) : ℚ) := by exact_mod_cast this
    positivity

/-- How to evaluate `fl` at a concrete positive number. -/
theorem fl_eval (p : ℕ) (x : ℚ) (L : ℤ) (h1 : (2 : ℚ) ^ L ≤ x) (h2 : x < 2 ^ (L + 1)) :
    fl p x = (rne (x / 2 ^ (L - ((p : ℤ) - 1))) : ℚ) * 2 ^ (L - ((p : ℤ) - 1)) := by
  have hx : 0 < x := lt_of_lt_of_le (by positivity) h1
  have hlog : Int.log 2 |x| = L := by
    rw [abs_of_pos hx]
    apply le_antisymm
    · have := Int.zpow_log_le_self (b := 2) (R := ℚ) (by norm_num) hx
      have h3 : (2 : ℚ) ^ (Int.log 2 x) < 2 ^ (L + 1) := lt_of_le_of_lt (by simpa using this) h2
      have := (zpow_lt_zpow_iff_right₀ (a := (2 : ℚ)) (by norm_num)).mp h3
      omega
    · have := Int.lt_zpow_succ_log_self (b := 2) (R := ℚ) (by norm_num) x
      have h3 : (2 : ℚ) ^ L < 2 ^ (Int.log 2 x + 1) := lt_of_le_of_lt h1 (by simpa using this)
      have := (zpow_lt_zpow_iff_right₀ (a := (2 : ℚ)) (by norm_num)).mp h3
      omega
  unfold fl
  rw [if_neg (ne_of_gt hx), hlog]

/-- Between two consecutive powers of two, rounding stays in the closed binade (needs `p ≥ 1`). -/
theorem fl_binade (p : ℕ) (hp : 1 ≤ p) (x : ℚ) (L : ℤ) (h1 : (2 : ℚ) ^ L ≤ x) (h2 : x < 2 ^ (L + 1)) :
    (2 : ℚ) ^ L ≤ fl p x ∧ fl p x ≤ 2 ^ (L + 1) := by
  rw [fl_eval p x L h1 h2]
  set u := L - ((p : ℤ) - 1) with hu
  have hupos : (0 : ℚ) < 2 ^ u := by positivity
  have e1 : (2 : ℚ) ^ L = ((2 ^ (p - 1) : ℤ) : ℚ) * 2 ^ u := by
    push_cast
    rw [← zpow_natCast, ← zpow_add₀ (by norm_num)]
    congr 1
    omega
  have e2 : (2 : ℚ) ^ (L + 1) = ((2 ^ p : ℤ) : ℚ) * 2 ^ u := by
    push_cast
    rw [← zpow_natCast, ← zpow_add₀ (by norm_num)]
    congr 1
    omega
  constructor
  · rw [e1]
    apply mul_le_mul_of_nonneg_right _ hupos.le
    have : (2 ^ (p - 1) : ℤ) ≤ rne (x / 2 ^ u) := by
      apply le_rne_int
      rw [le_div_iff₀ hupos, ← e1]; exact h1
    exact_mod_cast this
  · rw [e2]
    apply mul_le_mul_of_nonneg_right _ hupos.le
    have : rne (x / 2 ^ u) ≤ (2 ^ p : ℤ) := by
      apply rne_le_int
      rw [div_le_iff₀ hupos, ← e2]; exact h2.le
    exact_mod_cast this

/-- Rounding is monotone on non-negative numbers. -/
theorem fl_mono_nonneg (p : ℕ) (hp : 1 ≤ p) {x y : ℚ} (hx : 0 ≤ x) (h : x ≤ y) : fl p x ≤ fl p y := by
  rcases hx.eq_or_lt with rfl | hx
  · rw [fl_zero]; exact fl_nonneg p h
  have hy : 0 < y := lt_of_lt_of_le hx h
  have a1 : (2 : ℚ) ^ (Int.log 2 x) ≤ x := by
    simpa using Int.zpow_log_le_self (b := 2) (R := ℚ) (by norm_num) hx
  have a2 : x < (2 : ℚ) ^ (Int.log 2 x + 1) := by
    simpa using Int.lt_zpow_succ_log_self (b := 2) (R := ℚ) (by norm_num) x
  have b1 : (2 : ℚ) ^ (Int.log 2 y) ≤ y := by
    simpa using Int.zpow_log_le_self (b := 2) (R := ℚ) (by norm_num) hy
  have b2 : y < (2 : ℚ) ^ (Int.log 2 y + 1) := by
    simpa using Int.lt_zpow_succ_log_self (b := 2) (R := ℚ) (by norm_num) y
  have hl : Int.log 2 x ≤ Int.log 2 y := Int.log_mono_right hx h
  rcases hl.eq_or_lt with he | hlt
  · rw [fl_eval p x _ a1 a2, fl_eval p y _ b1 b2, he]
    have hupos : (0 : ℚ) < 2 ^ (Int.log 2 y - ((p : ℤ) - 1)) := by positivity
    apply mul_le_mul_of_nonneg_right _ hupos.le
    have : rne (x / 2 ^ (Int.log 2 y - ((p : ℤ) - 1))) ≤ rne (y / 2 ^ (Int.log 2 y - ((p : ℤ) - 1))) :=
      rne_mono (div_le_div_of_nonneg_right h hupos.le)
    exact_mod_cast this
  · calc fl p x ≤ 2 ^ (Int.log 2 x + 1) := (fl_binade p hp x _ a1 a2).2
      _ ≤ 2 ^ (Int.log 2 y) := zpow_le_zpow_right₀ (by norm_num) (by omega)
      _ ≤ fl p y := (fl_binade p hp y _ b1 b2).1

theorem intlog_eq (r : ℚ) (L : ℤ) (h1 : (2 : ℚ) ^ L ≤ r) (h2 : r < 2 ^ (L + 1)) : Int.log 2 r = L := by
  have hx : 0 < r := lt_of_lt_of_le (by positivity) h1
  apply le_antisymm
  · have := (Int.lt_zpow_iff_log_lt (b := 2) (by norm_num) (x := L + 1) hx).mp (by exact_mod_cast h2)
    omega
  · exact (Int.zpow_le_iff_le_log (b := 2) (by norm_num) hx).mp (by exact_mod_cast h1)

theorem intlog_mul_zpow (r : ℚ) (hr : 0 < r) (k : ℤ) : Int.log 2 (r * 2 ^ k) = Int.log 2 r + k := by
  have h1 : (2 : ℚ) ^ (Int.log 2 r) ≤ r := by exact_mod_cast Int.zpow_log_le_self (b := 2) (by norm_num) hr
  have h2 : r < (2 : ℚ) ^ (Int.log 2 r + 1) := by exact_mod_cast Int.lt_zpow_succ_log_self (b := 2) (by norm_num) r
  have hk : (0 : ℚ) < 2 ^ k := by positivity
  apply intlog_eq
  · rw [zpow_add₀ (by norm_num)]
    exact mul_le_mul_of_nonneg_right h1 hk.le
  · rw [show Int.log 2 r + k + 1 = Int.log 2 r + 1 + k by ring, zpow_add₀ (by norm_num)]
    exact mul_lt_mul_of_pos_right h2 hk

/-- Scaling by a power of two commutes with rounding. -/
theorem fl_mul_zpow (p : ℕ) (x : ℚ) (k : ℤ) : fl p (x * 2 ^ k) = fl p x * 2 ^ k := by
  have hk : (0 : ℚ) < 2 ^ k := by positivity
  unfold fl
  by_cases hx : x = 0
  · simp [hx]
  rw [if_neg hx, if_neg (mul_ne_zero hx hk.ne'), abs_mul, abs_of_pos hk, intlog_mul_zpow _ (abs_pos.mpr hx)]
  have e : Int.log 2 |x| + k - ((p : ℤ) - 1) = (Int.log 2 |x| - ((p : ℤ) - 1)) + k := by ring
  rw [e, zpow_add₀ (by norm_num)]
  rw [mul_div_mul_right _ _ hk.ne']
  ring

theorem fl_nonneg_iff (p : ℕ) (hp : 1 ≤ p) (x : ℚ) : 0 ≤ fl p x ↔ 0 ≤ x := by
  refine ⟨fun h => ?_, fl_nonneg p⟩
  by_contra hx
  push Not at hx
  have he := fl_err p x
  have hu : (2 : ℚ) ^ (-(p : ℤ)) ≤ 1 / 2 := by
    have : (2 : ℚ) ^ (-(p : ℤ)) ≤ 2 ^ (-1 : ℤ) := zpow_le_zpow_right₀ (by norm_num) (by omega)
    norm_num at this ⊢
    linarith
  rw [abs_of_neg hx, abs_le] at he
  nlinarith

/-- Rounding never produces zero from a non-zero number. -/
theorem fl_ne_zero (p : ℕ) (hp : 1 ≤ p) {x : ℚ} (hx : x ≠ 0) : fl p x ≠ 0 := by
  intro h
  have h1 := fl_err p x
  rw [h, zero_sub, abs_neg] at h1
  have h2 : 0 < |x| := abs_pos.mpr hx
  have h3 : (2 : ℚ) ^ (-(p : ℤ)) < 1 := by
    rw [zpow_neg, zpow_natCast]
    apply inv_lt_one_of_one_lt₀
    exact one_lt_pow₀ (by norm_num) (by omega)
  have : |x| * 2 ^ (-(p : ℤ)) < |x| := by
    calc |x| * 2 ^ (-(p : ℤ)) < |x| * 1 := mul_lt_mul_of_pos_left h3 h2
      _ = |x| := mul_one _
  linarith

/-- Absolute form of the rounding error. -/
theorem fl_err_abs (p : ℕ) (x : ℚ) (L : ℤ) (h : |x| < 2 ^ (L + 1)) : |fl p x - x| ≤ 2 ^ (L - p) := by
  by_cases hx : x = 0
  · simp [hx, fl]; positivity
  unfold fl
  rw [if_neg hx]
  have hxpos : 0 < |x| := abs_pos.mpr hx
  have h1 : (2 : ℚ) ^ Int.log 2 |x| ≤ |x| := by
    simpa using Int.zpow_log_le_self (b := 2) (R := ℚ) (by norm_num) hxpos
  have hle : Int.log 2 |x| ≤ L := by
    have h3 : (2 : ℚ) ^ (Int.log 2 |x|) < 2 ^ (L + 1) := lt_of_le_of_lt h1 h
    have := (zpow_lt_zpow_iff_right₀ (a := (2 : ℚ)) (by norm_num)).mp h3
    omega
  generalize Int.log 2 |x| = M at h1 hle ⊢
  obtain ⟨u, hu⟩ : ∃ u, u = M - ((p : ℤ) - 1) := ⟨_, rfl⟩
  rw [← hu]
  have hupos : (0 : ℚ) < 2 ^ u := by positivity
  have h2 := rne_spec (x / 2 ^ u)
  have h3 : (rne (x / 2 ^ u) : ℚ) * 2 ^ u - x = ((rne (x / 2 ^ u) : ℚ) - x / 2 ^ u) * 2 ^ u := by
    field_simp
  rw [h3, abs_mul, abs_of_pos hupos]
  calc |(rne (x / 2 ^ u) : ℚ) - x / 2 ^ u| * 2 ^ u ≤ 1 / 2 * 2 ^ u :=
        mul_le_mul_of_nonneg_right h2 hupos.le
    _ = 2 ^ (M - p) := by
        rw [hu, show M - ((p : ℤ) - 1) = (M - p) + 1 by ring, zpow_add₀ (by norm_num)]
        ring
    _ ≤ 2 ^ (L - p) := zpow_le_zpow_right₀ (by norm_num) (by omega)

end Fp
