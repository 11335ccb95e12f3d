import Verif.Spec.Epoch
import Verif.Lemmas.Float
import Verif.Lemmas.Text
import Mathlib.Tactic.NormNum.GCD

/-! Helper lemmas for `Verif/Props/EpochDates.lean`. -/
namespace Fp
open Spec

theorem c125 : fl 53 (125 / 10 ^ 12) = 4835703278458517 / 2 ^ 85 := by
  rw [fl_eval 53 _ (-33) (by norm_num) (by norm_num)]
  have : rne ((125 : ℚ) / 10 ^ 12 / 2 ^ ((-33 : ℤ) - (((53 : ℕ) : ℤ) - 1))) = 4835703278458517 := by
    unfold rne
    have hf : ⌊(125 : ℚ) / 10 ^ 12 / 2 ^ ((-33 : ℤ) - (((53 : ℕ) : ℤ) - 1))⌋ = 4835703278458516 ∨
        ⌊(125 : ℚ) / 10 ^ 12 / 2 ^ ((-33 : ℤ) - (((53 : ℕ) : ℤ) - 1))⌋ = 4835703278458517 := by
      left; rw [Int.floor_eq_iff]; constructor <;> norm_num
    rcases hf with h | h <;> rw [h] <;> norm_num
  rw [this]
  norm_num

theorem timestamp_floor (us : Nat) (h : us < 2 ^ 32 * 10 ^ 6) : ⌊dateTimestamp us⌋.toNat = us / 10 ^ 6 := by
  have hs : us / 10 ^ 6 < 2 ^ 32 := by omega
  have hm : us % 10 ^ 6 < 10 ^ 6 := Nat.mod_lt _ (by norm_num)
  unfold dateTimestamp
  generalize us / 10 ^ 6 = s at *
  generalize us % 10 ^ 6 = m at *
  have hsq : (s : ℚ) < 2 ^ 32 := by exact_mod_cast hs
  have hmq : (m : ℚ) ≤ 999999 := by exact_mod_cast Nat.le_of_lt_succ hm
  have hm0 : (0 : ℚ) ≤ m := by positivity
  have hs0 : (0 : ℚ) ≤ s := by positivity
  have hy0 : 0 ≤ fl 53 ((m : ℚ) / 10 ^ 6) := fl_nonneg 53 (by positivity)
  have hy1 := fl_err_abs 53 ((m : ℚ) / 10 ^ 6) 0 (by rw [abs_of_nonneg (by positivity)]; norm_num; linarith)
  generalize fl 53 ((m : ℚ) / 10 ^ 6) = y at *
  have hy2 : y ≤ 9999995 / 10000000 := by
    have := (abs_le.mp hy1).2
    norm_num at this
    linarith
  have hz0 : (s : ℚ) ≤ fl 53 ((s : ℚ) + y) := by
    have := fl_mono_nonneg 53 (by norm_num) hs0 (show (s : ℚ) ≤ s + y by linarith)
    rwa [fl_nat 53 s (by omega)] at this
  have hz1 := fl_err_abs 53 ((s : ℚ) + y) 32 (by rw [abs_of_nonneg (by linarith)]; refine lt_of_lt_of_le (show (s : ℚ) + y < 2 ^ 32 + 1 by linarith) (by norm_num))
  generalize fl 53 ((s : ℚ) + y) = z at *
  have hz2 : z < s + 1 := by
    have := (abs_le.mp hz1).2
    norm_num at this
    linarith
  have : ⌊z⌋ = (s : ℤ) := by
    rw [Int.floor_eq_iff]
    exact ⟨by exact_mod_cast hz0, by exact_mod_cast hz2⟩
  rw [this]
  simp

/-- The units of 125 ps computed from whole seconds are off by less than 2^12. -/
theorem units_err (s : Nat) (h : s < 2 ^ 31) :
    |fl 53 ((s : ℚ) / fl 53 (125 / 10 ^ 12)) - (s : ℚ) * 8000000000| < 4096 := by
  rw [c125]
  have hsq : (s : ℚ) < 2 ^ 31 := by exact_mod_cast h
  have hs0 : (0 : ℚ) ≤ s := by positivity
  have e : (s : ℚ) / (4835703278458517 / 2 ^ 85) = s * (2 ^ 85 / 4835703278458517) := by ring
  rw [e]
  have h1 := fl_err_abs 53 ((s : ℚ) * (2 ^ 85 / 4835703278458517)) 63 (by
    rw [abs_of_nonneg (by positivity)]
    calc (s : ℚ) * (2 ^ 85 / 4835703278458517) ≤ 2 ^ 31 * (2 ^ 85 / 4835703278458517) := by
          apply mul_le_mul_of_nonneg_right hsq.le; positivity
      _ < _ := by norm_num)
  have h2 : |(s : ℚ) * (2 ^ 85 / 4835703278458517) - s * 8000000000| ≤ 2048 := by
    rw [← mul_sub, abs_mul, abs_of_nonneg hs0]
    calc (s : ℚ) * |2 ^ 85 / 4835703278458517 - 8000000000| ≤ 2 ^ 31 * |2 ^ 85 / 4835703278458517 - 8000000000| := by
          apply mul_le_mul_of_nonneg_right hsq.le; positivity
      _ ≤ 2048 := by rw [abs_of_nonpos (by norm_num)]; norm_num
  have h3 : |fl 53 ((s : ℚ) * (2 ^ 85 / 4835703278458517)) - (s : ℚ) * (2 ^ 85 / 4835703278458517)| ≤ 1024 := by
    refine h1.trans ?_
    norm_num
  rw [abs_le] at h2 h3
  rw [abs_lt]
  constructor <;> linarith [h2.1, h2.2, h3.1, h3.2]

/-- The epoch computed from whole seconds: right, or one too small at a boundary. -/
theorem seconds_epoch (s : Nat) (h : s < 2 ^ 31) :
    (⌊fl 53 ((s : ℚ) / fl 53 (125 / 10 ^ 12))⌋.toNat >>> 32 = s * 8000000000 / 2 ^ 32) ∨
      (s % 2 ^ 20 = 0 ∧ ⌊fl 53 ((s : ℚ) / fl 53 (125 / 10 ^ 12))⌋.toNat >>> 32 + 1 = s * 8000000000 / 2 ^ 32) := by
  have he := units_err s h
  have h0 : 0 ≤ fl 53 ((s : ℚ) / fl 53 (125 / 10 ^ 12)) := by
    apply fl_nonneg
    rw [c125]
    positivity
  generalize fl 53 ((s : ℚ) / fl 53 (125 / 10 ^ 12)) = x at *
  rw [abs_lt] at he
  have hf0 : 0 ≤ ⌊x⌋ := Int.floor_nonneg.mpr h0
  obtain ⟨n, hn⟩ := Int.eq_ofNat_of_zero_le hf0
  have g1 : (n : ℚ) ≤ x := by have := Int.floor_le x; rw [hn] at this; exact_mod_cast this
  have g2 : x < n + 1 := by have := Int.lt_floor_add_one x; rw [hn] at this; exact_mod_cast this
  have a1 : n < s * 8000000000 + 4096 := by
    have : (n : ℚ) < s * 8000000000 + 4096 := by linarith [he.2]
    exact_mod_cast this
  have a2 : s * 8000000000 < n + 4097 := by
    have : (s : ℚ) * 8000000000 < n + 4097 := by linarith [he.1]
    exact_mod_cast this
  rw [hn]
  simp only [Int.toNat_natCast, Nat.shiftRight_eq_div_pow]
  obtain ⟨w, hw⟩ : ∃ w, w = s * 1953125 := ⟨_, rfl⟩
  have e : s * 8000000000 = 4096 * w := by rw [hw]; ring
  rw [e] at a1 a2 ⊢
  have hmod : s % 2 ^ 20 = 0 ∨ w % 2 ^ 20 ≠ 0 := by
    by_cases hz : w % 2 ^ 20 = 0
    · left
      have hd : 2 ^ 20 ∣ s * 1953125 := hw ▸ Nat.dvd_of_mod_eq_zero hz
      have := Nat.Coprime.dvd_of_dvd_mul_right (Nat.Coprime.pow_left 20 (show Nat.Coprime 2 1953125 by norm_num)) hd
      exact Nat.mod_eq_zero_of_dvd this
    · exact Or.inr hz
  clear hw e
  rcases hmod with hz | hz
  · have : n / 2 ^ 32 = 4096 * w / 2 ^ 32 ∨ n / 2 ^ 32 + 1 = 4096 * w / 2 ^ 32 := by omega
    rcases this with h1 | h1
    · exact Or.inl h1
    · exact Or.inr ⟨hz, h1⟩
  · left
    omega

theorem date2epoch_eq (us : Nat) (h : us < 2 ^ 31 * 10 ^ 6) :
    date2epoch us = hexPad 8 ((us / 10 ^ 6) * 8000000000 / 2 ^ 32) ∨
      (us / 10 ^ 6 % 2 ^ 20 = 0 ∧ ∃ v, v + 1 = (us / 10 ^ 6) * 8000000000 / 2 ^ 32 ∧ date2epoch us = hexPad 8 v) := by
  unfold date2epoch
  rw [timestamp_floor us (by omega)]
  rcases seconds_epoch (us / 10 ^ 6) (by omega) with h1 | ⟨h1, h2⟩
  · left; rw [h1]
  · exact Or.inr ⟨h1, _, h2, rfl⟩

theorem fromTimestamp_err (x : ℚ) (hx0 : 0 ≤ x) : |(fromTimestamp x : ℚ) - x * 1000000| ≤ 500001 / 1000000 := by
  unfold fromTimestamp
  have hf : 0 ≤ x - ⌊x⌋ := by linarith [Int.floor_le x]
  have hf1 : x - ⌊x⌋ < 1 := by linarith [Int.lt_floor_add_one x]
  have h5 := fl_err_abs 53 ((x - ⌊x⌋) * 10 ^ 6) 20 (by
    rw [abs_of_nonneg (by positivity)]
    refine lt_of_lt_of_le (show (x - ⌊x⌋) * 10 ^ 6 < 1 * 10 ^ 6 from mul_lt_mul_of_pos_right hf1 (by norm_num)) (by norm_num))
  have h5' : |fl 53 ((x - ⌊x⌋) * 10 ^ 6) - (x - ⌊x⌋) * 1000000| ≤ 1 / 1000000 := by
    norm_num at h5 ⊢
    exact h5.trans (by norm_num)
  have hr0 : 0 ≤ fl 53 ((x - ⌊x⌋) * 10 ^ 6) := fl_nonneg 53 (by positivity)
  generalize fl 53 ((x - ⌊x⌋) * 10 ^ 6) = y at *
  have hy := rne_spec y
  have hy0 : 0 ≤ rne y := le_rne_int (by simpa using hr0)
  have hfl : 0 ≤ ⌊x⌋ := Int.floor_nonneg.mpr hx0
  obtain ⟨n, hn⟩ := Int.eq_ofNat_of_zero_le hfl
  obtain ⟨m, hm⟩ := Int.eq_ofNat_of_zero_le hy0
  rw [hn] at h5' ⊢
  rw [hm] at hy ⊢
  clear h5 hf hf1 hn hm
  simp only [Int.toNat_natCast, Int.cast_natCast] at *
  rw [Nat.cast_add, Nat.cast_mul, Nat.cast_pow, Nat.cast_ofNat]
  rw [abs_le] at *
  obtain ⟨h5a, h5b⟩ := h5'
  obtain ⟨hya, hyb⟩ := hy
  constructor <;> linarith

theorem epoch_seconds (e : Nat) (h : e < 2 ^ 32) :
    0 ≤ fl 53 (fl 53 (((e : ℤ) : ℚ) * 2 ^ 32) * fl 53 (125 / 10 ^ 12)) ∧
    |fl 53 (fl 53 (((e : ℤ) : ℚ) * 2 ^ 32) * fl 53 (125 / 10 ^ 12)) - (e : ℚ) * (536870912 / 1000000000)| ≤ 42 / 100000000 := by
  have h1 : fl 53 (((e : ℤ) : ℚ) * 2 ^ 32) = (e : ℚ) * 2 ^ 32 := by
    have h1 := fl_exact 53 (e : ℤ) 32 (by rw [abs_of_nonneg (by positivity)]; omega)
    have h2 : ((2 : ℚ) ^ (32 : ℤ)) = 2 ^ 32 := by norm_num
    rw [h2] at h1
    rw [h1, Int.cast_natCast]
  rw [h1, c125]
  have heq : (e : ℚ) ≤ 2 ^ 32 := by exact_mod_cast h.le
  have he0 : (0 : ℚ) ≤ e := by positivity
  have ea : (e : ℚ) * 2 ^ 32 * (4835703278458517 / 2 ^ 85) = e * (4835703278458517 / 2 ^ 53) := by
    rw [mul_assoc]
    congr 1
    norm_num
  rw [ea]
  have hx0 : 0 ≤ fl 53 ((e : ℚ) * (4835703278458517 / 2 ^ 53)) := fl_nonneg 53 (by positivity)
  refine ⟨hx0, ?_⟩
  have h2 := fl_err_abs 53 ((e : ℚ) * (4835703278458517 / 2 ^ 53)) 31 (by
    rw [abs_of_nonneg (by positivity)]
    calc (e : ℚ) * (4835703278458517 / 2 ^ 53) ≤ 2 ^ 32 * (4835703278458517 / 2 ^ 53) := by
          apply mul_le_mul_of_nonneg_right heq; positivity
      _ < _ := by norm_num)
  have h3 : |(e : ℚ) * (4835703278458517 / 2 ^ 53) - e * (536870912 / 1000000000)| ≤ 17 / 100000000 := by
    rw [← mul_sub, abs_mul, abs_of_nonneg he0]
    calc (e : ℚ) * |4835703278458517 / 2 ^ 53 - 536870912 / 1000000000|
        ≤ 2 ^ 32 * |4835703278458517 / 2 ^ 53 - 536870912 / 1000000000| := by
          apply mul_le_mul_of_nonneg_right heq; positivity
      _ ≤ _ := by rw [abs_of_nonneg (by norm_num)]; norm_num
  have h4 : |fl 53 ((e : ℚ) * (4835703278458517 / 2 ^ 53)) - e * (4835703278458517 / 2 ^ 53)| ≤ 24 / 100000000 := by
    refine h2.trans ?_
    norm_num
  generalize fl 53 ((e : ℚ) * (4835703278458517 / 2 ^ 53)) = x at *
  generalize (e : ℚ) * (4835703278458517 / 2 ^ 53) = y at *
  clear h2 ea h1
  rw [abs_le] at *
  obtain ⟨h3a, h3b⟩ := h3
  obtain ⟨h4a, h4b⟩ := h4
  constructor <;> linarith

end Fp
