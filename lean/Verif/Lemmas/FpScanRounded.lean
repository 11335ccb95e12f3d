import Verif.Props.FpRounded

/-! Helper lemmas for `Verif/Props/FpScanRounded.lean`. -/
namespace Fp
open Spec

/-- One precompensation: the errors of its roundings. -/
theorem scan_error (rnd rndA : ℚ → ℚ) (hr : RelErr rnd) (hra : RelErr rndA) (df0 dt1 df1 t : ℚ) (h0 : |df0| ≤ 1 / 2 ^ 10)
    (h1 : |df1| ≤ 1 / 2 ^ 13) :
    |corrected (rnd (0 + rnd (rnd (1 + df0) * dt1))) (rnd (rnd (rnd (1 + df0) * rnd (1 + df1)) - 1)) t -
      corrected dt1 df1 (rndA (rndA (t - 0) / rnd (1 + df0)))| ≤ (|t| + |dt1|) / 2 ^ 49 := by
  obtain ⟨η1, k1, e1⟩ := relErr_factor hr (1 + df0)
  have hf : |rnd (1 + df0) - 1| ≤ 1 / 2 ^ 9 := by
    have q := hr (1 + df0)
    have q2 := abs_add_le 1 df0
    have q3 := abs_add_le (rnd (1 + df0) - (1 + df0)) df0
    rw [abs_one] at q2
    rw [show rnd (1 + df0) - (1 + df0) + df0 = rnd (1 + df0) - 1 by ring] at q3
    norm_num at *
    linarith
  clear e1 k1
  generalize rnd (1 + df0) = f at *
  have hf' := abs_le.mp hf
  have hf0 : 0 < f := by linarith [hf'.1]
  obtain ⟨η2, k2, e2⟩ := relErr_factor hr (f * dt1)
  obtain ⟨η3, k3, e3⟩ := relErr_factor hr (0 + rnd (f * dt1))
  obtain ⟨η4, k4, e4⟩ := relErr_factor hr (1 + df1)
  obtain ⟨η5, k5, e5⟩ := relErr_factor hr (f * rnd (1 + df1))
  obtain ⟨η6, k6, e6⟩ := relErr_factor hra (t - 0)
  obtain ⟨η7, k7, e7⟩ := relErr_factor hra (rndA (t - 0) / f)
  have hA := triple (1 / 2 ^ 53) η2 η3 0 (by positivity) (by norm_num) k2 k3 (by norm_num)
  have hB := triple (1 / 2 ^ 53) η4 η5 0 (by positivity) (by norm_num) k4 k5 (by norm_num)
  have hC := triple (1 / 2 ^ 53) η6 η7 0 (by positivity) (by norm_num) k6 k7 (by norm_num)
  rw [add_zero, mul_one] at hA hB hC
  have e3' : rnd (0 + rnd (f * dt1)) = f * dt1 * (1 + ((1 + η2) * (1 + η3) - 1)) := by rw [e3, e2]; ring
  have e5' : rnd (f * rnd (1 + df1)) = f * (1 + df1) * (1 + ((1 + η4) * (1 + η5) - 1)) := by rw [e5, e4]; ring
  have e7' : rndA (rndA (t - 0) / f) = t * (1 + ((1 + η6) * (1 + η7) - 1)) / f := by rw [e7, e6]; field_simp; ring
  rw [e3', e7']
  have hF := hr (rnd (f * rnd (1 + df1)) - 1)
  rw [e5'] at hF ⊢
  clear e2 e3 e4 e5 e6 e7 e3' e5' e7'
  generalize (1 + η2) * (1 + η3) - 1 = α at *
  generalize (1 + η4) * (1 + η5) - 1 = β at *
  generalize (1 + η6) * (1 + η7) - 1 = γ at *
  clear k2 k3 k4 k5 k6 k7
  have hh := abs_le.mp h1
  have hu : (0 : ℚ) < 1 / 2 ^ 53 := by positivity
  have hK : |f * (1 + df1) - 1| ≤ 1 / 2 ^ 8 := by
    have q : f * (1 + df1) - 1 = (f - 1) + df1 + (f - 1) * df1 := by ring
    have q2 := abs_add_three (f - 1) df1 ((f - 1) * df1)
    have q3 : |(f - 1) * df1| ≤ 1 / 2 ^ 9 * (1 / 2 ^ 13) := by
      rw [abs_mul]; exact mul_le_mul hf h1 (abs_nonneg _) (by positivity)
    rw [q]
    norm_num at *
    linarith
  set K := f * (1 + df1) with hKdef
  have hK' := abs_le.mp hK
  have hKabs : |K| ≤ 1 + 1 / 2 ^ 8 := by rw [abs_le]; constructor <;> linarith [hK'.1, hK'.2]
  have hKb : |K * β| ≤ (1 + 1 / 2 ^ 8) * (4 * (1 / 2 ^ 53)) := by
    rw [abs_mul]; exact mul_le_mul hKabs hB (abs_nonneg _) (by norm_num)
  have hρ : |rnd (K * (1 + β) - 1) - (K - 1)| ≤ 5 * (1 / 2 ^ 53) := by
    have q1 : |K * (1 + β) - 1| ≤ 1 / 2 ^ 7 := by
      have q := abs_add_le (K - 1) (K * β)
      rw [show K - 1 + K * β = K * (1 + β) - 1 by ring] at q
      norm_num at *
      linarith
    have q := abs_add_le (rnd (K * (1 + β) - 1) - (K * (1 + β) - 1)) (K * β)
    rw [show rnd (K * (1 + β) - 1) - (K * (1 + β) - 1) + K * β = rnd (K * (1 + β) - 1) - (K - 1) by ring] at q
    norm_num at *
    linarith
  generalize rnd (K * (1 + β) - 1) = df at *
  generalize hρe : df - (K - 1) = ρ at *
  have hdf : 1 + df = K + ρ := by rw [← hρe]; ring
  have hρ' := abs_le.mp hρ
  have hK0 : 1 - 1 / 2 ^ 8 ≤ K := by linarith [hK'.1]
  have hL0 : 1 - 1 / 2 ^ 7 ≤ K + ρ := by
    have := hρ'.1
    norm_num at *
    linarith
  have hKpos : 0 < K := lt_of_lt_of_le (by norm_num) hK0
  have hLpos : 0 < K + ρ := lt_of_lt_of_le (by norm_num) hL0
  have hh0 : 0 < 1 + df1 := by
    have := hh.1
    norm_num at *
    linarith
  have hdiff : corrected (f * dt1 * (1 + α)) df t - corrected dt1 df1 (t * (1 + γ) / f) =
      (-(f * dt1 * α * K) - t * γ * K - (t + t * γ - f * dt1) * ρ) / (K * (K + ρ)) := by
    unfold corrected
    rw [hdf]
    have e1 : (t * (1 + γ) / f - dt1) / (1 + df1) = (t * (1 + γ) - f * dt1) / K := by
      rw [hKdef]; field_simp
    rw [e1]
    field_simp
    ring
  rw [hdiff]
  have hfu : |f| ≤ 1 + 1 / 2 ^ 9 := by rw [abs_le]; constructor <;> linarith [hf'.1, hf'.2]
  have hγ1 : |γ| ≤ 1 / 2 ^ 50 := by
    norm_num at *
    linarith
  have b1 : |f * dt1 * α * K| ≤ (1 + 1 / 2 ^ 9) * |dt1| * (4 * (1 / 2 ^ 53)) * (1 + 1 / 2 ^ 8) := by
    rw [abs_mul, abs_mul, abs_mul]
    gcongr
  have b2 : |t * γ * K| ≤ |t| * (4 * (1 / 2 ^ 53)) * (1 + 1 / 2 ^ 8) := by
    rw [abs_mul, abs_mul]
    gcongr
  have b3 : |t + t * γ - f * dt1| ≤ |t| * (1 + 1 / 2 ^ 50) + (1 + 1 / 2 ^ 9) * |dt1| := by
    have q1 := abs_sub (t + t * γ) (f * dt1)
    have q2 := abs_add_le t (t * γ)
    have q3 : |t * γ| ≤ |t| * (1 / 2 ^ 50) := by rw [abs_mul]; gcongr
    have q4 : |f * dt1| ≤ (1 + 1 / 2 ^ 9) * |dt1| := by rw [abs_mul]; gcongr
    linarith
  have b4 : |(t + t * γ - f * dt1) * ρ| ≤ (|t| * (1 + 1 / 2 ^ 50) + (1 + 1 / 2 ^ 9) * |dt1|) * (5 * (1 / 2 ^ 53)) := by
    rw [abs_mul]
    gcongr
  have hnum : |-(f * dt1 * α * K) - t * γ * K - (t + t * γ - f * dt1) * ρ| ≤ (|t| + |dt1|) * (10 * (1 / 2 ^ 53)) := by
    have q1 := abs_sub (-(f * dt1 * α * K) - t * γ * K) ((t + t * γ - f * dt1) * ρ)
    have q2 := abs_sub (-(f * dt1 * α * K)) (t * γ * K)
    rw [abs_neg] at q2
    have p1 := abs_nonneg t
    have p2 := abs_nonneg dt1
    generalize |f * dt1 * α * K| = A1 at *
    generalize |t * γ * K| = A2 at *
    generalize |(t + t * γ - f * dt1) * ρ| = A3 at *
    generalize |t| = T at *
    generalize |dt1| = D at *
    norm_num at b1 b2 b4 ⊢
    linarith
  have hden : 1 - 1 / 2 ^ 6 ≤ K * (K + ρ) := by
    have := mul_le_mul hK0 hL0 (by norm_num) hKpos.le
    refine le_trans ?_ this
    norm_num
  have hden0 : 0 < K * (K + ρ) := by positivity
  rw [abs_div, abs_of_pos hden0, div_le_iff₀ hden0]
  refine hnum.trans ?_
  have s : (|t| + |dt1|) / 2 ^ 49 * (1 - 1 / 2 ^ 6) ≤ (|t| + |dt1|) / 2 ^ 49 * (K * (K + ρ)) :=
    mul_le_mul_of_nonneg_left hden (by positivity)
  refine le_trans ?_ s
  have p : 0 ≤ |t| + |dt1| := by positivity
  generalize |t| + |dt1| = T at *
  norm_num
  linarith

theorem precomp_abs (rnd rndA : ℚ → ℚ) (hr : RelErr rnd) (hra : RelErr rndA) (df0 t : ℚ) (h0 : |df0| ≤ 1 / 2 ^ 10) :
    |rndA (rndA (t - 0) / rnd (1 + df0))| ≤ |t| * (1 + 1 / 2 ^ 8) := by
  have hf : 1 - 1 / 2 ^ 9 ≤ rnd (1 + df0) := by
    have q := (abs_le.mp (hr (1 + df0))).1
    have q2 := abs_add_le 1 df0
    have q3 := (abs_le.mp h0).1
    rw [abs_one] at q2
    norm_num at *
    linarith
  generalize rnd (1 + df0) = f at *
  have hf0 : 0 < f := lt_of_lt_of_le (by norm_num) hf
  obtain ⟨η6, k6, e6⟩ := relErr_factor hra (t - 0)
  obtain ⟨η7, k7, e7⟩ := relErr_factor hra (rndA (t - 0) / f)
  have hC := triple (1 / 2 ^ 53) η6 η7 0 (by positivity) (by norm_num) k6 k7 (by norm_num)
  rw [add_zero, mul_one] at hC
  have e : rndA (rndA (t - 0) / f) = t * (1 + ((1 + η6) * (1 + η7) - 1)) / f := by rw [e7, e6]; field_simp; ring
  rw [e]
  generalize (1 + η6) * (1 + η7) - 1 = γ at *
  have hg : |1 + γ| ≤ 1 + 1 / 2 ^ 10 := by
    have := abs_add_le 1 γ
    rw [abs_one] at this
    norm_num at *
    linarith
  rw [abs_div, abs_of_pos hf0, div_le_iff₀ hf0, abs_mul, mul_assoc]
  apply mul_le_mul_of_nonneg_left _ (abs_nonneg t)
  refine hg.trans ?_
  nlinarith

end Fp
