import Verif.Spec.FpConverge
import Verif.Props.FpNoiseRun

/-! Helper lemmas for `Verif/Props/FpConverge.lean`. -/
namespace Fp
open Spec

/-- The accumulated frequency after an iteration is near that of the clock. -/
theorem freq_near {f dt c0 c1 τ φ sep dt1 df1 ε ρ : ℚ} (hsep : 0 < sep) (hf : |f - 1| ≤ 1 / 2 ^ 12)
    (g0 : |f * c0 + dt - τ| ≤ ρ) (g1 : |f * c1 + dt - (sep * (1 + φ) + τ)| ≤ ρ)
    (h0 : |dt1 - c0| ≤ ε) (h1 : |dt1 + df1 * sep - (c1 - sep)| ≤ ε) :
    |f * (1 + df1) - (1 + φ)| ≤ (201 / 100 * ε + 2 * ρ) / sep := by
  have hε : 0 ≤ ε := (abs_nonneg _).trans h0
  have hfa : |f| ≤ 1 + 1 / 2 ^ 12 := by
    have := abs_sub_abs_le_abs_sub f 1
    rw [abs_one] at this
    linarith
  rw [le_div_iff₀ hsep, show |f * (1 + df1) - (1 + φ)| * sep = |(f * (1 + df1) - (1 + φ)) * sep| by
    rw [abs_mul, abs_of_pos hsep]]
  have e : (f * (1 + df1) - (1 + φ)) * sep =
      f * ((dt1 + df1 * sep - (c1 - sep)) - (dt1 - c0)) + ((f * c1 + dt - (sep * (1 + φ) + τ)) - (f * c0 + dt - τ)) := by ring
  rw [e]
  have t1 := abs_add_le (f * ((dt1 + df1 * sep - (c1 - sep)) - (dt1 - c0)))
    ((f * c1 + dt - (sep * (1 + φ) + τ)) - (f * c0 + dt - τ))
  have t2 := abs_sub (f * c1 + dt - (sep * (1 + φ) + τ)) (f * c0 + dt - τ)
  have t3 := abs_sub (dt1 + df1 * sep - (c1 - sep)) (dt1 - c0)
  have t4 : |f * ((dt1 + df1 * sep - (c1 - sep)) - (dt1 - c0))| ≤ (1 + 1 / 2 ^ 12) * (2 * ε) := by
    rw [abs_mul]
    exact mul_le_mul hfa (by linarith) (abs_nonneg _) (by positivity)
  have t5 : (1 + 1 / 2 ^ 12) * (2 * ε) ≤ 201 / 100 * ε := by
    norm_num
    linarith
  linarith

/-- A frequency near that of a clock within bounds passes the check, also after rounding. -/
theorem freq_accepted {rnd : ℚ → ℚ} (hr : RelErr rnd) {f df1 φ κ : ℚ} (h : |f * (1 + df1) - (1 + φ)| ≤ κ)
    (hφ : |φ| + κ ≤ 1 / 2 ^ 13 - 1 / 2 ^ 40) : |rnd (rnd (f * rnd (1 + df1)) - 1)| < maxFcorr := by
  have hq : |f * (1 + df1) - 1| ≤ 1 / 2 ^ 13 - 1 / 2 ^ 40 := by
    have := abs_add_le (f * (1 + df1) - (1 + φ)) φ
    rw [show f * (1 + df1) - (1 + φ) + φ = f * (1 + df1) - 1 by ring] at this
    linarith
  obtain ⟨η1, k1, e1⟩ := relErr_factor hr (1 + df1)
  obtain ⟨η2, k2, e2⟩ := relErr_factor hr (f * rnd (1 + df1))
  set q := f * (1 + df1) with hqd
  have e3 : rnd (f * rnd (1 + df1)) - 1 = (q - 1) + q * (η1 + η2 + η1 * η2) := by
    rw [e2, e1, hqd]; ring
  have hqa : |q| ≤ 2 := by
    have := abs_sub_abs_le_abs_sub q 1
    rw [abs_one] at this
    norm_num at hq this ⊢
    linarith
  have hη : |η1 + η2 + η1 * η2| ≤ 1 / 2 ^ 51 := by
    have t1 := abs_add_le (η1 + η2) (η1 * η2)
    have t2 := abs_add_le η1 η2
    have t3 : |η1 * η2| ≤ 1 / 2 ^ 53 * (1 / 2 ^ 53) := by
      rw [abs_mul]; exact mul_le_mul k1 k2 (abs_nonneg _) (by positivity)
    norm_num at *
    linarith
  have h4 : |rnd (f * rnd (1 + df1)) - 1| ≤ 1 / 2 ^ 13 - 1 / 2 ^ 40 + 1 / 2 ^ 50 := by
    rw [e3]
    have t1 := abs_add_le (q - 1) (q * (η1 + η2 + η1 * η2))
    have t2 : |q * (η1 + η2 + η1 * η2)| ≤ 2 * (1 / 2 ^ 51) := by
      rw [abs_mul]; exact mul_le_mul hqa hη (abs_nonneg _) (by positivity)
    norm_num at *
    linarith
  have h5 := hr (rnd (f * rnd (1 + df1)) - 1)
  set x := rnd (f * rnd (1 + df1)) - 1
  have h6 := abs_sub_abs_le_abs_sub (rnd x) x
  unfold maxFcorr
  norm_num at *
  linarith

/-- What is left of both delays after an iteration. -/
theorem residual_small {rnd rndA : ℚ → ℚ} (hr : RelErr rnd) (hra : RelErr rndA) {c0 c1 sep dt1 df1 ε : ℚ}
    (hsep : 0 < sep) (hε : ε ≤ sep / 2)
    (hg0 : 0 < 1 + df1) (hginv : 1 / (1 + df1) ≤ 1 + 1 / 2 ^ 10)
    (hdf : df1 ≤ 1 / 2) (h0 : |dt1 - c0| ≤ ε) (h1 : |dt1 + df1 * sep - (c1 - sep)| ≤ ε) :
    |rndA (rndA (c0 - dt1) / rnd (1 + df1))| ≤ 1002 / 1000 * ε ∧
    |rndA (rndA (c1 - dt1) / rnd (1 + df1)) - sep| ≤ 1002 / 1000 * ε + sep / 2 ^ 49 := by
  have hε0 : 0 ≤ ε := (abs_nonneg _).trans h0
  have hdiv : ∀ x, |x| ≤ ε → |x / (1 + df1)| ≤ ε * (1 + 1 / 2 ^ 10) := by
    intro x hx
    rw [abs_div, abs_of_pos hg0, div_eq_mul_one_div]
    exact mul_le_mul hx hginv (by positivity) hε0
  constructor
  · have s1 := last_step hr hra (c0 - dt1) df1 ε hε0 hg0 hginv (by rw [abs_sub_comm]; linarith)
    have s2 := hdiv (c0 - dt1) (by rw [abs_sub_comm]; exact h0)
    have s3 := abs_add_le (rndA (rndA (c0 - dt1) / rnd (1 + df1)) - (c0 - dt1) / (1 + df1)) ((c0 - dt1) / (1 + df1))
    rw [sub_add_cancel] at s3
    norm_num at *
    linarith
  · have hb : |c1 - dt1| ≤ 2 * sep := by
      have e : c1 - dt1 = sep + df1 * sep - (dt1 + df1 * sep - (c1 - sep)) := by ring
      rw [abs_le] at h1 ⊢
      constructor
      · nlinarith [h1.2]
      · nlinarith [h1.1]
    have s1 := last_step hr hra (c1 - dt1) df1 sep hsep.le hg0 hginv hb
    have e : (c1 - dt1) / (1 + df1) - sep = -(dt1 + df1 * sep - (c1 - sep)) / (1 + df1) := by
      field_simp
      ring
    have s2 := hdiv (-(dt1 + df1 * sep - (c1 - sep))) (by rw [abs_neg]; exact h1)
    rw [← e] at s2
    have s3 := abs_sub_le (rndA (rndA (c1 - dt1) / rnd (1 + df1))) ((c1 - dt1) / (1 + df1)) sep
    norm_num at *
    linarith

theorem rnd_ge {rnd : ℚ → ℚ} (hr : RelErr rnd) {x y : ℚ} (hx : 0 ≤ x) (h : y ≤ x * (99 / 100)) : y ≤ rnd x := by
  have := (abs_le.mp (hr x)).1
  rw [abs_of_nonneg hx] at this
  have : x / 2 ^ 53 ≤ x / 100 := div_le_div_of_nonneg_left hx (by norm_num) (by norm_num)
  linarith

/-- An iteration that finds both delays with errors of at most `ε` is not rejected, and what is left of the delays is small. -/
theorem iteration_accepted {rnd rndA : ℚ → ℚ} (hr : RelErr rnd) (hra : RelErr rndA)
    {f dt c0 c1 τ φ sep dt1 dt2 df1 ε ρ E0 E1 : ℚ} {first : Prop} (hsep : 0 < sep) (hf : |f - 1| ≤ 1 / 2 ^ 12)
    (g0 : |f * c0 + dt - τ| ≤ ρ) (g1 : |f * c1 + dt - (sep * (1 + φ) + τ)| ≤ ρ)
    (h0 : |dt1 - c0| ≤ ε) (h2 : |dt2 - (c1 - sep)| ≤ ε) (h1 : |dt1 + df1 * sep - (c1 - sep)| ≤ ε)
    (hε0 : ε ≤ E0) (hε1 : ¬ first → ε ≤ E1) (hE : E1 ≤ E0) (hρ : ρ ≤ E1 / 200) (hsep2 : sep / 2 ^ 49 ≤ E1 / 100)
    (hfirst : first → c0 = τ) (hc : ¬ first → |c0| ≤ 102 / 100 * E0 ∧ |c1 - sep| ≤ 102 / 100 * E0)
    (hτ : |τ| + 3 * E0 ≤ 10 ^ 8) (hφ : |φ| + 3 * E0 / sep ≤ 1 / 2 ^ 13 - 1 / 2 ^ 40)
    (hg1 : 5 / 4 * E0 ≤ |τ| ∨ E0 + E1 ≤ 9) (hg2 : 5 / 2 * E0 ≤ |φ| * sep ∨ 22 * (E0 + E1) ≤ sep / 10 ^ 7) :
    |dt1| ≤ ntpMaxDelay ∧ |rnd (rnd (f * rnd (1 + df1)) - 1)| < maxFcorr ∧
    (¬ first → |dt1| ≤ rnd (10 * max |dt| 1) ∧ |dt2| ≤ rnd (10 * max |dt| 1) ∧
      |df1| ≤ rnd (10 * max |rnd (f - 1)| (rnd (1 / 10 ^ 9)))) ∧
    |rndA (rndA (c0 - dt1) / rnd (1 + df1))| ≤ 102 / 100 * E0 ∧
    |rndA (rndA (c1 - dt1) / rnd (1 + df1)) - sep| ≤ 102 / 100 * E0 ∧
    |rndA (rndA (c0 - dt1) / rnd (1 + df1))| ≤ 1002 / 1000 * ε ∧
    |rndA (rndA (c1 - dt1) / rnd (1 + df1)) - sep| ≤ 1002 / 1000 * ε + sep / 2 ^ 49 := by
  have hε : 0 ≤ ε := (abs_nonneg _).trans h0
  have hρ0 : 0 ≤ ρ := (abs_nonneg _).trans g0
  have hE1 : 0 ≤ E1 := by linarith
  have hE0 : 0 ≤ E0 := hE1.trans hE
  have hφ0 := abs_nonneg φ
  have hτ0 := abs_nonneg τ
  -- the frequency
  have hfr := freq_near hsep hf g0 g1 h0 h1
  have hκ : (201 / 100 * ε + 2 * ρ) / sep ≤ 3 * E0 / sep := div_le_div_of_nonneg_right (by linarith) hsep.le
  have hacc := freq_accepted hr hfr (by linarith)
  have hE0s : 3 * E0 ≤ sep / 2 ^ 13 := by
    have : 3 * E0 / sep ≤ 1 / 2 ^ 13 := by
      have : (0 : ℚ) ≤ 1 / 2 ^ 40 := by norm_num
      linarith
    rw [div_le_iff₀ hsep] at this
    linarith
  have hlo := last_factor hr f df1 hf (small_of_rnd hr _ hacc)
  have hg0 : 0 < 1 + df1 := lt_of_lt_of_le (by norm_num) hlo
  have hginv : 1 / (1 + df1) ≤ 1 + 1 / 2 ^ 10 := by
    rw [div_le_iff₀ hg0]
    norm_num at hlo ⊢
    linarith
  have hdf : df1 ≤ 1 / 2 := by
    have a1 := (abs_le.mp hfr).2
    have a2 := (abs_le.mp hf).1
    have a3 := le_abs_self φ
    have a4 : f * (1 + df1) ≤ 1 + 1 / 2 ^ 13 := by
      have : (0 : ℚ) ≤ 1 / 2 ^ 40 := by norm_num
      linarith
    by_contra hcon
    push Not at hcon
    have : (1 - 1 / 2 ^ 12) * (3 / 2) ≤ f * (1 + df1) := mul_le_mul (by linarith) (by linarith) (by norm_num) (by
      norm_num at a2 ⊢; linarith)
    norm_num at this a4
    linarith
  have hε2 : ε ≤ sep / 2 := by
    have : sep / 2 ^ 13 ≤ sep := div_le_self hsep.le (by norm_num)
    linarith
  obtain ⟨r0, r1⟩ := residual_small hr hra hsep hε2 hg0 hginv hdf h0 h1
  refine ⟨?_, hacc, fun hnf => ?_, by linarith, by linarith, r0, r1⟩
  · have a1 := abs_sub_abs_le_abs_sub dt1 c0
    have a2 : |c0| ≤ |τ| + 2 * E0 := by
      by_cases hfi : first
      · rw [hfirst hfi]
        linarith
      · have := (hc hfi).1
        linarith
    unfold ntpMaxDelay
    linarith
  · obtain ⟨b0, b1⟩ := hc hnf
    have hεE := hε1 hnf
    have hf1 : |f| ≤ 1 + 1 / 2 ^ 12 := by
      have := abs_sub_abs_le_abs_sub f 1
      rw [abs_one] at this
      linarith
    have hfp : 0 < f := by
      have := (abs_le.mp hf).1
      norm_num at this
      linarith
    have hthr : 102 / 100 * E0 + E1 ≤ rnd (10 * max |dt| 1) := by
      refine rnd_ge hr (by positivity) ?_
      have hm : 0 ≤ max |dt| 1 := by positivity
      rcases hg1 with hg | hg
      · have a1 : |τ| ≤ |f * c0| + |dt| + ρ := by
          have e : τ = f * c0 + dt - (f * c0 + dt - τ) := by ring
          have a2 := abs_sub (f * c0 + dt) (f * c0 + dt - τ)
          have a3 := abs_add_le (f * c0) dt
          rw [← e] at a2
          linarith
        have a2 : |f * c0| ≤ (1 + 1 / 2 ^ 12) * (102 / 100 * E0) := by
          rw [abs_mul]
          exact mul_le_mul hf1 b0 (abs_nonneg _) (by norm_num)
        have a3 := le_max_left |dt| 1
        have a4 : (1 + 1 / 2 ^ 12) * (102 / 100 * E0) ≤ 1021 / 1000 * E0 := by
          norm_num
          linarith
        linarith
      · have a3 := le_max_right |dt| 1
        linarith
    refine ⟨?_, ?_, ?_⟩
    · have := abs_sub_abs_le_abs_sub dt1 c0
      linarith
    · have := abs_sub_abs_le_abs_sub dt2 (c1 - sep)
      linarith
    · have hds : |df1| * sep ≤ 204 / 100 * E0 + 2 * E1 := by
        have e : df1 * sep = (dt1 + df1 * sep - (c1 - sep)) + (c1 - sep) - (dt1 - c0) - c0 := by ring
        have a1 := abs_sub ((dt1 + df1 * sep - (c1 - sep)) + (c1 - sep) - (dt1 - c0)) c0
        have a2 := abs_sub ((dt1 + df1 * sep - (c1 - sep)) + (c1 - sep)) (dt1 - c0)
        have a3 := abs_add_le (dt1 + df1 * sep - (c1 - sep)) (c1 - sep)
        rw [← e, abs_mul, abs_of_pos hsep] at a1
        linarith
      refine rnd_ge hr (by positivity) ?_
      rw [← mul_le_mul_iff_left₀ hsep]
      rcases hg2 with hg | hg
      · have a1 : |φ| * sep ≤ |f - 1| * sep + 205 / 100 * E0 + 2 * ρ := by
          have e : φ * sep = (f - 1) * sep + f * (c1 - sep - c0) +
              (-(f * c1 + dt - (sep * (1 + φ) + τ)) + (f * c0 + dt - τ)) := by ring
          have a1 := abs_add_le ((f - 1) * sep + f * (c1 - sep - c0)) (-(f * c1 + dt - (sep * (1 + φ) + τ)) + (f * c0 + dt - τ))
          have a2 := abs_add_le ((f - 1) * sep) (f * (c1 - sep - c0))
          have a3 := abs_add_le (-(f * c1 + dt - (sep * (1 + φ) + τ))) (f * c0 + dt - τ)
          rw [abs_neg] at a3
          rw [← e, abs_mul φ, abs_of_pos hsep] at a1
          rw [abs_mul (f - 1), abs_of_pos hsep] at a2
          have a4 : |f * (c1 - sep - c0)| ≤ (1 + 1 / 2 ^ 12) * (204 / 100 * E0) := by
            rw [abs_mul]
            have := abs_sub (c1 - sep) c0
            exact mul_le_mul hf1 (by linarith) (abs_nonneg _) (by norm_num)
          have a5 : (1 + 1 / 2 ^ 12) * (204 / 100 * E0) ≤ 205 / 100 * E0 := by
            norm_num
            linarith
          linarith
        have a2 := hr (f - 1)
        have a3 := abs_sub_abs_le_abs_sub (f - 1) (rnd (f - 1))
        rw [abs_sub_comm (f - 1) (rnd (f - 1))] at a3
        have a4 : |f - 1| * (99 / 100) ≤ max |rnd (f - 1)| (rnd (1 / 10 ^ 9)) := by
          refine le_trans ?_ (le_max_left _ _)
          have : |f - 1| / 2 ^ 53 ≤ |f - 1| / 100 := div_le_div_of_nonneg_left (abs_nonneg _) (by norm_num) (by norm_num)
          linarith
        have a5 := mul_le_mul_of_nonneg_right a4 hsep.le
        set m := max |rnd (f - 1)| (rnd (1 / 10 ^ 9)) * sep with hm
        have a6 : 10 * max |rnd (f - 1)| (rnd (1 / 10 ^ 9)) * (99 / 100) * sep = 10 * (99 / 100) * m := by rw [hm]; ring
        rw [a6]
        set y := |f - 1| * sep with hy
        have a7 : |f - 1| * (99 / 100) * sep = (99 / 100) * y := by rw [hy]; ring
        rw [a7] at a5
        linarith
      · have a1 : 1 / 10 ^ 9 * (99 / 100) ≤ max |rnd (f - 1)| (rnd (1 / 10 ^ 9)) :=
          (rnd_ge hr (by norm_num) le_rfl).trans (le_max_right _ _)
        have a2 := mul_le_mul_of_nonneg_right a1 hsep.le
        set m := max |rnd (f - 1)| (rnd (1 / 10 ^ 9)) * sep with hm
        have a6 : 10 * max |rnd (f - 1)| (rnd (1 / 10 ^ 9)) * (99 / 100) * sep = 10 * (99 / 100) * m := by rw [hm]; ring
        rw [a6]
        linarith

end Fp
