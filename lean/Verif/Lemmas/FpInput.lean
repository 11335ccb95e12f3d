import Verif.Spec.FpInput
import Verif.Props.FpConverge

/-! Helper lemmas for `Verif/Props/FpInput.lean`. -/
namespace Fp
open Spec

/-! ## Counting pairs -/

theorem pairs_window (A B : List ℚ) (f g : ℚ → ℚ) (p : ℚ → Bool) (q : ℚ → ℚ → Bool) :
    (((A.map f).filter p).map fun x => ((B.map g).filter p).countP fun y => q x y).sum =
      (A.map fun x => B.countP fun y => p (f x) && (p (g y) && q (f x) (g y))).sum := by
  induction A with
  | nil => rfl
  | cons x A ih =>
    rw [List.map_cons, List.map_cons, List.sum_cons, ← ih, List.filter_cons]
    cases hp : p (f x) with
    | false => simp
    | true =>
      simp only [if_true, List.map_cons, List.sum_cons, Bool.true_and, List.countP_filter, List.countP_map]
      congr 1
      apply List.countP_congr
      intro y _
      simp [and_comm]

theorem pairs_mono (A B : List ℚ) (p q : ℚ → ℚ → Bool) (h : ∀ x ∈ A, ∀ y ∈ B, p x y = true → q x y = true) :
    (A.map fun x => B.countP fun y => p x y).sum ≤ (A.map fun x => B.countP fun y => q x y).sum :=
  List.sum_le_sum fun x hx => List.countP_mono_left fun y hy => h x hx y hy

theorem cyclicDist_le (period z : ℚ) (m : ℤ) (hp : 0 < period) : cyclicDist period z ≤ |z - period * m| := by
  unfold cyclicDist
  have h := round_le (z / period) m
  have e : ∀ k : ℤ, |z - period * k| = period * |z / period - k| := by
    intro k
    rw [show z - period * k = period * (z / period - k) by field_simp, abs_mul, abs_of_pos hp]
  rw [e, e]
  exact mul_le_mul_of_nonneg_left h hp.le

theorem cyclicDist_ge (period z ε : ℚ) (h : ∀ m : ℤ, ε ≤ |z - period * m|) : ε ≤ cyclicDist period z := h _

/-! ## Windows of corrected times -/

theorem rel_sign {rnd : ℚ → ℚ} (hr : RelErr rnd) {z : ℚ} (h : 0 ≤ rnd z) : 0 ≤ z := by
  by_contra hz
  push Not at hz
  have := (abs_le.mp (hr z)).2
  rw [abs_of_neg hz] at this
  have : -z / 2 ^ 53 < -z := div_lt_self (by linarith) (by norm_num)
  linarith

/-- A rounded time inside a window is almost the exact one. -/
theorem rel_window {rnd : ℚ → ℚ} (hr : RelErr rnd) {z d ρ : ℚ} (h0 : 0 ≤ rnd z) (h1 : rnd z < d) (hd : d / 2 ^ 49 ≤ ρ) :
    0 ≤ z ∧ |rnd z - z| ≤ ρ / 8 := by
  have hz := rel_sign hr h0
  refine ⟨hz, ?_⟩
  have h := hr z
  rw [abs_of_nonneg hz] at h
  have h2 := (abs_le.mp h).1
  have h3 : z / 2 ^ 53 ≤ z / 2 := div_le_div_of_nonneg_left hz (by norm_num) (by norm_num)
  have h4 : z / 2 ^ 53 ≤ 2 * d / 2 ^ 53 := div_le_div_of_nonneg_right (by linarith) (by norm_num)
  have h5 : 2 * d / 2 ^ 53 = d / 2 ^ 49 / 8 := by ring
  linarith

/-- Times inside a window after the correction were near the window before. -/
theorem window_in {rnd : ℚ → ℚ} (hr : RelErr rnd) {c s d a g D e ρ sep μ : ℚ} (h1 : |c - s - D - (1 + g) * (a - s)| ≤ 1001 / 1000 * ρ)
    (hD : |D| ≤ 1002 / 1000 * e + ρ) (hg : |g| * sep ≤ 201 / 100 * (e + ρ)) (hg2 : |g| ≤ 1 / 1000) (hsep : 0 < sep) (hd : d ≤ sep)
    (he : 0 ≤ e) (hρ : 0 < ρ) (hdρ : d / 2 ^ 49 ≤ ρ) (hμ : μ = 4 * (e + 2 * ρ)) (v0 : 0 ≤ rnd (c - s)) (v1 : rnd (c - s) < d) :
    s - μ ≤ a ∧ a ≤ s + d + μ ∧ |rnd (c - s) - (a - s) - D| ≤ 201 / 100 * (e + ρ) * ((d + μ) / sep) + 12 / 10 * ρ := by
  obtain ⟨hz, hv⟩ := rel_window hr v0 v1 hdρ
  have hv' := abs_le.mp hv
  have hg' := abs_le.mp hg2
  have hD' := abs_le.mp hD
  have h1' := abs_le.mp h1
  have hd0 : 0 < d := lt_of_le_of_lt v0 v1
  have hμ0 : 0 < μ := by rw [hμ]; linarith
  have lo : s - μ ≤ a := by
    by_contra hc
    push Not at hc
    have : (1 + g) * (a - s) ≤ 999 / 1000 * (a - s) := mul_le_mul_of_nonpos_right (by linarith) (by linarith)
    linarith
  have hi : a ≤ s + d + μ := by
    by_contra hc
    push Not at hc
    have k1 : (1 - |g|) * (d + μ) ≤ (1 + g) * (a - s) := by
      refine mul_le_mul ?_ (by linarith) (by linarith) (by linarith)
      linarith [neg_abs_le g]
    have k2 : |g| * d ≤ |g| * sep := mul_le_mul_of_nonneg_left hd (abs_nonneg g)
    have k3 : |g| * μ ≤ 1 / 1000 * μ := mul_le_mul_of_nonneg_right hg2 hμ0.le
    have k4 : (1 - |g|) * (d + μ) = d + μ - |g| * d - |g| * μ := by ring
    linarith
  refine ⟨lo, hi, ?_⟩
  have k1 : |g * (a - s)| ≤ 201 / 100 * (e + ρ) * ((d + μ) / sep) := by
    rw [abs_mul]
    have k2 : |a - s| ≤ d + μ := abs_le.mpr ⟨by linarith, by linarith⟩
    calc |g| * |a - s| ≤ |g| * (d + μ) := mul_le_mul_of_nonneg_left k2 (abs_nonneg g)
      _ = |g| * sep * ((d + μ) / sep) := by field_simp
      _ ≤ 201 / 100 * (e + ρ) * ((d + μ) / sep) := mul_le_mul_of_nonneg_right hg (by positivity)
  have e1 : rnd (c - s) - (a - s) - D = (rnd (c - s) - (c - s)) + (c - s - D - (1 + g) * (a - s)) + g * (a - s) := by ring
  rw [e1]
  have k3 := abs_add_le ((rnd (c - s) - (c - s)) + (c - s - D - (1 + g) * (a - s))) (g * (a - s))
  have k4 := abs_add_le (rnd (c - s) - (c - s)) (c - s - D - (1 + g) * (a - s))
  linarith

/-- Times well inside a window are inside after the correction. -/
theorem window_of {rnd : ℚ → ℚ} (hr : RelErr rnd) {c s d a g D e ρ sep μ : ℚ} (h1 : |c - s - D - (1 + g) * (a - s)| ≤ 1001 / 1000 * ρ)
    (hD : |D| ≤ 1002 / 1000 * e + ρ) (hg : |g| * sep ≤ 201 / 100 * (e + ρ)) (hd : d ≤ sep)
    (he : 0 ≤ e) (hρ : 0 < ρ) (hdρ : d / 2 ^ 49 ≤ ρ) (hμ : μ = 4 * (e + 2 * ρ)) (a0 : s + μ ≤ a) (a1 : a ≤ s + d - μ) :
    0 ≤ rnd (c - s) ∧ rnd (c - s) < d := by
  have hD' := abs_le.mp hD
  have h1' := abs_le.mp h1
  have hμ0 : 0 < μ := by rw [hμ]; linarith
  have k1 : |g * (a - s)| ≤ 201 / 100 * (e + ρ) := by
    rw [abs_mul]
    refine le_trans ?_ hg
    refine mul_le_mul_of_nonneg_left ?_ (abs_nonneg g)
    rw [abs_of_nonneg (by linarith)]
    linarith
  have k1' := abs_le.mp k1
  have k2 : (1 + g) * (a - s) = (a - s) + g * (a - s) := by ring
  rw [k2] at h1'
  have z0 : 0 ≤ c - s := by linarith
  have z1 : c - s ≤ d - ρ := by linarith
  obtain ⟨r1, r2⟩ := relErr_le rnd hr (c - s) z0
  refine ⟨le_trans (mul_nonneg z0 (by norm_num)) r2, lt_of_le_of_lt r1 ?_⟩
  have k3 : (c - s) / 2 ^ 53 ≤ d / 2 ^ 53 := div_le_div_of_nonneg_right (by linarith) (by norm_num)
  have k4 : d / 2 ^ 53 = d / 2 ^ 49 / 16 := by ring
  have k5 : (c - s) * (1 + 1 / 2 ^ 53) = (c - s) + (c - s) / 2 ^ 53 := by ring
  linarith

/-- Rounded corrections are almost affine. -/
theorem affine_corrections {f dt φ τ ρ a s c cs : ℚ} (hf : |f - 1| ≤ 1 / 2 ^ 12)
    (h1 : |f * c + dt - targetClock φ τ a| ≤ ρ / 2) (h2 : |f * cs + dt - targetClock φ τ s| ≤ ρ / 2) :
    |c - s - (cs - s) - (1 + ((1 + φ) / f - 1)) * (a - s)| ≤ 1001 / 1000 * ρ := by
  have hf' := abs_le.mp hf
  have hf0 : 1000 / 1001 ≤ f := by
    have := hf'.1
    norm_num at this ⊢
    linarith
  have hfp : 0 < f := lt_of_lt_of_le (by norm_num) hf0
  have hρ : 0 ≤ ρ := by linarith [abs_nonneg (f * c + dt - targetClock φ τ a)]
  have e : c - s - (cs - s) - (1 + ((1 + φ) / f - 1)) * (a - s) =
      ((f * c + dt - targetClock φ τ a) - (f * cs + dt - targetClock φ τ s)) / f := by
    unfold targetClock
    field_simp
    ring
  rw [e, abs_div, abs_of_pos hfp, div_le_iff₀ hfp]
  have k1 := abs_sub (f * c + dt - targetClock φ τ a) (f * cs + dt - targetClock φ τ s)
  have k2 : 1001 / 1000 * ρ * (1000 / 1001) ≤ 1001 / 1000 * ρ * f := mul_le_mul_of_nonneg_left hf0 (by positivity)
  linarith

end Fp
