import Verif.Spec.FftNumeric
import Verif.Spec.FpFloat
import Verif.Lemmas.UtilsFft
import Verif.Lemmas.Float
import Mathlib.Analysis.InnerProductSpace.Basic

/-! # Lemmas on the accuracy of numerical Fourier transforms -/
namespace Fp
open Spec

/-- How many coefficients of the full spectrum a coefficient of the half spectrum stands for. -/
def wt (h m : Nat) : ℝ := if m = 0 ∨ m = h then 1 else 2

theorem wt_nonneg (h m : Nat) : 0 ≤ wt h m := by unfold wt; split_ifs <;> norm_num

/-- Weighted sum over a half spectrum. -/
def wsum (h : Nat) (f : Nat → ℝ) : ℝ := ∑ m ∈ Finset.range (h + 1), wt h m * f m

theorem wsum_parts (h : Nat) (hh : 0 < h) (f : Nat → ℝ) : wsum h f = f 0 + f h + 2 * ∑ m ∈ Finset.Ico 1 h, f m := by
  unfold wsum
  rw [Finset.sum_range_succ, Finset.range_eq_Ico, Finset.sum_eq_sum_Ico_succ_bot hh, Finset.mul_sum]
  have : ∀ m ∈ Finset.Ico (0 + 1) h, wt h m * f m = 2 * f m := by
    intro m hm
    have := Finset.mem_Ico.mp hm
    unfold wt
    rw [if_neg (by omega)]
  rw [Finset.sum_congr rfl this]
  simp only [wt, true_or, or_true, if_true]
  ring

theorem wsum_le (h : Nat) (f g : Nat → ℝ) (hfg : ∀ m ≤ h, f m ≤ g m) : wsum h f ≤ wsum h g :=
  Finset.sum_le_sum fun m hm => mul_le_mul_of_nonneg_left (hfg m (by have := Finset.mem_range.mp hm; omega)) (wt_nonneg h m)

theorem wsum_add (h : Nat) (f g : Nat → ℝ) : wsum h (fun m => f m + g m) = wsum h f + wsum h g := by
  unfold wsum
  rw [← Finset.sum_add_distrib]
  exact Finset.sum_congr rfl fun m _ => by ring

theorem wsum_smul (h : Nat) (c : ℝ) (f : Nat → ℝ) : wsum h (fun m => c * f m) = c * wsum h f := by
  unfold wsum
  rw [Finset.mul_sum]
  exact Finset.sum_congr rfl fun m _ => by ring

theorem wsum_nonneg (h : Nat) (f : Nat → ℝ) (hf : ∀ m, 0 ≤ f m) : 0 ≤ wsum h f :=
  Finset.sum_nonneg fun m _ => mul_nonneg (wt_nonneg h m) (hf m)

/-- Cauchy-Schwarz. -/
theorem wsum_mul_le (h : Nat) (f g : Nat → ℝ) :
    wsum h (fun m => f m * g m) ≤ Real.sqrt (wsum h fun m => f m ^ 2) * Real.sqrt (wsum h fun m => g m ^ 2) := by
  have key := Real.sum_mul_le_sqrt_mul_sqrt (Finset.range (h + 1)) (fun m => Real.sqrt (wt h m) * f m) (fun m => Real.sqrt (wt h m) * g m)
  have e1 : ∀ u v : Nat → ℝ, ∀ m, (Real.sqrt (wt h m) * u m) * (Real.sqrt (wt h m) * v m) = wt h m * (u m * v m) := by
    intro u v m
    have := Real.mul_self_sqrt (wt_nonneg h m)
    linear_combination (u m * v m) * this
  simp only [e1, pow_two] at key
  unfold wsum
  simp only [pow_two]
  exact key

/-- The error of the product of two spectra. -/
theorem product_error (h : Nat) (A B A' B' C : Nat → ℂ) (η μ : ℝ) (hη : 0 ≤ η) (hμ : 0 ≤ μ)
    (hA : wsum h (fun m => ‖A' m - A m‖ ^ 2) ≤ η ^ 2 * wsum h fun m => ‖A m‖ ^ 2)
    (hB : wsum h (fun m => ‖B' m - B m‖ ^ 2) ≤ η ^ 2 * wsum h fun m => ‖B m‖ ^ 2)
    (hC : ∀ m ≤ h, ‖C m - (starRingEnd ℂ) (A' m) * B' m‖ ≤ μ * (‖A' m‖ * ‖B' m‖)) :
    wsum h (fun m => ‖C m - (starRingEnd ℂ) (A m) * B m‖) ≤
      (μ * (1 + η) ^ 2 + η * (2 + η)) * (Real.sqrt (wsum h fun m => ‖A m‖ ^ 2) * Real.sqrt (wsum h fun m => ‖B m‖ ^ 2)) := by
  set a : Nat → ℝ := fun m => ‖A m‖
  set b : Nat → ℝ := fun m => ‖B m‖
  set x : Nat → ℝ := fun m => ‖A' m - A m‖
  set y : Nat → ℝ := fun m => ‖B' m - B m‖
  set Sa := Real.sqrt (wsum h fun m => ‖A m‖ ^ 2) with hSa
  set Sb := Real.sqrt (wsum h fun m => ‖B m‖ ^ 2) with hSb
  have sa0 : 0 ≤ Sa := Real.sqrt_nonneg _
  have sb0 : 0 ≤ Sb := Real.sqrt_nonneg _
  have sx : Real.sqrt (wsum h fun m => x m ^ 2) ≤ η * Sa := by
    rw [hSa, ← Real.sqrt_sq hη, ← Real.sqrt_mul (by positivity)]
    exact Real.sqrt_le_sqrt hA
  have sy : Real.sqrt (wsum h fun m => y m ^ 2) ≤ η * Sb := by
    rw [hSb, ← Real.sqrt_sq hη, ← Real.sqrt_mul (by positivity)]
    exact Real.sqrt_le_sqrt hB
  have t1 : wsum h (fun m => a m * b m) ≤ Sa * Sb := wsum_mul_le h a b
  have t2 : wsum h (fun m => x m * b m) ≤ η * Sa * Sb := le_trans (wsum_mul_le h x b) (mul_le_mul_of_nonneg_right sx sb0)
  have t3 : wsum h (fun m => a m * y m) ≤ Sa * (η * Sb) := le_trans (wsum_mul_le h a y) (mul_le_mul_of_nonneg_left sy sa0)
  have t4 : wsum h (fun m => x m * y m) ≤ η * Sa * (η * Sb) :=
    le_trans (wsum_mul_le h x y) (mul_le_mul sx sy (Real.sqrt_nonneg _) (by positivity))
  have hterm : ∀ m ≤ h, ‖C m - (starRingEnd ℂ) (A m) * B m‖ ≤
      μ * (a m * b m) + (μ + 1) * (x m * b m) + (μ + 1) * (a m * y m) + (μ + 1) * (x m * y m) := by
    intro m hm
    have e : C m - (starRingEnd ℂ) (A m) * B m = (C m - (starRingEnd ℂ) (A' m) * B' m) +
        ((starRingEnd ℂ) (A' m - A m) * B m + (starRingEnd ℂ) (A m) * (B' m - B m) + (starRingEnd ℂ) (A' m - A m) * (B' m - B m)) := by
      rw [map_sub]; ring
    have na : ‖A' m‖ ≤ a m + x m := by
      have := norm_add_le (A m) (A' m - A m)
      rwa [add_sub_cancel] at this
    have nb : ‖B' m‖ ≤ b m + y m := by
      have := norm_add_le (B m) (B' m - B m)
      rwa [add_sub_cancel] at this
    have nn : ∀ u v : ℂ, ‖(starRingEnd ℂ) u * v‖ = ‖u‖ * ‖v‖ := fun u v => by rw [norm_mul, RCLike.norm_conj]
    rw [e]
    refine le_trans (norm_add_le _ _) ?_
    have h1 := hC m hm
    have h2 : ‖A' m‖ * ‖B' m‖ ≤ (a m + x m) * (b m + y m) := mul_le_mul na nb (norm_nonneg _) (add_nonneg (norm_nonneg _) (norm_nonneg _))
    have h3 := mul_le_mul_of_nonneg_left h2 hμ
    have h4 := norm_add₃_le (a := (starRingEnd ℂ) (A' m - A m) * B m) (b := (starRingEnd ℂ) (A m) * (B' m - B m))
      (c := (starRingEnd ℂ) (A' m - A m) * (B' m - B m))
    rw [nn, nn, nn] at h4
    have h5 : ‖A' m - A m‖ * ‖B m‖ + ‖A m‖ * ‖B' m - B m‖ + ‖A' m - A m‖ * ‖B' m - B m‖ = x m * b m + a m * y m + x m * y m := rfl
    rw [h5] at h4
    nlinarith
  have hsum := wsum_le h _ _ hterm
  rw [wsum_add, wsum_add, wsum_add, wsum_smul, wsum_smul, wsum_smul, wsum_smul] at hsum
  have u1 := mul_le_mul_of_nonneg_left t1 hμ
  have hμ1 : 0 ≤ μ + 1 := by linarith
  have u2 := mul_le_mul_of_nonneg_left t2 hμ1
  have u3 := mul_le_mul_of_nonneg_left t3 hμ1
  have u4 := mul_le_mul_of_nonneg_left t4 hμ1
  calc _ ≤ _ := hsum
    _ ≤ μ * (Sa * Sb) + (μ + 1) * (η * Sa * Sb) + (μ + 1) * (Sa * (η * Sb)) + (μ + 1) * (η * Sa * (η * Sb)) := by linarith
    _ = _ := by ring

/-- Entry `k` of the exact inverse transform of a half spectrum. -/
theorem irfft_get (X : List ℂ) (h : Nat) (hl : X.length = h + 1) (k : Nat) (hk : k < 2 * h) :
    (irfft X)[k]? = some (((X[0]?.getD 0).re + (X[h]?.getD 0).re * (-1) ^ k +
      2 * ∑ m ∈ Finset.Ico 1 h, ((X[m]?.getD 0) * Complex.exp (2 * Real.pi * Complex.I * ((m * k : Nat) : ℂ) / ((2 * h : Nat) : ℂ))).re) /
        ((2 * h : Nat) : ℝ)) := by
  unfold irfft
  simp only [hl]
  rw [show 2 * (h + 1 - 1) = 2 * h by omega, List.getElem?_map, List.getElem?_range hk, show 2 * h / 2 = h by omega]
  rfl

theorem irfft_length (X : List ℂ) (h : Nat) (hl : X.length = h + 1) : (irfft X).length = 2 * h := by
  unfold irfft
  simp only [hl, List.length_map, List.length_range]
  omega

/-- The inverse transform changes by no more than the weighted sum of the changes of the spectrum. -/
theorem irfft_diff (X Y : List ℂ) (h : Nat) (hh : 0 < h) (hX : X.length = h + 1) (hY : Y.length = h + 1) (k : Nat) (hk : k < 2 * h) :
    |(irfft X)[k]?.getD 0 - (irfft Y)[k]?.getD 0| ≤ wsum h (fun m => ‖X[m]?.getD 0 - Y[m]?.getD 0‖) / ((2 * h : Nat) : ℝ) := by
  have hpos : (0 : ℝ) < ((2 * h : Nat) : ℝ) := by exact_mod_cast (by omega : 0 < 2 * h)
  rw [irfft_get X h hX k hk, irfft_get Y h hY k hk, Option.getD_some, Option.getD_some, ← sub_div, abs_div, abs_of_pos hpos]
  refine div_le_div_of_nonneg_right ?_ hpos.le
  rw [wsum_parts h hh]
  have e : ∀ x0 xh xs y0 yh ys s : ℝ, x0 + xh * s + 2 * xs - (y0 + yh * s + 2 * ys) = (x0 - y0) + (xh - yh) * s + 2 * (xs - ys) := by
    intros; ring
  rw [e]
  have hre : ∀ u v : ℂ, |u.re - v.re| ≤ ‖u - v‖ := fun u v => by rw [← Complex.sub_re]; exact Complex.abs_re_le_norm _
  refine le_trans (abs_add_three _ _ _) ?_
  refine add_le_add (add_le_add (hre _ _) ?_) ?_
  · rw [abs_mul, abs_pow, abs_neg, abs_one, one_pow, mul_one]
    exact hre _ _
  · rw [abs_mul, abs_two, ← Finset.sum_sub_distrib]
    refine mul_le_mul_of_nonneg_left (le_trans (Finset.abs_sum_le_sum_abs _ _) (Finset.sum_le_sum fun m _ => ?_)) (by norm_num)
    refine le_trans (hre _ _) ?_
    rw [← sub_mul, norm_mul]
    have : ‖Complex.exp (2 * Real.pi * Complex.I * ((m * k : Nat) : ℂ) / ((2 * h : Nat) : ℂ))‖ = 1 := by
      have e : (2 * Real.pi * Complex.I * ((m * k : Nat) : ℂ) / ((2 * h : Nat) : ℂ)) =
          ((2 * Real.pi * (m * k : Nat) / (2 * h : Nat) : ℝ) : ℂ) * Complex.I := by
        push_cast; ring
      rw [e, Complex.norm_exp_ofReal_mul_I]
    rw [this, mul_one]

/-- A spectrum as a weighted sum. -/
theorem energy_wsum (X : List ℂ) (h : Nat) (hl : X.length = h + 1) : energy X = wsum h fun m => ‖X[m]?.getD 0‖ ^ 2 := by
  unfold energy wsum wt
  rw [hl]
  refine Finset.sum_congr rfl fun m _ => ?_
  congr 2
  simp

theorem getD_zipWith_sub {α : Type} [AddGroup α] (X Y : List α) (hl : X.length = Y.length) (m : Nat) :
    (List.zipWith (fun u v => u - v) X Y)[m]?.getD 0 = X[m]?.getD 0 - Y[m]?.getD 0 := by
  rw [List.getElem?_zipWith]
  rcases lt_or_ge m X.length with h | h
  · rw [List.getElem?_eq_getElem h, List.getElem?_eq_getElem (hl ▸ h)]
    rfl
  · rw [List.getElem?_eq_none h, List.getElem?_eq_none (hl ▸ h)]
    simp

theorem rfft_length (x : List ℝ) (h : Nat) (hl : x.length = 2 * h) : (rfft x).length = h + 1 := by
  unfold rfft
  rw [List.length_map, List.length_range, hl]
  omega

/-- The sum over all entries. -/
theorem squares_sum (x : List ℝ) : squares x = ∑ k ∈ Finset.range x.length, (x[k]?.getD 0) ^ 2 := by
  unfold squares
  induction x with
  | nil => simp
  | cons v x ih =>
    rw [List.map_cons, List.sum_cons, ih, List.length_cons, Finset.sum_range_succ']
    simp [add_comm]

/-- The sum of the products at index difference `k`. -/
def corrAt (a b : List ℝ) (n k : Nat) : ℝ :=
  ∑ j ∈ Finset.range n, ∑ l ∈ Finset.range n, if (n : ℤ) ∣ (j : ℤ) - l + k then a[j]?.getD 0 * b[l]?.getD 0 else 0

/-- Parseval's equation. -/
theorem parseval (a : List ℝ) (h : Nat) (hh : 0 < h) (ha : a.length = 2 * h) :
    (wsum h fun m => ‖(rfft a)[m]?.getD 0‖ ^ 2) = ((2 * h : Nat) : ℝ) * squares a := by
  have hpos : (0 : ℝ) < ((2 * h : Nat) : ℝ) := by exact_mod_cast (by omega : 0 < 2 * h)
  have h1 := corr_get a a h hh ha ha 0 (by omega)
  have hz : ∀ m : Nat, (List.zipWith (fun a b => (starRingEnd ℂ) a * b) (rfft a) (rfft a))[m]?.getD 0 =
      ((‖(rfft a)[m]?.getD 0‖ ^ 2 : ℝ) : ℂ) := by
    intro m
    rw [List.getElem?_zipWith]
    cases (rfft a)[m]? with
    | none => simp
    | some z => simp [Complex.conj_mul']
  rw [irfft_get _ h (by rw [List.length_zipWith, rfft_length a h ha]; simp) 0 (by omega), Option.some.injEq, div_eq_iff hpos.ne'] at h1
  simp only [hz, Complex.ofReal_re, pow_zero, mul_one, Nat.mul_zero, Nat.cast_zero, mul_zero, zero_div, Complex.exp_zero] at h1
  rw [wsum_parts h hh, h1, mul_comm, squares_sum, ha]
  congr 1
  refine Finset.sum_congr rfl fun j hj => ?_
  rw [Finset.sum_eq_single j]
  · simp [pow_two]
  · intro l hl hne
    rw [if_neg]
    have := Finset.mem_range.mp hj
    have := Finset.mem_range.mp hl
    rintro ⟨c, hc⟩
    rcases lt_trichotomy c 0 with h0 | h0 | h0
    · have : ((2 * h : Nat) : ℤ) * c ≤ ((2 * h : Nat) : ℤ) * (-1) := mul_le_mul_of_nonneg_left (by omega) (by omega)
      omega
    · subst h0; omega
    · have : ((2 * h : Nat) : ℤ) * 1 ≤ ((2 * h : Nat) : ℤ) * c := mul_le_mul_of_nonneg_left (by omega) (by omega)
      omega
  · intro hn; exact absurd hj hn

theorem sum_getD (a : List ℝ) : a.sum = ∑ k ∈ Finset.range a.length, a[k]?.getD 0 := by
  induction a with
  | nil => simp
  | cons v x ih =>
    rw [List.sum_cons, ih, List.length_cons, Finset.sum_range_succ']
    simp [add_comm]

/-- The correlation counts each pair once. -/
theorem corr_sum (a b : List ℝ) (n : Nat) (hn : 0 < n) (ha : a.length = n) (hb : b.length = n) :
    ∑ k ∈ Finset.range n, corrAt a b n k = a.sum * b.sum := by
  unfold corrAt
  rw [Finset.sum_comm, sum_getD a, sum_getD b, ha, hb, Finset.sum_mul_sum]
  refine Finset.sum_congr rfl fun j _ => ?_
  rw [Finset.sum_comm]
  refine Finset.sum_congr rfl fun l _ => ?_
  have hn' : (0 : ℤ) < n := by exact_mod_cast hn
  have h0 := Int.emod_nonneg ((l : ℤ) - j) hn'.ne'
  have h1 := Int.emod_lt_of_pos ((l : ℤ) - j) hn'
  rw [Finset.sum_eq_single (((l : ℤ) - j) % n).toNat]
  · rw [if_pos]
    rw [Int.toNat_of_nonneg h0]
    have := Int.emod_add_mul_ediv ((l : ℤ) - j) n
    exact ⟨-(((l : ℤ) - j) / n), by rw [mul_neg]; omega⟩
  · intro k hk hne
    rw [if_neg]
    intro hd
    apply hne
    have hk' : (k : ℤ) < n := by exact_mod_cast Finset.mem_range.mp hk
    have : ((l : ℤ) - j) % n = (k : ℤ) % n := by
      rw [Int.emod_eq_emod_iff_emod_sub_eq_zero]
      apply Int.emod_eq_zero_of_dvd
      have := dvd_neg.mpr hd
      rwa [show -((j : ℤ) - l + k) = (l : ℤ) - j - k by ring] at this
    rw [this, Int.emod_eq_of_lt (by omega) hk']
    simp
  · intro hx
    exact absurd (Finset.mem_range.mpr (by omega)) hx

theorem corr_nonneg (a b : List ℝ) (n k : Nat) (ha : ∀ v ∈ a, 0 ≤ v) (hb : ∀ v ∈ b, 0 ≤ v) : 0 ≤ corrAt a b n k := by
  have hg : ∀ (x : List ℝ), (∀ v ∈ x, 0 ≤ v) → ∀ j : Nat, 0 ≤ x[j]?.getD 0 := by
    intro x hx j
    cases h : x[j]? with
    | none => simp
    | some v => exact hx v (List.mem_of_getElem? h)
  refine Finset.sum_nonneg fun j _ => Finset.sum_nonneg fun l _ => ?_
  split_ifs
  · exact mul_nonneg (hg a ha j) (hg b hb l)
  · exact le_rfl

/-- The norm of non-negative numbers is at most their sum. -/
theorem sqrt_squares_le (a : List ℝ) (ha : ∀ v ∈ a, 0 ≤ v) : squares a ≤ a.sum ^ 2 := by
  unfold squares
  induction a with
  | nil => simp
  | cons v x ih =>
    have h1 := ih fun v hv => ha v (List.mem_cons_of_mem _ hv)
    have h2 := ha v (List.mem_cons_self ..)
    have h3 : 0 ≤ x.sum := List.sum_nonneg fun v hv => ha v (List.mem_cons_of_mem _ hv)
    rw [List.map_cons, List.sum_cons, List.sum_cons]
    nlinarith [mul_nonneg h2 h3]

end Fp
