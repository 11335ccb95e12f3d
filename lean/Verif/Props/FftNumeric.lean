import Verif.Lemmas.FftNumeric
import Verif.Lemmas.Detune
import Verif.Props.FpNoise

/-! # Correlations with numerical Fourier transforms: C115 -/
namespace Fp
open Spec

/-- The numbers of the machine for the counts of a histogram. -/
def reals (x : List Nat) : List ℝ := x.map fun k : Nat => (k : ℝ)

theorem reals_nonneg (x : List Nat) : ∀ v ∈ reals x, 0 ≤ v := by
  intro v hv
  obtain ⟨k, -, rfl⟩ := List.mem_map.mp hv
  exact Nat.cast_nonneg k

theorem reals_sum (x : List Nat) : (reals x).sum = (x.sum : Nat) := by
  unfold reals
  rw [Nat.cast_list_sum]

/-- The spectrum of a histogram in the sense of `product_error`. -/
theorem forward_wsum (F : Fourier) (h : Nat) (η μ : ℝ) (hF : Accurate F (2 * h) η μ) (x : List Nat) (hx : x.length = 2 * h) :
    (F.rfft x).length = h + 1 ∧
    wsum h (fun m => ‖((F.rfft x).map toC)[m]?.getD 0 - (rfft (reals x))[m]?.getD 0‖ ^ 2) ≤
      η ^ 2 * wsum h fun m => ‖(rfft (reals x))[m]?.getD 0‖ ^ 2 := by
  obtain ⟨h1, h2⟩ := hF.forward x hx
  rw [show 2 * h / 2 = h by omega] at h1
  have hr : (rfft (reals x)).length = h + 1 := rfft_length _ h (by simpa [reals] using hx)
  refine ⟨h1, ?_⟩
  have e := energy_wsum (List.zipWith (fun u v => u - v) ((F.rfft x).map toC) (rfft (reals x))) h
    (by rw [List.length_zipWith, List.length_map, h1, hr]; simp)
  rw [energy_wsum (rfft _) h (by exact hr)] at h2
  unfold reals at *
  rw [e] at h2
  refine le_trans (le_of_eq ?_) h2
  congr 1
  funext m
  rw [getD_zipWith_sub _ _ (by rw [List.length_map, h1, hr])]

/-- The error of a numerical correlation of counts. -/
theorem numeric_error (F : Fourier) (h : Nat) (hh : 0 < h) (η μ : ℝ) (hη : 0 ≤ η) (hη1 : η ≤ 1) (hμ : 0 ≤ μ)
    (hn : ((2 * h : Nat) : ℝ) * η ^ 2 ≤ 1) (hF : Accurate F (2 * h) η μ) (a b : List Nat) (ha : a.length = 2 * h) (hb : b.length = 2 * h) :
    (F.xcorr a b).length = 2 * h ∧ ∀ (k : Nat) (x : ℚ), (F.xcorr a b)[k]? = some x →
      |(x : ℝ) - corrAt (reals a) (reals b) (2 * h) k| ≤
        (2 * (μ * (1 + η) ^ 2 + η * (2 + η)) + η) * ((a.sum : Nat) * (b.sum : Nat)) := by
  have ha' : (reals a).length = 2 * h := by simpa [reals] using ha
  have hb' : (reals b).length = 2 * h := by simpa [reals] using hb
  obtain ⟨la, ea⟩ := forward_wsum F h η μ hF a ha
  obtain ⟨lb, eb⟩ := forward_wsum F h η μ hF b hb
  have hpos : (0 : ℝ) < ((2 * h : Nat) : ℝ) := by exact_mod_cast (by omega : 0 < 2 * h)
  set N : ℝ := ((2 * h : Nat) : ℝ) with hN
  set θ : ℝ := μ * (1 + η) ^ 2 + η * (2 + η) with hθ
  have hθ0 : 0 ≤ θ := by positivity
  set P : ℝ := ((a.sum : Nat) : ℝ) * (b.sum : Nat) with hP
  have hP0 : 0 ≤ P := by positivity
  -- the spectrum of the correlation
  set C : List CNum := List.zipWith F.conjMul (F.rfft a) (F.rfft b) with hC
  have lC : C.length = h + 1 := by rw [hC, List.length_zipWith, la, lb]; simp
  set Y : List ℂ := List.zipWith (fun a b => (starRingEnd ℂ) a * b) (rfft (reals a)) (rfft (reals b)) with hY
  have lra := rfft_length (reals a) h ha'
  have lrb := rfft_length (reals b) h hb'
  have lY : Y.length = h + 1 := by rw [hY, List.length_zipWith, lra, lrb]; simp
  have gY : ∀ m ≤ h, Y[m]?.getD 0 = (starRingEnd ℂ) ((rfft (reals a))[m]?.getD 0) * (rfft (reals b))[m]?.getD 0 := by
    intro m hm
    rw [hY, List.getElem?_zipWith, List.getElem?_eq_getElem (by omega), List.getElem?_eq_getElem (by omega)]
    rfl
  have gC : ∀ m ≤ h, ‖(C.map toC)[m]?.getD 0 - (starRingEnd ℂ) (((F.rfft a).map toC)[m]?.getD 0) * ((F.rfft b).map toC)[m]?.getD 0‖ ≤
      μ * (‖((F.rfft a).map toC)[m]?.getD 0‖ * ‖((F.rfft b).map toC)[m]?.getD 0‖) := by
    intro m hm
    rw [hC, List.getElem?_map, List.getElem?_map, List.getElem?_map, List.getElem?_zipWith,
      List.getElem?_eq_getElem (by omega), List.getElem?_eq_getElem (by omega)]
    exact hF.product _ _
  have perr := product_error h _ _ _ _ _ η μ hη hμ ea eb gC
  have hS : ∀ x : List Nat, x.length = 2 * h → Real.sqrt (wsum h fun m => ‖(rfft (reals x))[m]?.getD 0‖ ^ 2) ≤ Real.sqrt N * (x.sum : Nat) := by
    intro x hx
    rw [parseval _ h hh (by simpa [reals] using hx), Real.sqrt_mul hpos.le]
    refine mul_le_mul_of_nonneg_left ?_ (Real.sqrt_nonneg _)
    have := Real.sqrt_le_sqrt (sqrt_squares_le (reals x) (reals_nonneg x))
    rw [reals_sum, Real.sqrt_sq (Nat.cast_nonneg _)] at this
    exact this
  have hw : wsum h (fun m => ‖(C.map toC)[m]?.getD 0 - Y[m]?.getD 0‖) ≤ θ * (N * P) := by
    have e1 : wsum h (fun m => ‖(C.map toC)[m]?.getD 0 - Y[m]?.getD 0‖) ≤
        wsum h (fun m => ‖(C.map toC)[m]?.getD 0 - (starRingEnd ℂ) ((rfft (reals a))[m]?.getD 0) * (rfft (reals b))[m]?.getD 0‖) :=
      wsum_le h _ _ fun m hm => by rw [gY m hm]
    refine le_trans e1 (le_trans perr (mul_le_mul_of_nonneg_left ?_ hθ0))
    have := mul_le_mul (hS a ha) (hS b hb) (Real.sqrt_nonneg _) (by positivity)
    refine le_trans this (le_of_eq ?_)
    have hs := Real.mul_self_sqrt hpos.le
    rw [hP]
    linear_combination ((a.sum : Nat) : ℝ) * (b.sum : Nat) * hs
  -- the exact inverse transform of the computed spectrum
  set y : List ℝ := irfft (C.map toC) with hy
  have ly : y.length = 2 * h := irfft_length _ h (by rw [List.length_map, lC])
  have hcorr : ∀ k < 2 * h, (irfft Y)[k]?.getD 0 = corrAt (reals a) (reals b) (2 * h) k := by
    intro k hk
    rw [hY, corr_get _ _ h hh ha' hb' k hk]
    rfl
  have hdiff : ∀ k < 2 * h, |y[k]?.getD 0 - corrAt (reals a) (reals b) (2 * h) k| ≤ θ * P := by
    intro k hk
    rw [← hcorr k hk]
    refine le_trans (irfft_diff _ _ h hh (by rw [List.length_map, lC]) lY k hk) ?_
    rw [div_le_iff₀ hpos]
    calc _ ≤ _ := hw
      _ = _ := by ring
  have hc0 : ∀ k, 0 ≤ corrAt (reals a) (reals b) (2 * h) k := fun k => corr_nonneg _ _ _ _ (reals_nonneg a) (reals_nonneg b)
  have hcs := corr_sum (reals a) (reals b) (2 * h) (by omega) ha' hb'
  rw [reals_sum, reals_sum] at hcs
  -- its norm
  have hsq : squares y ≤ P ^ 2 + 2 * (θ * P) * P + N * (θ * P) ^ 2 := by
    rw [squares_sum, ly]
    have hterm : ∀ k ∈ Finset.range (2 * h), (y[k]?.getD 0) ^ 2 ≤ P * corrAt (reals a) (reals b) (2 * h) k +
        2 * (θ * P) * corrAt (reals a) (reals b) (2 * h) k + (θ * P) ^ 2 := by
      intro k hk
      have h1 := hdiff k (Finset.mem_range.mp hk)
      have h2 := hc0 k
      have h3 : corrAt (reals a) (reals b) (2 * h) k ≤ P := by
        have := Finset.single_le_sum (f := fun k => corrAt (reals a) (reals b) (2 * h) k) (fun i _ => hc0 i) hk
        rw [hcs] at this
        exact this
      obtain ⟨g1, g2⟩ := abs_le.mp h1
      set c := corrAt (reals a) (reals b) (2 * h) k
      set e := θ * P
      have he : 0 ≤ e := mul_nonneg hθ0 hP0
      have hsq1 : (y[k]?.getD 0) ^ 2 ≤ (c + e) ^ 2 := by
        apply sq_le_sq'
        · linarith
        · linarith
      nlinarith
    refine le_trans (Finset.sum_le_sum hterm) (le_of_eq ?_)
    rw [Finset.sum_add_distrib, Finset.sum_add_distrib, ← Finset.mul_sum, ← Finset.mul_sum, hcs, Finset.sum_const, Finset.card_range,
      nsmul_eq_mul]
    ring
  obtain ⟨li, ei⟩ := hF.inverse C (by rw [lC]; omega)
  refine ⟨by unfold Fourier.xcorr; rw [List.length_map, ← hC, li], ?_⟩
  intro k x hx
  unfold Fourier.xcorr at hx
  rw [← hC, List.getElem?_map] at hx
  cases hz : (F.irfft C)[k]? with
  | none => rw [hz] at hx; cases hx
  | some z =>
    rw [hz] at hx
    simp only [Option.map_some, Option.some.injEq] at hx
    have hk : k < 2 * h := by
      rw [← li]
      exact (List.getElem?_eq_some_iff.mp hz).1
    have hzy : |(z : ℝ) - y[k]?.getD 0| ≤ (η + θ) * P := by
      apply abs_le_of_sq_le_sq _ (by positivity)
      have l2 : (List.zipWith (fun u v => u - v) ((F.irfft C).map fun v : ℚ => (v : ℝ)) (irfft (C.map toC))).length = 2 * h := by
        rw [List.length_zipWith, List.length_map, li, ← hy, ly, min_self]
      have h1 : ((z : ℝ) - y[k]?.getD 0) ^ 2 ≤
          squares (List.zipWith (fun u v => u - v) ((F.irfft C).map fun v : ℚ => (v : ℝ)) (irfft (C.map toC))) := by
        rw [squares_sum, l2]
        refine le_trans (le_of_eq ?_) (Finset.single_le_sum (f := fun k => (List.zipWith (fun u v => u - v)
          ((F.irfft C).map fun v : ℚ => (v : ℝ)) (irfft (C.map toC)))[k]?.getD 0 ^ 2) (fun i _ => sq_nonneg _) (Finset.mem_range.mpr hk))
        rw [getD_zipWith_sub _ _ (by rw [List.length_map, li, ← hy, ly]), List.getElem?_map, hz]
        rfl
      have h2 := le_trans h1 (le_trans ei (mul_le_mul_of_nonneg_left hsq (sq_nonneg η)))
      have h3 : N * η ^ 2 * (θ * P) ^ 2 ≤ 1 * (θ * P) ^ 2 := mul_le_mul_of_nonneg_right hn (sq_nonneg _)
      have h4 : 0 ≤ θ * P * P := by positivity
      have h5 : η ^ 2 * (θ * P * P) ≤ η * (θ * P * P) := mul_le_mul_of_nonneg_right (by rw [pow_two]; exact mul_le_of_le_one_left hη hη1) h4
      calc _ ≤ _ := h2
        _ = η ^ 2 * P ^ 2 + 2 * (η ^ 2 * (θ * P * P)) + N * η ^ 2 * (θ * P) ^ 2 := by ring
        _ ≤ η ^ 2 * P ^ 2 + 2 * (η * (θ * P * P)) + 1 * (θ * P) ^ 2 := by linarith
        _ = _ := by ring
    have hzc : |(z : ℝ) - corrAt (reals a) (reals b) (2 * h) k| ≤ (2 * θ + η) * P := by
      have := abs_sub_le (z : ℝ) (y[k]?.getD 0) (corrAt (reals a) (reals b) (2 * h) k)
      have := hdiff k hk
      rw [show (2 * θ + η) * P = (η + θ) * P + θ * P by ring]
      linarith
    rw [← hx, Rat.cast_abs]
    have := abs_abs_sub_abs_le_abs_sub (z : ℝ) (corrAt (reals a) (reals b) (2 * h) k)
    rw [abs_of_nonneg (hc0 k)] at this
    exact le_trans this hzc

/-- The exact correlation of two histograms counts pairs of events. -/
theorem corrAt_pairs (a b : List ℚ) (h : Nat) (hh : 0 < h) (res : ℚ) (ha : a ≠ []) (hb : b ≠ []) (k : Nat) (hk : k < 2 * h) :
    corrAt (reals (histogram a (2 * h) res)) (reals (histogram b (2 * h) res)) (2 * h) k = ((pairsAt a b (2 * h) res k : Nat) : ℝ) := by
  have ga : generateFft a (2 * h) res = .ok (rfft (reals (histogram a (2 * h) res))) := by
    unfold generateFft
    rw [generateBins_histogram a (2 * h) (by omega) res ha]
    rfl
  have gb : generateFft b (2 * h) res = .ok (rfft (reals (histogram b (2 * h) res))) := by
    unfold generateFft
    rw [generateBins_histogram b (2 * h) (by omega) res hb]
    rfl
  have hx := (xcorr_core a b h hh res _ _ ga gb).2 k hk
  unfold getXcorr at hx
  rw [List.getElem?_map, corr_get _ _ h hh (by simp [reals, histogram]) (by simp [reals, histogram]) k hk] at hx
  simp only [Option.map_some, Option.some.injEq] at hx
  rw [← hx]
  exact (abs_of_nonneg (corr_nonneg _ _ _ _ (reals_nonneg _) (reals_nonneg _))).symm

/-- **C115** Let the Fourier transforms have a relative error of `η` (in the root mean square) and products of at most as much.
If 18 times the number of all pairs of events times `η` is below 1, then the correlation is off by less than half a pair in every
bin. -/
theorem C115_accurate (F : Fourier) (h : Nat) (hh : 0 < h) (η : ℝ) (hη : 0 ≤ η) (hF : Accurate F (2 * h) η η)
    (hn : ((2 * h : Nat) : ℝ) * η ^ 2 ≤ 1) (a b : List ℚ) (ha : a ≠ []) (hb : b ≠ []) (res : ℚ)
    (hp : 18 * η * (a.length * b.length) < 1) : XcorrAccurate F.xcorr a b (2 * h) res := by
  have hsum : ∀ c : List ℚ, c ≠ [] → (histogram c (2 * h) res).sum = c.length := by
    intro c hc
    obtain ⟨bins, h1, -, h2, -⟩ := C27_binning c (2 * h) res (by omega) hc
    rw [generateBins_histogram c (2 * h) (by omega) res hc, Except.ok.injEq] at h1
    rw [h1, h2]
  have hP : (1 : ℝ) ≤ (a.length : ℝ) * b.length := by
    have h1 : (1 : ℝ) ≤ a.length := by exact_mod_cast List.length_pos_of_ne_nil ha
    have h2 : (1 : ℝ) ≤ b.length := by exact_mod_cast List.length_pos_of_ne_nil hb
    nlinarith
  have hη1 : η ≤ 1 / 18 := by nlinarith
  obtain ⟨hl, he⟩ := numeric_error F h hh η η hη (by linarith) hη hn hF (histogram a (2 * h) res) (histogram b (2 * h) res)
    (by simp [histogram]) (by simp [histogram])
  refine ⟨hl, fun k x hx => ?_⟩
  have hk : k < 2 * h := by
    rw [← hl]
    exact (List.getElem?_eq_some_iff.mp hx).1
  have := he k x hx
  rw [hsum a ha, hsum b hb, corrAt_pairs a b h hh res ha hb k hk] at this
  have hlt : |(x : ℝ) - ((pairsAt a b (2 * h) res k : Nat) : ℝ)| < 1 / 2 := by
    refine lt_of_le_of_lt this ?_
    have hc : 2 * (η * (1 + η) ^ 2 + η * (2 + η)) + η ≤ 9 * η := by nlinarith [mul_nonneg hη hη]
    have := mul_le_mul_of_nonneg_right hc (show (0 : ℝ) ≤ (a.length : ℝ) * b.length by positivity)
    nlinarith
  have hcast : ((|x - ((pairsAt a b (2 * h) res k : Nat) : ℚ)| : ℚ) : ℝ) < ((1 / 2 : ℚ) : ℝ) := by
    push_cast
    exact hlt
  exact_mod_cast hcast

/-- **C115** (products): with doubles, the products of the coefficients have a relative error of at most 2^-50. -/
theorem C115_product (u v : CNum) :
    ‖toC (conjMulFl u v) - (starRingEnd ℂ) (toC u) * toC v‖ ≤ 1 / 2 ^ 50 * (‖toC u‖ * ‖toC v‖) := by
  obtain ⟨x1, x2⟩ := u
  obtain ⟨y1, y2⟩ := v
  have hrel : RelErr (fl 53) := C34_relErr.1
  -- a rounded sum of two rounded products
  have hsum : ∀ p q : ℚ, |fl 53 (fl 53 p + fl 53 q) - (p + q)| ≤ 1 / 2 ^ 51 * (|p| + |q|) := by
    intro p q
    have h1 := hrel p
    have h2 := hrel q
    have h3 := hrel (fl 53 p + fl 53 q)
    have h4 : |fl 53 p + fl 53 q| ≤ |fl 53 p - p| + |fl 53 q - q| + (|p| + |q|) := by
      have e : fl 53 p + fl 53 q = (fl 53 p - p) + (fl 53 q - q) + (p + q) := by ring
      rw [e]
      have := abs_add_three (fl 53 p - p) (fl 53 q - q) (p + q)
      have := abs_add_le p q
      linarith
    have h5 : |fl 53 (fl 53 p + fl 53 q) - (p + q)| ≤ |fl 53 (fl 53 p + fl 53 q) - (fl 53 p + fl 53 q)| + |fl 53 p - p| + |fl 53 q - q| := by
      have e : fl 53 (fl 53 p + fl 53 q) - (p + q) = (fl 53 (fl 53 p + fl 53 q) - (fl 53 p + fl 53 q)) + (fl 53 p - p) + (fl 53 q - q) := by ring
      rw [e]
      exact abs_add_three _ _ _
    have := abs_nonneg p
    have := abs_nonneg q
    norm_num at h1 h2 h3 ⊢
    linarith
  have hre : ((conjMulFl (x1, x2) (y1, y2)).1 : ℚ) = fl 53 (fl 53 (x1 * y1) + fl 53 (x2 * y2)) := by
    have : fl 53 (-x2 * y2) = -fl 53 (x2 * y2) := by rw [neg_mul, fl_neg]
    simp only [conjMulFl, this, sub_neg_eq_add]
  have b1 := hsum (x1 * y1) (x2 * y2)
  have b2 := hsum (x1 * y2) (-x2 * y1)
  rw [← hre] at b1
  have e2 : ((conjMulFl (x1, x2) (y1, y2)).2 : ℚ) = fl 53 (fl 53 (x1 * y2) + fl 53 (-x2 * y1)) := rfl
  rw [← e2, abs_mul (-x2) y1, abs_neg] at b2
  rw [abs_mul x1 y1, abs_mul x2 y2] at b1
  rw [abs_mul x1 y2] at b2
  generalize conjMulFl (x1, x2) (y1, y2) = z at b1 b2
  clear hre e2 hsum hrel
  have c1 : |(z.1 : ℝ) - (x1 * y1 + x2 * y2)| ≤ 1 / 2 ^ 51 * (|(x1 : ℝ)| * |(y1 : ℝ)| + |(x2 : ℝ)| * |(y2 : ℝ)|) := by
    have := (Rat.cast_le (K := ℝ)).mpr b1
    push_cast at this
    exact this
  have c2 : |(z.2 : ℝ) - (x1 * y2 + -x2 * y1)| ≤ 1 / 2 ^ 51 * (|(x1 : ℝ)| * |(y2 : ℝ)| + |(x2 : ℝ)| * |(y1 : ℝ)|) := by
    have := (Rat.cast_le (K := ℝ)).mpr b2
    push_cast at this
    exact this
  have hn : ∀ w : CNum, ‖toC w‖ = Real.sqrt (|(w.1 : ℝ)| ^ 2 + |(w.2 : ℝ)| ^ 2) := by
    intro w
    rw [Complex.norm_def, Complex.normSq_apply, sq_abs, sq_abs]
    simp only [toC, pow_two]
  have hcs : ∀ p q r s : ℝ, p * r + q * s ≤ Real.sqrt (p ^ 2 + q ^ 2) * Real.sqrt (r ^ 2 + s ^ 2) := by
    intro p q r s
    rw [← Real.sqrt_mul (by positivity)]
    apply Real.le_sqrt_of_sq_le
    nlinarith [sq_nonneg (p * s - q * r)]
  have d1 := hcs |(x1 : ℝ)| |(x2 : ℝ)| |(y1 : ℝ)| |(y2 : ℝ)|
  have d2 := hcs |(x1 : ℝ)| |(x2 : ℝ)| |(y2 : ℝ)| |(y1 : ℝ)|
  rw [add_comm (|(y2 : ℝ)| ^ 2)] at d2
  rw [hn (x1, x2), hn (y1, y2)]
  refine le_trans (Complex.norm_le_abs_re_add_abs_im _) ?_
  have r1 : (toC z - (starRingEnd ℂ) (toC (x1, x2)) * toC (y1, y2)).re = (z.1 : ℝ) - (x1 * y1 + x2 * y2) := by
    simp [toC]
  have r2 : (toC z - (starRingEnd ℂ) (toC (x1, x2)) * toC (y1, y2)).im = (z.2 : ℝ) - (x1 * y2 + -x2 * y1) := by
    simp [toC]
  rw [r1, r2]
  dsimp only
  rw [show (1 : ℝ) / 2 ^ 50 = 2 * (1 / 2 ^ 51) by norm_num]
  have k0 : (0 : ℝ) ≤ 1 / 2 ^ 51 := by positivity
  have k1 := mul_le_mul_of_nonneg_left d1 k0
  have k2 := mul_le_mul_of_nonneg_left d2 k0
  linarith

/-- Rational numbers are dense: any real number can be stored with any relative accuracy. -/
theorem stored (η : ℝ) (hη : 0 < η) (x : ℝ) : ∃ q : ℚ, |(q : ℝ) - x| ≤ η * |x| := by
  by_cases hx : x = 0
  · exact ⟨0, by simp [hx]⟩
  · have hp : 0 < η * |x| := mul_pos hη (abs_pos.mpr hx)
    obtain ⟨q, h1, h2⟩ := exists_rat_btwn (show x < x + η * |x| by linarith)
    exact ⟨q, by rw [abs_le]; constructor <;> linarith⟩

theorem stored_complex (η : ℝ) (hη : 0 < η) (z : ℂ) : ∃ q : CNum, ‖toC q - z‖ ≤ η * ‖z‖ := by
  obtain ⟨q1, h1⟩ := stored η hη z.re
  obtain ⟨q2, h2⟩ := stored η hη z.im
  refine ⟨(q1, q2), ?_⟩
  apply abs_le_of_sq_le_sq' _ (by positivity) |>.2
  rw [mul_pow, ← Complex.normSq_eq_norm_sq, ← Complex.normSq_eq_norm_sq, Complex.normSq_apply, Complex.normSq_apply]
  have e1 := sq_le_sq' (by linarith [abs_nonneg ((q1 : ℝ) - z.re), mul_nonneg hη.le (abs_nonneg z.re)]) h1
  have e2 := sq_le_sq' (by linarith [abs_nonneg ((q2 : ℝ) - z.im), mul_nonneg hη.le (abs_nonneg z.im)]) h2
  rw [sq_abs, mul_pow, sq_abs] at e1 e2
  simp only [toC, Complex.sub_re, Complex.sub_im]
  nlinarith

/-- Transforms of any accuracy exist, so C115 is not empty. -/
theorem accurate_exists (h : Nat) (η : ℝ) (hη : 0 < η) : ∃ F : Fourier, Accurate F (2 * h) η η := by
  choose s hs using stored η hη
  choose c hc using stored_complex η hη
  refine ⟨⟨fun x => (rfft (x.map fun k : Nat => (k : ℝ))).map c, fun u v => c ((starRingEnd ℂ) (toC u) * toC v),
    fun X => (irfft (X.map toC)).map s⟩, ⟨?_, ?_, ?_⟩⟩
  · intro x hx
    have hl := rfft_length (x.map fun k : Nat => (k : ℝ)) h (by simpa using hx)
    refine ⟨by simp only [List.length_map, hl]; omega, ?_⟩
    rw [energy_wsum _ h (by simp [hl]), energy_wsum _ h hl, ← wsum_smul]
    refine wsum_le h _ _ fun m hm => ?_
    rw [getD_zipWith_sub _ _ (by simp), List.map_map, List.getElem?_map, List.getElem?_eq_getElem (by omega), ← mul_pow]
    exact pow_le_pow_left₀ (norm_nonneg _) (hc _) 2
  · intro u v
    refine le_trans (hc _) (le_of_eq ?_)
    rw [norm_mul, RCLike.norm_conj]
  · intro X hX
    have hl := irfft_length (X.map toC) h (by rw [List.length_map, hX]; omega)
    refine ⟨by simp only [List.length_map, hl], ?_⟩
    rw [squares_sum, squares_sum, Finset.mul_sum]
    rw [show (List.zipWith (fun u v => u - v) (((irfft (X.map toC)).map s).map fun v : ℚ => (v : ℝ)) (irfft (X.map toC))).length =
      (irfft (X.map toC)).length by simp]
    refine Finset.sum_le_sum fun k hk => ?_
    rw [getD_zipWith_sub _ _ (by simp), List.map_map, List.getElem?_map, List.getElem?_eq_getElem (Finset.mem_range.mp hk), ← mul_pow]
    have := hs ((irfft (X.map toC))[k]'(Finset.mem_range.mp hk))
    rw [← abs_of_nonneg hη.le, ← abs_mul] at this
    exact sq_le_sq.mpr this

/-- **C115** (delay): with such transforms, the search finds the delay of coincidences that stand out, as in C103. -/
theorem C115_found (P : TFParams) (hr : P.rnd = fl 53) (hra : P.rndA = fl 64) (h : Nat) (hh : 0 < h) (hn64 : 2 * h < 2 ^ 64)
    (hN : P.numBins = 2 * h) (F : Fourier) (hxc : P.xcorr = F.xcorr) (η : ℝ) (hη : 0 ≤ η) (hF : Accurate F (2 * h) η η)
    (hn : ((2 * h : Nat) : ℝ) * η ^ 2 ≤ 1) (bts : List ℚ) (res start dur : ℚ) (hres : 0 < res)
    (qa : ∀ t ∈ inWindowR P.rndA start dur P.ats, |⌊t / res⌋| + 2 ≤ 2 ^ 59)
    (qb : ∀ t ∈ inWindowR P.rndA start dur bts, |⌊t / res⌋| + 2 ≤ 2 ^ 59) (D δ : ℚ) (w : Nat)
    (hs : StandsOut (inWindowR P.rndA start dur P.ats) (inWindowR P.rndA start dur bts) (2 * h) res D δ w)
    (hp : 18 * η * ((inWindowR P.rndA start dur P.ats).length * (inWindowR P.rndA start dur bts).length) < 1)
    (hD : |D| + (res + δ) ≤ ((2 * h : Nat) : ℚ) * res / 2) :
    ∃ ys d, tfCorrelate P bts res start dur = .ok (ys, d) ∧ |d - D| < res + δ + (|D| + (res + δ)) / 2 ^ 53 := by
  have hM := hs.2.1
  have ha : inWindowR P.rndA start dur P.ats ≠ [] := by intro hc; rw [hc] at hM; simp [pairsNear] at hM
  have hb : inWindowR P.rndA start dur bts ≠ [] := by intro hc; rw [hc] at hM; simp [pairsNear] at hM
  refine C103_rounded P hr hra (2 * h) hn64 hN (by omega) bts res start dur hres qa qb D δ w hs ?_ hD
  rw [hxc]
  exact C115_accurate F h hh η hη hF hn _ _ ha hb res hp

/-- Instance: for 2^20 bins, transforms with an error of 10^-14 are accurate enough for 2 million events on each side. -/
example : ∃ F : Fourier, Accurate F (2 * 2 ^ 19) (1 / 10 ^ 14) (1 / 10 ^ 14) ∧ ((2 * 2 ^ 19 : Nat) : ℝ) * (1 / 10 ^ 14) ^ 2 ≤ 1 ∧
    18 * (1 / 10 ^ 14 : ℝ) * (2000000 * 2000000) < 1 := by
  obtain ⟨F, hF⟩ := accurate_exists (2 ^ 19) (1 / 10 ^ 14) (by positivity)
  exact ⟨F, hF, by norm_num, by norm_num⟩

end Fp
