import Verif.Spec.FpTwoWay
import Verif.Props.FpRounded

/-!
# C98: the results of two runs with reference and target exchanged
-/
namespace Fp
open Spec

/-- What the accuracy of a run means for its two numbers. -/
theorem found_numbers (P : TFParams) (hr : RelErr P.rnd) (hra : RelErr P.rndA) (hsep : 0 < P.sep) (bts : List ℚ)
    (res φ τ ε R dt df : ℚ) (h : FoundWithin P bts res φ τ ε R dt df) :
    ∃ u v, 1 + φ = u * (1 + df) ∧ τ = dt + v * (1 + df) ∧ |df| < 1 / 2 ^ 13 ∧ |v| ≤ (ε + R) * (1 + 1 / 2 ^ 10) + 3 * R ∧
      |u - 1| ≤ (4 * (ε + R) * (1 + 1 / 2 ^ 10) + 6 * R) / P.sep := by
  obtain ⟨trace, e, B, hrun, hl, hR, hB0, hBs, h1, h2⟩ := h
  have hdf := (C33_bounded P bts res dt df _ hrun).1
  have hacc := C63_rounded P hr hra hsep bts res dt df trace e φ τ ε B R hrun hl hR h1 h2 hB0 hBs
  have hf0 : 0 < 1 + df := by
    have := (abs_lt.mp hdf).1
    norm_num at this
    linarith
  have a0 := hacc 0 le_rfl hB0
  have a1 := hacc P.sep hsep.le hBs
  rw [div_self hsep.ne'] at a1
  rw [zero_div] at a0
  simp only [corrected, targetClock] at a0 a1
  refine ⟨(1 + φ) / (1 + df), (τ - dt) / (1 + df), by field_simp, by field_simp; ring, hdf, ?_, ?_⟩
  · refine le_trans (le_of_eq ?_) (a0.trans (le_of_eq (by ring)))
    congr 1
    ring
  · rw [le_div_iff₀ hsep, ← abs_of_pos hsep, ← abs_mul]
    have := abs_sub ((P.sep * (1 + φ) + τ - dt) / (1 + df) - P.sep) ((0 * (1 + φ) + τ - dt) / (1 + df) - 0)
    rw [show (P.sep * (1 + φ) + τ - dt) / (1 + df) - P.sep - ((0 * (1 + φ) + τ - dt) / (1 + df) - 0) =
      ((1 + φ) / (1 + df) - 1) * P.sep by field_simp; ring] at this
    refine this.trans ((add_le_add a1 a0).trans (le_of_eq ?_))
    ring

theorem inverse_iff (φ τ φ' τ' : ℚ) : InverseClocks φ τ φ' τ' ↔ (1 + φ) * (1 + φ') = 1 ∧ τ * (1 + φ') + τ' = 0 := by
  unfold InverseClocks targetClock
  constructor
  · intro h
    have h0 := h 0
    have h1 := h 1
    constructor <;> linarith
  · rintro ⟨h1, h2⟩ a
    linear_combination a * h1 + h2

/-- Bounds for products of numbers near 1. -/
theorem near_one {u u' κ κ' : ℚ} (hu : |u - 1| ≤ κ) (hu' : |u' - 1| ≤ κ') (hκ : κ ≤ 1 / 2 ^ 10) (hκ' : κ' ≤ 1 / 2 ^ 10) :
    0 < u * u' ∧ 1 / (u * u') ≤ 1 + 1 / 2 ^ 8 ∧ |1 / (u * u') - 1| ≤ (κ + κ') * (1 + 1 / 2 ^ 8) := by
  have a := abs_le.mp hu
  have a' := abs_le.mp hu'
  have k0 : 0 ≤ κ := (abs_nonneg _).trans hu
  have k0' : 0 ≤ κ' := (abs_nonneg _).trans hu'
  have l : (1 - 1 / 2 ^ 10 : ℚ) ≤ u := by linarith
  have l' : (1 - 1 / 2 ^ 10 : ℚ) ≤ u' := by linarith
  have hp : (1 - 1 / 2 ^ 10 : ℚ) * (1 - 1 / 2 ^ 10) ≤ u * u' := mul_le_mul l l' (by norm_num) (by linarith)
  have h0 : 0 < u * u' := lt_of_lt_of_le (by norm_num) hp
  refine ⟨h0, ?_, ?_⟩
  · rw [div_le_iff₀ h0]
    norm_num at hp ⊢
    linarith
  · rw [show 1 / (u * u') - 1 = (1 - u * u') / (u * u') by field_simp, abs_div, abs_of_pos h0, div_le_iff₀ h0]
    have h1 : |1 - u * u'| ≤ κ * (1 + κ') + κ' := by
      rw [abs_le]
      constructor <;> nlinarith
    refine h1.trans ?_
    have h2 : κ * (1 + κ') + κ' ≤ (κ + κ') * (1 + 1 / 2 ^ 10) := by nlinarith
    refine h2.trans ?_
    rw [mul_assoc]
    refine mul_le_mul_of_nonneg_left ?_ (by linarith)
    norm_num at hp ⊢
    linarith

/-- **C98**: fpfind run with reference and target exchanged returns the inverse correction, up to the accuracy of both runs: with
κ, κ' the errors of the frequencies and V, V' those of the times found (see `C63_rounded`), the product of the frequencies is 1
and the times cancel when expressed on the same clock. -/
theorem C98_inverse (P P' : TFParams) (hr : RelErr P.rnd) (hra : RelErr P.rndA) (hr' : RelErr P'.rnd) (hra' : RelErr P'.rndA)
    (hsep : 0 < P.sep) (hsep' : 0 < P'.sep) (bts bts' : List ℚ) (res res' φ τ φ' τ' ε ε' R R' dt df dt' df' κ κ' V V' : ℚ)
    (hinv : InverseClocks φ τ φ' τ') (h : FoundWithin P bts res φ τ ε R dt df) (h' : FoundWithin P' bts' res' φ' τ' ε' R' dt' df')
    (hκ : κ = (4 * (ε + R) * (1 + 1 / 2 ^ 10) + 6 * R) / P.sep) (hκ' : κ' = (4 * (ε' + R') * (1 + 1 / 2 ^ 10) + 6 * R') / P'.sep)
    (hV : V = (ε + R) * (1 + 1 / 2 ^ 10) + 3 * R) (hV' : V' = (ε' + R') * (1 + 1 / 2 ^ 10) + 3 * R')
    (hs : κ ≤ 1 / 2 ^ 10) (hs' : κ' ≤ 1 / 2 ^ 10) :
    |(1 + df) * (1 + df') - 1| ≤ (κ + κ') * (1 + 1 / 2 ^ 8) ∧
    |dt' * (1 + df) + dt| ≤ (V + V' + |τ| * κ) * (1 + 1 / 2 ^ 8) := by
  obtain ⟨u, v, hu, hv, hdf, bv, bu⟩ := found_numbers P hr hra hsep bts res φ τ ε R dt df h
  obtain ⟨u', v', hu', hv', hdf', bv', bu'⟩ := found_numbers P' hr' hra' hsep' bts' res' φ' τ' ε' R' dt' df' h'
  rw [← hκ] at bu
  rw [← hκ'] at bu'
  rw [← hV] at bv
  rw [← hV'] at bv'
  obtain ⟨i1, i2⟩ := (inverse_iff φ τ φ' τ').mp hinv
  obtain ⟨n0, n1, n2⟩ := near_one bu bu' hs hs'
  have hF : (1 + df) * (1 + df') = 1 / (u * u') := by
    rw [eq_div_iff n0.ne']
    rw [hu, hu'] at i1
    linear_combination i1
  refine ⟨by rw [hF]; exact n2, ?_⟩
  have hu0 : u ≠ 0 := left_ne_zero_of_mul n0.ne'
  have e1 : dt' * (1 + df) + dt = τ * (u - 1) * (1 / u) - v' * (1 / (u * u')) - v * (1 + df) := by
    rw [← hF]
    have hd : 1 + φ' = 1 / (u * (1 + df)) := by
      rw [eq_div_iff (by rw [← hu]; exact left_ne_zero_of_mul_eq_one i1), ← hu]
      linear_combination i1
    have hf0 : 1 + df ≠ 0 := by
      have := left_ne_zero_of_mul_eq_one i1
      rw [hu] at this
      exact right_ne_zero_of_mul this
    have e2 : τ' = - τ / (u * (1 + df)) := by
      rw [hd] at i2
      linear_combination i2
    have e3 : dt' = - τ / (u * (1 + df)) - v' * (1 + df') := by linear_combination e2 - hv'
    have e4 : dt = τ - v * (1 + df) := by linear_combination -hv
    rw [e3, e4]
    field_simp
    ring
  have l := abs_le.mp bu
  have hui : |1 / u| ≤ 1 + 1 / 2 ^ 8 := by
    have : (1 - 1 / 2 ^ 10 : ℚ) ≤ u := by linarith
    have u0 : 0 < u := lt_of_lt_of_le (by norm_num) this
    rw [abs_of_pos (by positivity), div_le_iff₀ u0]
    norm_num at this ⊢
    linarith
  have k0 : 0 ≤ κ := (abs_nonneg _).trans bu
  have b1 : |τ * (u - 1) * (1 / u)| ≤ |τ| * κ * (1 + 1 / 2 ^ 8) := by
    rw [abs_mul, abs_mul]
    exact mul_le_mul (mul_le_mul_of_nonneg_left bu (abs_nonneg _)) hui (abs_nonneg _) (by positivity)
  have b2 : |v' * (1 / (u * u'))| ≤ V' * (1 + 1 / 2 ^ 8) := by
    rw [abs_mul, abs_of_pos (by positivity : 0 < 1 / (u * u'))]
    exact mul_le_mul bv' n1 (by positivity) ((abs_nonneg _).trans bv')
  have b3 : |v * (1 + df)| ≤ V * (1 + 1 / 2 ^ 8) := by
    rw [abs_mul]
    refine mul_le_mul bv ?_ (abs_nonneg _) ((abs_nonneg _).trans bv)
    have := abs_lt.mp hdf
    rw [abs_le]
    norm_num at this ⊢
    constructor <;> linarith [this.1, this.2]
  rw [e1]
  have t1 := abs_sub (τ * (u - 1) * (1 / u) - v' * (1 / (u * u'))) (v * (1 + df))
  have t2 := abs_sub (τ * (u - 1) * (1 / u)) (v' * (1 / (u * u')))
  linarith

/-- **C98**, the time relation asserted in tests/test_fpfind_timestamp.py and tests/test_fpfind_epoch.py multiplies with the other
frequency: its left hand side is not 0 but τ (1 - (1 + φ')²), up to the accuracy of both runs. -/
theorem C98_test_formula (P P' : TFParams) (hr : RelErr P.rnd) (hra : RelErr P.rndA) (hr' : RelErr P'.rnd) (hra' : RelErr P'.rndA)
    (hsep : 0 < P.sep) (hsep' : 0 < P'.sep) (bts bts' : List ℚ) (res res' φ τ φ' τ' ε ε' R R' dt df dt' df' κ' V V' : ℚ)
    (hinv : InverseClocks φ τ φ' τ') (h : FoundWithin P bts res φ τ ε R dt df) (h' : FoundWithin P' bts' res' φ' τ' ε' R' dt' df')
    (hκ' : κ' = (4 * (ε' + R') * (1 + 1 / 2 ^ 10) + 6 * R') / P'.sep)
    (hV : V = (ε + R) * (1 + 1 / 2 ^ 10) + 3 * R) (hV' : V' = (ε' + R') * (1 + 1 / 2 ^ 10) + 3 * R') :
    |dt' * (1 + df') + dt - τ * (1 - (1 + φ') ^ 2)| ≤ (V + V' + |τ'| * κ') * (1 + 1 / 2 ^ 8) := by
  obtain ⟨u, v, hu, hv, hdf, bv, bu⟩ := found_numbers P hr hra hsep bts res φ τ ε R dt df h
  obtain ⟨u', v', hu', hv', hdf', bv', bu'⟩ := found_numbers P' hr' hra' hsep' bts' res' φ' τ' ε' R' dt' df' h'
  rw [← hκ'] at bu'
  rw [← hV] at bv
  rw [← hV'] at bv'
  obtain ⟨i1, i2⟩ := (inverse_iff φ τ φ' τ').mp hinv
  have e1 : dt' * (1 + df') + dt - τ * (1 - (1 + φ') ^ 2) = τ' * (1 - u') * (1 + df') - v' * (1 + df') ^ 2 - v * (1 + df) := by
    have e3 : dt' = τ' - v' * (1 + df') := by linear_combination -hv'
    have e4 : dt = τ - v * (1 + df) := by linear_combination -hv
    rw [e3, e4]
    linear_combination (1 + φ') * i2 - τ' * hu'
  have hd := abs_lt.mp hdf
  have hd' := abs_lt.mp hdf'
  norm_num at hd hd'
  have k0 : 0 ≤ κ' := (abs_nonneg _).trans bu'
  have f1 : |1 + df| ≤ 1 + 1 / 2 ^ 8 := by
    rw [abs_le]; norm_num; constructor <;> linarith [hd.1, hd.2]
  have f1' : |1 + df'| ≤ 1 + 1 / 2 ^ 8 := by
    rw [abs_le]; norm_num; constructor <;> linarith [hd'.1, hd'.2]
  have f2 : |(1 + df') ^ 2| ≤ 1 + 1 / 2 ^ 8 := by
    rw [abs_le]
    norm_num
    constructor <;> nlinarith [hd'.1, hd'.2]
  have b1 : |τ' * (1 - u') * (1 + df')| ≤ |τ'| * κ' * (1 + 1 / 2 ^ 8) := by
    rw [abs_mul, abs_mul, abs_sub_comm]
    exact mul_le_mul (mul_le_mul_of_nonneg_left bu' (abs_nonneg _)) f1' (abs_nonneg _) (by positivity)
  have b2 : |v' * (1 + df') ^ 2| ≤ V' * (1 + 1 / 2 ^ 8) := by
    rw [abs_mul]
    exact mul_le_mul bv' f2 (abs_nonneg _) ((abs_nonneg _).trans bv')
  have b3 : |v * (1 + df)| ≤ V * (1 + 1 / 2 ^ 8) := by
    rw [abs_mul]
    exact mul_le_mul bv f1 (abs_nonneg _) ((abs_nonneg _).trans bv)
  rw [e1]
  have t1 := abs_sub (τ' * (1 - u') * (1 + df') - v' * (1 + df') ^ 2) (v * (1 + df))
  have t2 := abs_sub (τ' * (1 - u') * (1 + df')) (v' * (1 + df') ^ 2)
  linarith

/-- The tests allow 1 ns: clocks 20 microseconds and 10^-4 apart fail, however accurate the runs are. -/
theorem C98_test_violated : ∃ φ τ φ' τ' : ℚ, InverseClocks φ τ φ' τ' ∧ |φ'| = 1 / 10 ^ 4 ∧ |τ| = 20000 ∧ 4 < |τ * (1 - (1 + φ') ^ 2)| := by
  refine ⟨1 / (1 + 1 / 10 ^ 4) - 1, 20000, 1 / 10 ^ 4, -20000 * (1 + 1 / 10 ^ 4), ?_, ?_, ?_, ?_⟩
  · rw [inverse_iff]; norm_num
  · norm_num
  · norm_num
  · norm_num [abs_of_neg]

/-- The parameters of `C76_example`, and those with reference and target exchanged. -/
def twoWayP : TFParams := { exampleParams with rnd := fl 53, rndA := fl 64 }
def twoWayP' : TFParams := { exampleParams with rnd := fl 53, rndA := fl 64, ats := [0, 5, 1000000, 1000004, 2000000] }

theorem twoWay_run : Returns (fun fuel => timeFreq twoWayP' fuel [0, 1000000, 1000005, 2000000] 4)
    (.ok (0, 0, [{ bts := [0, 1000000, 1000005, 2000000], dt1 := 0, df1 := 0 }, { bts := [0, 1000000, 1000005, 2000000], dt1 := 0, df1 := 0 }])) := by
  have h : timeFreq twoWayP' 20 [0, 1000000, 1000005, 2000000] 4 = some
      (.ok (0, 0, [{ bts := [0, 1000000, 1000005, 2000000], dt1 := 0, df1 := 0 }, { bts := [0, 1000000, 1000005, 2000000], dt1 := 0, df1 := 0 }])) := by
    decide +kernel
  exact ⟨20, fun fuel hf => runLoop_more _ 20 fuel hf _ _ h⟩

/-- Instance of `C98_inverse`: clocks with offset -6 ns and relative frequency 6·10^-6, found within 1 ns in one direction and
within 7 ns in the other. -/
example : ∃ φ' τ' R R', InverseClocks (6 / 10 ^ 6) (-6) φ' τ' ∧
    FoundWithin twoWayP [0, 5, 1000000, 1000004, 2000000] 4 (6 / 10 ^ 6) (-6) 1 R (-3377704224127499 / 562949953421312)
      (27021633793 / 4503599627370496) ∧
    FoundWithin twoWayP' [0, 1000000, 1000005, 2000000] 4 φ' τ' 7 R' 0 0 ∧
    (4 * (1 + R) * (1 + 1 / 2 ^ 10) + 6 * R) / twoWayP.sep ≤ 1 / 2 ^ 10 ∧
    (4 * (7 + R') * (1 + 1 / 2 ^ 10) + 6 * R') / twoWayP'.sep ≤ 1 / 2 ^ 10 := by
  refine ⟨1 / (1 + 6 / 10 ^ 6) - 1, 6 / (1 + 6 / 10 ^ 6), (1 + 1) * (10 ^ 7 + (1 + 1) * (101 * 10 ^ 6)) / 2 ^ 49,
    (1 + 1) * (10 ^ 7 + (1 + 1) * (101 * 10 ^ 6)) / 2 ^ 49, ?_, ?_, ?_, ?_, ?_⟩
  · rw [inverse_iff]; norm_num
  · exact ⟨[_], _, 10 ^ 7, C76_example, by norm_num, by norm_num, by decide +kernel, by decide +kernel, by decide +kernel, by decide +kernel⟩
  · exact ⟨[_], _, 10 ^ 7, twoWay_run, by norm_num, by norm_num, by decide +kernel, by decide +kernel, by decide +kernel, by decide +kernel⟩
  · decide +kernel
  · decide +kernel

end Fp
