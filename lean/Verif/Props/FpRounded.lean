import Verif.Lemmas.FpRounded

/-! # Rounding errors of the compensation search: C76 -/
namespace Fp
open Spec

/-- **C76**: in rounded arithmetic (relative errors of at most 2^-53) the target timestamps used in the iterations are those
of the previous iterations, corrected, and the result of `time_freq` maps every target time to within
`n * (|t| + n * 101 ms) * 2^-49` of what the successive corrections of the `n` iterations yield: 0.04 ns for 20 iterations
and 1000 s. -/
theorem C76_rounded (P : TFParams) (hr : RelErr P.rnd) (hra : RelErr P.rndA) (bts : List ℚ) (res dt df : ℚ)
    (trace : List TFEntry) (h : Returns (fun fuel => timeFreq P fuel bts res) (.ok (dt, df, trace)))
    (hl : trace.length ≤ 2 ^ 35) :
    (∀ (i : Nat) e, (trace)[i]? = some e → e.bts = bts.map (composedR P.rnd P.rndA (trace.take i))) ∧
    ∀ t, |corrected dt df t - composedR P.rnd P.rndA trace t| ≤
      trace.length * (|t| + trace.length * (101 * 10 ^ 6)) / 2 ^ 49 := by
  obtain ⟨f, h1, rfl, hne⟩ := run_inv P hr hra bts res dt df trace h
  exact ⟨h1.2.2.1, roundInv_result P hr bts f dt trace h1 hne hl⟩

/-- A run in the arithmetic in use, with one refinement. -/
theorem C76_example : Returns (fun fuel => timeFreq { exampleParams with rnd := fl 53, rndA := fl 64 } fuel
      [0, 5, 1000000, 1000004, 2000000] 4)
    (.ok (-3377704224127499 / 562949953421312, 27021633793 / 4503599627370496,
      [{ bts := [0, 5, 1000000, 1000004, 2000000], dt1 := -4, df1 := 4722366482869645 / 1180591620717411303424 },
       { bts := [18446670287028405477 / 4611686018427387904, 10376252036453478081 / 1152921504606846976,
          17592186044416001883 / 17592186044416, 549758012902459553 / 549755813888,
          2199018857523081247 / 1099511627776], dt1 := -2, df1 := 4722366482869645 / 2361183241434822606848 }])) := by
  refine ⟨20, ?_⟩
  have h : timeFreq { exampleParams with rnd := fl 53, rndA := fl 64 } 20 [0, 5, 1000000, 1000004, 2000000] 4 = some
    (.ok (-3377704224127499 / 562949953421312, 27021633793 / 4503599627370496,
      [{ bts := [0, 5, 1000000, 1000004, 2000000], dt1 := -4, df1 := 4722366482869645 / 1180591620717411303424 },
       { bts := [18446670287028405477 / 4611686018427387904, 10376252036453478081 / 1152921504606846976,
          17592186044416001883 / 17592186044416, 549758012902459553 / 549755813888,
          2199018857523081247 / 1099511627776], dt1 := -2, df1 := 4722366482869645 / 2361183241434822606848 }])) := by
    decide +kernel
  exact fun fuel hf => runLoop_more _ 20 fuel hf _ _ h

/-- The arithmetic in use has relative errors of at most 2^-53: doubles and extended precision. -/
theorem C76_arithmetic : RelErr (fl 53) ∧ RelErr (fl 64) := by
  refine ⟨C34_relErr.1, fun x => ?_⟩
  refine (fl_err 64 x).trans ?_
  rw [div_eq_mul_inv]
  apply mul_le_mul_of_nonneg_left _ (abs_nonneg x)
  norm_num [zpow_neg]

/-- The hypotheses of C76 are satisfiable by a run with a refinement, in the arithmetic in use. -/
example : ∃ P bts res dt df trace, P.rnd = fl 53 ∧ P.rndA = fl 64 ∧ RelErr P.rnd ∧ RelErr P.rndA ∧
    Returns (fun fuel => timeFreq P fuel bts res) (.ok (dt, df, trace)) ∧ trace.length = 2 :=
  ⟨{ exampleParams with rnd := fl 53, rndA := fl 64 }, _, _, _, _, _, rfl, rfl, C76_arithmetic.1, C76_arithmetic.2, C76_example, rfl⟩

/-! ## C63 in rounded arithmetic -/

/-- **C63** in rounded arithmetic (relative errors of at most 2^-53): the last early and late delays are found with errors of
at most ε with respect to the target times as they were computed.  The bound of `C63_accuracy` holds with ε enlarged by the
rounding error R of C76, plus 3 R.  (All target times involved are at most B in magnitude.) -/
theorem C63_rounded (P : TFParams) (hr : RelErr P.rnd) (hra : RelErr P.rndA) (hsep : 0 < P.sep) (bts : List ℚ) (res dt df : ℚ)
    (trace : List TFEntry) (e : TFEntry) (φ τ ε B R : ℚ)
    (h : Returns (fun fuel => timeFreq P fuel bts res) (.ok (dt, df, trace ++ [e])))
    (hl : trace.length + 1 ≤ 2 ^ 35) (hR : R = (trace.length + 1) * (B + (trace.length + 1) * (101 * 10 ^ 6)) / 2 ^ 49)
    (h1 : |e.dt1 - composedR P.rnd P.rndA trace (targetClock φ τ 0)| ≤ ε)
    (h2 : |e.dt1 + e.df1 * P.sep - (composedR P.rnd P.rndA trace (targetClock φ τ P.sep) - P.sep)| ≤ ε)
    (hB0 : |targetClock φ τ 0| ≤ B) (hBs : |targetClock φ τ P.sep| ≤ B) :
    ∀ a, 0 ≤ a → |targetClock φ τ a| ≤ B →
      |corrected dt df (targetClock φ τ a) - a| ≤ (ε + R + 2 * (ε + R) * (a / P.sep)) * (1 + 1 / 2 ^ 10) + 3 * R := by
  intro a ha hBa
  obtain ⟨F, D, hF, hD, hc, hF', hd1⟩ := prefix_approx P hr hra bts res dt df _ h trace e [] rfl (by omega)
  have hfin := (C76_rounded P hr hra bts res dt df _ h (by simpa using hl)).2 (targetClock φ τ a)
  rw [composedR_append, List.length_append, List.length_singleton] at hfin
  set n : ℚ := (trace.length : ℚ) with hn
  have hn0 : 0 ≤ n := by positivity
  have hB : 0 ≤ B := (abs_nonneg _).trans hB0
  push_cast at hfin
  rw [← hn] at hfin
  set Y : ℚ := B + (n + 1) * (101 * 10 ^ 6) with hY
  have hY0 : 0 ≤ Y := by positivity
  have hYn : 101 * 10 ^ 6 ≤ Y := by
    have : 0 ≤ n * (101 * 10 ^ 6) := by positivity
    rw [hY]; linarith
  have hYR : Y / 2 ^ 49 ≤ R := by
    rw [hR]
    apply div_le_div_of_nonneg_right _ (by positivity)
    exact le_mul_of_one_le_left hY0 (by linarith)
  have hFlo : 1 - 1 / 2 ^ 12 ≤ F := by linarith [(abs_le.mp hF).1]
  have hFhi : F ≤ 1 + 1 / 2 ^ 12 := by linarith [(abs_le.mp hF).2]
  have hF0 : 0 < F := lt_of_lt_of_le (by norm_num) hFlo
  -- the corrections before the last one are nearly affine
  have haff : ∀ t, |t| ≤ B → |composedR P.rnd P.rndA trace t - (t - D) / F| ≤ R / 2 * (1 + 1 / 2 ^ 11) := by
    intro t ht
    have h3 : composedR P.rnd P.rndA trace t - (t - D) / F = (F * composedR P.rnd P.rndA trace t + D - t) / F := by
      field_simp; ring
    rw [h3, abs_div, abs_of_pos hF0, div_le_iff₀ hF0]
    have h4 : n * (|t| + n * (101 * 10 ^ 6)) / 2 ^ 50 ≤ R / 2 := by
      have h5 : n * (|t| + n * (101 * 10 ^ 6)) ≤ (n + 1) * Y := by
        apply mul_le_mul (by linarith) _ (by positivity) (by positivity)
        rw [hY]; linarith
      rw [hR]
      linarith
    have hR0 : 0 ≤ R := by
      rw [hR]; positivity
    have h6 : R / 2 ≤ R / 2 * (1 + 1 / 2 ^ 11) * F := by
      have : 1 ≤ (1 + 1 / 2 ^ 11) * F := by nlinarith
      rw [mul_assoc]
      exact le_mul_of_one_le_right (by linarith) this
    exact (hc t).trans (h4.trans h6)
  have hR0 : 0 ≤ R := by rw [hR]; positivity
  have hg := last_factor hr F e.df1 hF hF'
  have hg0 : 0 < 1 + e.df1 := lt_of_lt_of_le (by norm_num) hg
  have hginv : 1 / (1 + e.df1) ≤ 1 + 1 / 2 ^ 10 := by
    rw [div_le_iff₀ hg0]
    nlinarith
  set c := composedR P.rnd P.rndA trace (targetClock φ τ a) with hcdef
  have hcb : |c - e.dt1| ≤ 2 * Y := by
    have q1 := haff _ hBa
    have hRY : R ≤ Y / 2 ^ 14 := by
      have hl' : n + 1 ≤ 2 ^ 35 := by rw [hn]; exact_mod_cast hl
      have : (n + 1) * Y ≤ 2 ^ 35 * Y := mul_le_mul_of_nonneg_right hl' hY0
      rw [hR, div_le_div_iff₀ (by norm_num) (by norm_num)]
      norm_num at this ⊢
      linarith
    have q3 : |targetClock φ τ a - D| ≤ Y - 101 * 10 ^ 6 := by
      refine (abs_sub _ _).trans ?_
      rw [hY]; linarith
    have q4 : |(targetClock φ τ a - D) / F| ≤ (Y - 101 * 10 ^ 6) * (1 + 1 / 2 ^ 11) := by
      rw [abs_div, abs_of_pos hF0, div_le_iff₀ hF0]
      refine q3.trans ?_
      rw [mul_assoc]
      exact le_mul_of_one_le_right (by linarith) (by nlinarith)
    have q5 := abs_sub c e.dt1
    have q6 := abs_add_le (c - (targetClock φ τ a - D) / F) ((targetClock φ τ a - D) / F)
    rw [sub_add_cancel] at q6
    norm_num at *
    linarith
  have hstep : |P.rndA (P.rndA (c - e.dt1) / P.rnd (1 + e.df1)) - (c - e.dt1) / (1 + e.df1)| ≤ R :=
    (last_step hr hra (c - e.dt1) e.df1 Y hY0 hg0 hginv hcb).trans hYR
  have hres := residual_bound (1 / F * (1 + φ)) ((τ - D) / F) e.dt1 e.df1 P.sep (ε + R) a hsep ha hg0
    (by
      have q := haff _ hB0
      simp only [targetClock, zero_mul, zero_add] at q h1 ⊢
      have := abs_sub_le e.dt1 (composedR P.rnd P.rndA trace τ) ((τ - D) / F)
      linarith)
    (by
      have q := haff _ hBs
      simp only [targetClock] at q h2 ⊢
      have e3 : 1 / F * (1 + φ) * P.sep + (τ - D) / F - P.sep = (P.sep * (1 + φ) + τ - D) / F - P.sep := by ring
      rw [e3]
      have := abs_sub_le (e.dt1 + e.df1 * P.sep) (composedR P.rnd P.rndA trace (P.sep * (1 + φ) + τ) - P.sep)
        ((P.sep * (1 + φ) + τ - D) / F - P.sep)
      rw [sub_sub_sub_cancel_right] at this
      linarith)
  have hG : 1 / F * (1 + φ) * a + (τ - D) / F = (targetClock φ τ a - D) / F := by
    simp only [targetClock]; ring
  rw [hG] at hres
  set G := (targetClock φ τ a - D) / F
  have hthird : |(c - e.dt1) / (1 + e.df1) - (G - e.dt1) / (1 + e.df1)| ≤ R := by
    rw [← sub_div, sub_sub_sub_cancel_right, abs_div, abs_of_pos hg0, div_eq_mul_one_div]
    have := mul_le_mul (haff _ hBa) hginv (by positivity) (by positivity)
    refine this.trans ?_
    norm_num
    linarith
  have hfirst : |corrected dt df (targetClock φ τ a) - P.rndA (P.rndA (c - e.dt1) / P.rnd (1 + e.df1))| ≤ R := by
    refine hfin.trans ?_
    rw [hR]
    apply div_le_div_of_nonneg_right _ (by positivity)
    apply mul_le_mul_of_nonneg_left _ (by positivity)
    rw [hY]; linarith
  have hfour : |(G - e.dt1) / (1 + e.df1) - a| ≤ (ε + R + 2 * (ε + R) * (a / P.sep)) * (1 + 1 / 2 ^ 10) := by
    refine hres.trans ?_
    rw [div_eq_mul_one_div]
    apply mul_le_mul_of_nonneg_left hginv
    have : 0 ≤ ε := (abs_nonneg _).trans h1
    positivity
  generalize P.rndA (P.rndA (c - e.dt1) / P.rnd (1 + e.df1)) = z at *
  have s1 := abs_sub_le (corrected dt df (targetClock φ τ a)) z a
  have s2 := abs_sub_le z ((c - e.dt1) / (1 + e.df1)) a
  have s3 := abs_sub_le ((c - e.dt1) / (1 + e.df1)) ((G - e.dt1) / (1 + e.df1)) a
  linarith

/-- Instance of `C63_rounded`: the run of `C76_example`, for a clock with an offset of -6 ns that runs 6 ppm fast. -/
example : ∀ a, 0 ≤ a → |targetClock (6 / 10 ^ 6) (-6) a| ≤ 10 ^ 12 →
    |corrected (-3377704224127499 / 562949953421312) (27021633793 / 4503599627370496) (targetClock (6 / 10 ^ 6) (-6) a) - a| ≤
      (1 + (1 + 1) * (10 ^ 12 + (1 + 1) * (101 * 10 ^ 6)) / 2 ^ 49 +
        2 * (1 + (1 + 1) * (10 ^ 12 + (1 + 1) * (101 * 10 ^ 6)) / 2 ^ 49) * (a / 1000000)) * (1 + 1 / 2 ^ 10) +
      3 * ((1 + 1) * (10 ^ 12 + (1 + 1) * (101 * 10 ^ 6)) / 2 ^ 49) := by
  have h := C63_rounded { exampleParams with rnd := fl 53, rndA := fl 64 } C76_arithmetic.1 C76_arithmetic.2
    (by norm_num [exampleParams]) _ 4 _ _ [_] _ (6 / 10 ^ 6) (-6) 1 (10 ^ 12)
    ((1 + 1) * (10 ^ 12 + (1 + 1) * (101 * 10 ^ 6)) / 2 ^ 49) C76_example (by norm_num) (by norm_num)
    (by decide +kernel) (by decide +kernel) (by decide +kernel) (by decide +kernel)
  exact h

end Fp
