import Verif.Lemmas.FpAccuracy

/-! # Accuracy of the compensation search: C63, C64 -/
namespace Fp
open Spec

/-! ## C63 -/

/-- **C63**: let the target clock have a relative frequency offset φ and an offset τ.  If in the last iteration the early
delay is found with an error of at most ε and so is the late delay (which is `e.dt1 + e.df1 * sep`), both with respect to the
target times as corrected by the previous iterations, then the result maps the target time of every moment `a` of the
reference clock to within ε + 2 ε a / sep of it (up to a factor 1 + 2^-10). -/
theorem C63_accuracy (P : TFParams) (hr : P.rnd = id) (hra : P.rndA = id) (hsep : 0 < P.sep) (bts : List ℚ) (res dt df : ℚ)
    (trace : List TFEntry) (e : TFEntry) (φ τ ε : ℚ)
    (h : Returns (fun fuel => timeFreq P fuel bts res) (.ok (dt, df, trace ++ [e])))
    (h1 : |e.dt1 - composed trace (targetClock φ τ 0)| ≤ ε)
    (h2 : |e.dt1 + e.df1 * P.sep - (composed trace (targetClock φ τ P.sep) - P.sep)| ≤ ε) :
    ∀ a, 0 ≤ a → |corrected dt df (targetClock φ τ a) - a| ≤ (ε + 2 * ε * (a / P.sep)) * (1 + 1 / 2 ^ 10) := by
  intro a ha
  have hsm := steps_small P hr bts res dt df _ h e (by simp)
  rw [abs_lt] at hsm
  have hf : 1 - 1 / 2 ^ 11 < 1 + e.df1 := by linarith [hsm.1]
  have hf0 : 0 < 1 + e.df1 := lt_trans (by norm_num) hf
  obtain ⟨-, hc, -⟩ := C32_time_freq P hr hra bts res dt df _ h
  rw [hc, composed_append, corrected]
  obtain ⟨u, v, huv⟩ := composed_affine trace
  rw [huv] at h1 h2 ⊢
  simp only [targetClock] at *
  have := residual_bound (u * (1 + φ)) (u * τ + v) e.dt1 e.df1 P.sep ε a hsep ha hf0
    (by rw [show u * (0 * (1 + φ) + τ) + v = u * τ + v by ring] at h1; exact h1)
    (by rw [show u * (P.sep * (1 + φ) + τ) + v - P.sep = u * (1 + φ) * P.sep + (u * τ + v) - P.sep by ring] at h2; exact h2)
  rw [show u * (a * (1 + φ) + τ) + v = u * (1 + φ) * a + (u * τ + v) by ring]
  refine this.trans ?_
  have hε : 0 ≤ ε := (abs_nonneg _).trans h1
  have hX : 0 ≤ ε + 2 * ε * (a / P.sep) := by positivity
  generalize ε + 2 * ε * (a / P.sep) = X at *
  rw [div_le_iff₀ hf0, mul_assoc]
  apply le_mul_of_one_le_right hX
  nlinarith

/-- Instance of C63: the run of `C32_example`, for a clock that is half a nanosecond off its result at time zero. -/
example : ∀ a, 0 ≤ a → |corrected (-750001 / 125000) (750001 / 125000000000)
    (targetClock (750001 / 125000000000) (-750001 / 125000 + 1 / 2) a) - a| ≤ (1 + 2 * 1 * (a / 1000000)) * (1 + 1 / 2 ^ 10) :=
  C63_accuracy exampleParams rfl rfl (by norm_num [exampleParams]) _ 4 _ _
    [{ bts := [0, 5, 1000000, 1000004, 2000000], dt1 := -4, df1 := 1 / 250000 }]
    { bts := [1000000 / 250001, 2250000 / 250001, 1000000, 250002000000 / 250001, 500001000000 / 250001], dt1 := -2,
      df1 := 1 / 500000 } _ _ 1 C32_example (by norm_num [composed, corrected, targetClock, abs_le])
    (by norm_num [composed, corrected, targetClock, abs_le, exampleParams])

/-! ## C64 -/

/-- **C64**: if the target timestamps are the reference timestamps delayed by `k` bins of the initial resolution, with less than
half the correlation period, the correlations of the first iteration have their peak at that delay and the peak is accepted,
then whatever `time_freq` returns is exactly this delay and no frequency offset: for all refinements that follow. -/
theorem C64_pure_delay (P : TFParams) (hr : P.rnd = id) (hra : P.rndA = id) (hx : P.xcorr = exactXcorr) (h : Nat) (hh : 0 < h)
    (hN : P.numBins = 2 * h) (ht : 0 < P.target) (res : ℚ) (hres : 0 < res) (k : ℤ) (hk : |k| < h)
    (hearly : Peak (inWindow 0 (acqDuration (2 * h) res P.duration P.endTime) P.ats)
      (inWindow 0 (acqDuration (2 * h) res P.duration P.endTime) (P.ats.map (· + k * res))) (2 * h) res k)
    (hlate : Peak (inWindow P.sep (acqDuration (2 * h) res P.duration P.endTime) P.ats)
      (inWindow P.sep (acqDuration (2 * h) res P.duration P.endTime) (P.ats.map (· + k * res))) (2 * h) res k)
    (hsig : ∀ ys sig, P.signif ys res = .ok sig → sig ≠ 0 ∧ P.threshold ≤ sig) (dt df : ℚ) (trace : List TFEntry)
    (hret : Returns (fun fuel => timeFreq P fuel (P.ats.map (· + k * res)) res) (.ok (dt, df, trace))) :
    dt = k * res ∧ df = 0 := by
  have hd : ∀ r, tfDuration P r = acqDuration (2 * h) r P.duration P.endTime := by
    intro r; rw [duration_id P hr hra, hN]
  refine delay_core P (k * res) res (delayExact_id P hr hra _) (fun r => 0 < r) hres ?_ ?_ ?_ hsig dt df trace hret
  · intro r _
    exact lt_of_lt_of_le ht (le_max_right _ _)
  · intro start hs ys d' hc
    rw [hd] at hc
    rcases hs with rfl | rfl
    · exact correlate_peak P hr hra hx h hh hN _ res 0 _ hres k hk hearly ys d' hc
    · exact correlate_peak P hr hra hx h hh hN _ res P.sep _ hres k hk hlate ys d' hc
  · intro r start hr0 _ ys d' hc
    exact correlate_self P hr hra hx h hh hN r start _ hr0 ys d' hc

/-- **C64**, total correctness: under the conditions of `C64_pure_delay`, with a separation of more than √2 durations, a final
resolution not above the initial one, a delay of at most 100 ms and events in every window that is used, `time_freq` does
return, and the result is exactly the delay. -/
theorem C64_returns (P : TFParams) (hr : P.rnd = id) (hra : P.rndA = id) (hx : P.xcorr = exactXcorr) (h : Nat) (hh : 0 < h)
    (hN : P.numBins = 2 * h) (ht : 0 < P.target) (res : ℚ) (hres : P.target ≤ res) (k : ℤ) (hk : |k| < h)
    (hdel : |k * res| ≤ 10 ^ 8) (hdur : 0 < P.duration) (hs : resRefineFactor * (1 + 1 / 2 ^ 50) * P.duration ≤ P.sep)
    (hwin : ∀ r start, P.target ≤ r → r ≤ res → start = 0 ∨ start = P.sep →
      inWindow start (acqDuration (2 * h) r P.duration P.endTime) P.ats ≠ [])
    (hwin' : ∀ start, start = 0 ∨ start = P.sep →
      inWindow start (acqDuration (2 * h) res P.duration P.endTime) (P.ats.map (· + k * res)) ≠ [])
    (hearly : Peak (inWindow 0 (acqDuration (2 * h) res P.duration P.endTime) P.ats)
      (inWindow 0 (acqDuration (2 * h) res P.duration P.endTime) (P.ats.map (· + k * res))) (2 * h) res k)
    (hlate : Peak (inWindow P.sep (acqDuration (2 * h) res P.duration P.endTime) P.ats)
      (inWindow P.sep (acqDuration (2 * h) res P.duration P.endTime) (P.ats.map (· + k * res))) (2 * h) res k)
    (hsigt : ∀ ys r, ys.length = 2 * h → 0 < r → ∃ sig, P.signif ys r = .ok sig)
    (hsig : ∀ ys sig, P.signif ys res = .ok sig → sig ≠ 0 ∧ P.threshold ≤ sig) :
    ∃ trace, Returns (fun fuel => timeFreq P fuel (P.ats.map (· + k * res)) res) (.ok (k * res, 0, trace)) := by
  have hres0 : 0 < res := lt_of_lt_of_le ht hres
  obtain ⟨r, hret⟩ := C34_terminates P (by rw [hr]; exact C34_relErr.2) hdur ht hs (P.ats.map (· + k * res)) res hres0
  suffices hok : ∃ v, r = .ok v by
    obtain ⟨⟨dt, df, trace⟩, rfl⟩ := hok
    obtain ⟨h1, h2⟩ := C64_pure_delay P hr hra hx h hh hN ht res hres0 k hk hearly hlate hsig dt df trace hret
    subst h1 h2
    exact ⟨trace, hret⟩
  have hq : ∀ x, 0 < x → x / (P.sep / P.duration / resRefineFactor) ≤ x := by
    intro x hx0
    have hR : (0 : ℚ) < resRefineFactor := by unfold resRefineFactor; norm_num
    have hge : 1 ≤ P.sep / P.duration / resRefineFactor := by
      rw [le_div_iff₀ hR, le_div_iff₀ hdur]
      refine le_trans ?_ hs
      have : 0 < resRefineFactor * P.duration := by positivity
      nlinarith
    exact div_le_self hx0.le hge
  have hd : ∀ r, tfDuration P r = acqDuration (2 * h) r P.duration P.endTime := by
    intro r; rw [duration_id P hr hra, hN]
  refine delay_no_error P (k * res) res (delayExact_id P hr hra _) (by unfold ntpMaxDelay; exact hdel) (2 * h)
    (fun r => P.target ≤ r ∧ r ≤ res) ⟨hres, le_rfl⟩ ?_ ?_ ?_ ?_ hsig r hret
  · rintro r ⟨h1, h2⟩
    refine ⟨le_max_right _ _, ?_⟩
    unfold nextRes
    simp only [hr, id]
    exact max_le ((hq r (lt_of_lt_of_le ht h1)).trans h2) hres
  · intro start h3
    rw [hd]
    obtain ⟨ys, d, hc, hl⟩ := correlate_ok P hr hra hx h hh hN (P.ats.map (· + k * res)) res start _ hres0
      (hwin res start hres le_rfl h3) (hwin' start h3)
    have : d = k * res := by
      rcases h3 with rfl | rfl
      · exact correlate_peak P hr hra hx h hh hN _ res 0 _ hres0 k hk hearly ys d hc
      · exact correlate_peak P hr hra hx h hh hN _ res P.sep _ hres0 k hk hlate ys d hc
    rw [this] at hc
    exact ⟨ys, hc, hl⟩
  · rintro r start ⟨h1, h2⟩ h3
    rw [hd]
    obtain ⟨ys, d, hc, hl⟩ := correlate_ok P hr hra hx h hh hN P.ats r start _ (lt_of_lt_of_le ht h1) (hwin r start h1 h2 h3)
      (hwin r start h1 h2 h3)
    have := correlate_self P hr hra hx h hh hN r start _ (lt_of_lt_of_le ht h1) ys d hc
    rw [this] at hc
    exact ⟨ys, hc, hl⟩
  · rintro ys r hl ⟨h1, -⟩
    exact hsigt ys r hl (lt_of_lt_of_le ht h1)

/-- Instance of C64 with all its hypotheses: a delay of one bin, refined to half a bin. -/
example : ∃ trace, Returns (fun fuel => timeFreq delayParams fuel (delayParams.ats.map (· + ((1 : ℤ) : ℚ) * 1)) 1)
    (.ok (((1 : ℤ) : ℚ) * 1, 0, trace)) := by
  have hd : acqDuration (2 * 2) 1 delayParams.duration delayParams.endTime = 4 := delayParams_dur
  apply C64_returns delayParams rfl rfl rfl 2 (by norm_num) rfl (by norm_num [delayParams]) 1 (by norm_num [delayParams]) 1
    (by norm_num) (by norm_num) (by norm_num [delayParams]) (by norm_num [delayParams, resRefineFactor])
  · intro r start h1 h2 hs
    exact delayParams_window r start h1 h2 hs
  · intro start hs
    rw [hd]
    rcases hs with rfl | rfl <;> simp only [delayParams] <;> decide +kernel
  · rw [hd]
    simp only [delayParams]
    exact peak_of_range _ _ 4 (by norm_num) 1 1 (by decide +kernel) (by norm_num)
  · rw [hd]
    simp only [delayParams]
    exact peak_of_range _ _ 4 (by norm_num) 1 1 (by decide +kernel) (by norm_num)
  · intro ys r _ _
    exact ⟨10, rfl⟩
  · intro ys sig h
    simp only [delayParams, Except.ok.injEq] at h
    subst h
    norm_num [delayParams]

end Fp
