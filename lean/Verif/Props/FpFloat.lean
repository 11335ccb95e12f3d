import Verif.Lemmas.FpFloat

/-!
# C89: a pure delay is found exactly, with all floating point operations and an inexact FFT
-/
namespace Fp
open Spec

/-- **C89** All scalars are doubles, all arrays have 64 significant bits, every operation is rounded and the correlation is only
known to be less than half an event pair off in every bin.  If the target timestamps are the reference timestamps plus `k`
bins, all on the grid of the timestamp cards, and the correlations have a clear peak, `time_freq` returns, and the result is
exactly this delay and no frequency offset. -/
theorem C89_pure_delay (P : TFParams) (hr : P.rnd = fl 53) (hra : P.rndA = fl 64) (h : Nat) (hh : 0 < h) (hh64 : 2 * h < 2 ^ 64)
    (hN : P.numBins = 2 * h) (ht : 0 < P.target) (res : ℚ) (hres : P.target ≤ res) (hgr : OnGrid res) (hr4 : res ≤ 10 ^ 4)
    (k : ℤ) (hk : |k| < h) (hdel : |k * res| ≤ 10 ^ 8) (hdur : 0 < P.duration)
    (hs : resRefineFactor * (1 + 1 / 2 ^ 50) * P.duration ≤ P.sep) (hgs : OnGrid P.sep)
    (hga : ∀ t ∈ P.ats, OnGrid t) (hgb : ∀ t ∈ P.ats, OnGrid (t + k * res)) (hgd : OnGrid (k * res))
    (T : ℚ) (hT : T ≤ P.target * 2 ^ 58) (hTa : ∀ t ∈ P.ats, t ≤ T ∧ t + k * res ≤ T)
    (hpeak : ∀ start, start = 0 ∨ start = P.sep →
      let w := fun ts => inWindow start (acqDurationFl (2 * h) res P.duration P.endTime) ts
      Peak (w P.ats) (w (P.ats.map (· + k * res))) (2 * h) res k ∧
      XcorrAccurate P.xcorr (w P.ats) (w (P.ats.map (· + k * res))) (2 * h) res)
    (hself : ∀ r start, P.target ≤ r → r ≤ res → start = 0 ∨ start = P.sep →
      let w := inWindow start (acqDurationFl (2 * h) r P.duration P.endTime) P.ats
      Peak w w (2 * h) r 0 ∧ XcorrAccurate P.xcorr w w (2 * h) r)
    (hsigt : ∀ ys r, ys.length = 2 * h → 0 < r → ∃ sig, P.signif ys r = .ok sig)
    (hsig : ∀ ys sig, P.signif ys res = .ok sig → sig ≠ 0 ∧ P.threshold ≤ sig) :
    ∃ trace, Returns (fun fuel => timeFreq P fuel (P.ats.map (· + k * res)) res) (.ok (k * res, 0, trace)) := by
  have hres0 : 0 < res := lt_of_lt_of_le ht hres
  have hsep0 : 0 ≤ P.sep := by
    refine le_trans ?_ hs
    have : (0 : ℚ) < resRefineFactor := by unfold resRefineFactor; norm_num
    positivity
  have hst : ∀ start, start = 0 ∨ start = P.sep → 0 ≤ start ∧ OnGrid start := by
    rintro start (rfl | rfl)
    · exact ⟨le_rfl, 0, by norm_num, by norm_num⟩
    · exact ⟨hsep0, hgs⟩
  have hd : ∀ r, tfDuration P r = acqDurationFl (2 * h) r P.duration P.endTime := by
    intro r; rw [duration_float P hr hra, hN]
  have hgb' : ∀ t ∈ P.ats.map (· + k * res), OnGrid t := by
    intro t ht'
    obtain ⟨u, hu, rfl⟩ := List.mem_map.mp ht'
    exact hgb u hu
  have hex : DelayExact P (k * res) := by
    refine ⟨by rw [hr, fl_zero], by rw [hr, fl_one (by norm_num)], by rw [hr]; exact onGrid_fl53 hgd hdel, ?_⟩
    intro t ht'
    rw [hra, add_sub_cancel_right, onGrid_fl64 (hga t ht'), div_one, onGrid_fl64 (hga t ht')]
  have hfirst : ∀ start, start = 0 ∨ start = P.sep → ∃ ys,
      tfCorrelate P (P.ats.map (· + k * res)) res start (tfDuration P res) = .ok (ys, k * res) ∧ ys.length = 2 * h := by
    intro start h3
    rw [hd]
    obtain ⟨h1, h2⟩ := hpeak start h3
    refine correlate_float P hra h hh hh64 hN _ res start _ hres0 hga hgb' (hst start h3).2
      (window_quot P.ats ht hres (hst start h3).1 hT (fun t h' => (hTa t h').1))
      (window_quot _ ht hres (hst start h3).1 hT ?_) k hk ?_ h1 h2
    · intro t ht'
      obtain ⟨u, hu, rfl⟩ := List.mem_map.mp ht'
      exact (hTa u hu).2
    · have e : ((|k| : ℤ) : ℚ) * res = |k * res| := by rw [abs_mul, abs_of_pos hres0]; push_cast; ring
      rw [e, hr]
      exact onGrid_fl53 (onGrid_abs hgd) (by rwa [abs_abs])
  have hself' : ∀ r start, (P.target ≤ r ∧ r ≤ res) → start = 0 ∨ start = P.sep → ∃ ys,
      tfCorrelate P P.ats r start (tfDuration P r) = .ok (ys, 0) ∧ ys.length = 2 * h := by
    rintro r start ⟨g1, g2⟩ h3
    rw [hd]
    obtain ⟨h1, h2⟩ := hself r start g1 g2 h3
    have := correlate_float P hra h hh hh64 hN P.ats r start _ (lt_of_lt_of_le ht g1) hga hga (hst start h3).2
      (window_quot P.ats ht g1 (hst start h3).1 hT (fun t h' => (hTa t h').1))
      (window_quot P.ats ht g1 (hst start h3).1 hT (fun t h' => (hTa t h').1)) 0 (by simpa using hh)
      (by rw [hr]; simp [fl_zero]) h1 h2
    simpa using this
  have hR : ∀ r, (P.target ≤ r ∧ r ≤ res) → P.target ≤ nextRes P r ∧ nextRes P r ≤ res := by
    rintro r ⟨g1, g2⟩
    refine ⟨le_max_right _ _, ?_⟩
    unfold nextRes
    rw [hr]
    apply max_le _ hres
    have hq := refine_ge_one P.sep P.duration hdur hs
    have hr0 : 0 < r := lt_of_lt_of_le ht g1
    have hfr : fl 53 res = res := onGrid_fl53 hgr (by
      rw [abs_of_pos hres0]
      exact hr4.trans (by norm_num))
    rw [← hfr]
    exact fl_mono_nonneg 53 (by norm_num) (div_nonneg hr0.le (by linarith)) ((div_le_self hr0.le hq).trans g2)
  obtain ⟨r, hret⟩ := C34_terminates P (by rw [hr]; exact C34_relErr.1) hdur ht hs (P.ats.map (· + k * res)) res hres0
  obtain ⟨⟨dt, df, trace⟩, rfl⟩ := delay_no_error P (k * res) res hex (by unfold ntpMaxDelay; exact hdel) (2 * h)
    (fun r => P.target ≤ r ∧ r ≤ res) ⟨hres, le_rfl⟩ hR hfirst hself'
    (fun ys r hl h1 => hsigt ys r hl (lt_of_lt_of_le ht h1.1)) hsig r hret
  obtain ⟨h1, h2⟩ := delay_core P (k * res) res hex (fun r => P.target ≤ r ∧ r ≤ res) ⟨hres, le_rfl⟩ hR
    (by
      intro start h3 ys d' hc
      obtain ⟨ys', hc', -⟩ := hfirst start h3
      rw [hc'] at hc
      simp only [Except.ok.injEq, Prod.mk.injEq] at hc
      exact hc.2.symm)
    (by
      intro r start h0 h3 ys d' hc
      obtain ⟨ys', hc', -⟩ := hself' r start h0 h3
      rw [hc'] at hc
      simp only [Except.ok.injEq, Prod.mk.injEq] at hc
      exact hc.2.symm) hsig dt df trace hret
  subst h1 h2
  exact ⟨trace, hret⟩

/-- Instance of C89 with all its hypotheses: a delay of one bin, refined to half a bin, with a correlation off by 1/4. -/
example : ∃ trace, Returns (fun fuel => timeFreq floatParams fuel (floatParams.ats.map (· + ((1 : ℤ) : ℚ) * 1)) 1)
    (.ok (((1 : ℤ) : ℚ) * 1, 0, trace)) := by
  have grid : ∀ n : ℤ, |n| < 2 ^ 53 → OnGrid n := by
    intro n hn
    refine ⟨n * 256, by push_cast; ring, ?_⟩
    rw [abs_mul]
    norm_num at hn ⊢
    omega
  have g1 : OnGrid 1 := by exact_mod_cast grid 1 (by norm_num)
  have g10 : OnGrid 10 := by exact_mod_cast grid 10 (by norm_num)
  have g0 : OnGrid 0 := by exact_mod_cast grid 0 (by norm_num)
  have g11 : OnGrid (10 + 1) := by exact_mod_cast grid 11 (by norm_num)
  have hd : acqDurationFl (2 * 2) 1 floatParams.duration floatParams.endTime = 4 := by
    decide +kernel
  apply C89_pure_delay floatParams rfl rfl 2 (by norm_num) (by norm_num) rfl (by norm_num [floatParams]) 1 (by norm_num [floatParams])
    g1 (by norm_num) 1 (by norm_num) (by norm_num) (by norm_num [floatParams]) (by norm_num [floatParams, resRefineFactor]) g10
    ?_ ?_ (by simpa using g1) 11 (by norm_num [floatParams]) (by norm_num [floatParams])
  · intro start hs
    rw [hd]
    have e1 : ∀ start, start = 0 ∨ start = floatParams.sep → inWindow start 4 floatParams.ats = [0] ∧
        inWindow start 4 (floatParams.ats.map (· + ((1 : ℤ) : ℚ) * 1)) = [1] := by
      rintro start (rfl | rfl) <;> decide +kernel
    simp only [(e1 start hs).1, (e1 start hs).2]
    constructor
    · exact peak_of_range _ _ 4 (by norm_num) 1 1 (by decide +kernel) (by norm_num)
    · have hx : floatParams.xcorr (histogram [0] (2 * 2) 1) (histogram [1] (2 * 2) 1) = [1 / 4, 5 / 4, 1 / 4, 1 / 4] := by
        decide +kernel
      unfold XcorrAccurate
      rw [hx]
      refine ⟨rfl, ?_⟩
      intro k x hk
      match k, hk with
      | 0, hk => simp at hk; subst hk; decide +kernel
      | 1, hk => simp at hk; subst hk; decide +kernel
      | 2, hk => simp at hk; subst hk; decide +kernel
      | 3, hk => simp at hk; subst hk; decide +kernel
      | k + 4, hk => simp at hk
  · intro r start h1 h2 hs
    obtain ⟨d1, d2⟩ := floatParams_dur r h1 h2
    have := floatParams_window _ start d1 d2 hs
    rw [show acqDurationFl (2 * 2) r floatParams.duration floatParams.endTime = acqDurationFl 4 r 4 14 from rfl,
      show floatParams.ats = [0, 10] from rfl, this]
    exact single_peak r
  · intro ys r _ _
    exact ⟨10, rfl⟩
  · intro ys sig h
    simp only [floatParams, Except.ok.injEq] at h
    subst h
    norm_num [floatParams]
  · intro t ht
    simp only [floatParams, List.mem_cons, List.not_mem_nil, or_false] at ht
    rcases ht with rfl | rfl
    · exact g0
    · exact g10
  · intro t ht
    simp only [floatParams, List.mem_cons, List.not_mem_nil, or_false] at ht
    rcases ht with rfl | rfl
    · simpa using g1
    · simpa using g11

end Fp
