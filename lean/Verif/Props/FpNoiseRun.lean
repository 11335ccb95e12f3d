import Verif.Props.FpNoise
import Verif.Props.FpRounded

/-! # C104: the result of a run with noise, jitter and drift -/
namespace Fp
open Spec

/-- Bins are only merged if a peak was below the threshold. -/
def MergedOnly (P : TFParams) (res : ℚ) (j : Nat) : Prop := j = 0 ∨ ∃ ys sig, P.signif ys res = .ok sig ∧ sig < P.threshold

/-- The invariant of a run. -/
def CorrInv (P : TFParams) (res : ℚ) (s : TFState) : Prop :=
  s.trace.length + 1 = s.iter ∧ ∃ j, MergedOnly P res j ∧ s.res = resolutionAt P res j s.trace.length ∧
  (∀ pre e post, s.trace = pre ++ e :: post → pre ≠ [] → FromCorrelations P (resolutionAt P res j pre.length) e) ∧
  (match s.phase with
    | .begin => s.iter = 1 → j = 0
    | .search ys _ sig _ => s.iter = 1 ∧ P.signif ys s.res = .ok sig
    | .late dt1 dur => s.iter ≠ 1 → dur = tfDuration P s.res ∧ ∃ ys, tfCorrelate P s.bts s.res 0 dur = .ok (ys, dt1))

theorem corrInv_append {P : TFParams} {res : ℚ} {j : Nat} {trace : List TFEntry} {x : TFEntry}
    (h : ∀ pre e post, trace = pre ++ e :: post → pre ≠ [] → FromCorrelations P (resolutionAt P res j pre.length) e)
    (hx : trace ≠ [] → FromCorrelations P (resolutionAt P res j trace.length) x) :
    ∀ pre e post, trace ++ [x] = pre ++ e :: post → pre ≠ [] → FromCorrelations P (resolutionAt P res j pre.length) e := by
  intro pre e post he hne
  rcases List.eq_nil_or_concat post with rfl | ⟨post', y, rfl⟩
  · obtain ⟨h1, h2⟩ := List.append_inj' he rfl
    obtain rfl : x = e := by simpa using h2
    rw [← h1]
    exact hx (by rw [h1]; exact hne)
  · rw [List.concat_eq_append, ← List.cons_append, ← List.append_assoc] at he
    exact h pre e post' (List.append_inj' he rfl).1 hne

theorem run_correlations (P : TFParams) (bts : List ℚ) (res dt df : ℚ) (trace : List TFEntry)
    (h : Returns (fun fuel => timeFreq P fuel bts res) (.ok (dt, df, trace))) :
    ∃ j, MergedOnly P res j ∧
      ∀ pre e post, trace = pre ++ e :: post → pre ≠ [] → FromCorrelations P (resolutionAt P res j pre.length) e := by
  obtain ⟨N, hN⟩ := h
  have h1 := hN N le_rfl
  have := runLoop_inv (tfStep P) (CorrInv P res)
    (fun r => ∀ dt df trace, r = .ok (dt, df, trace) → ∃ j, MergedOnly P res j ∧
      ∀ pre e post, trace = pre ++ e :: post → pre ≠ [] → FromCorrelations P (resolutionAt P res j pre.length) e)
    ?_ ?_ N _ _ ?_ h1
  · exact this dt df trace rfl
  · intro s s' ⟨hi, j, hj, hres, htr, hph⟩ hst
    unfold tfStep at hst
    cases hp : s.phase with
    | begin =>
      rw [hp] at hst
      dsimp only at hst
      cases hb : tfBegin P s with
      | error e => rw [hb] at hst; cases hst
      | ok s1 =>
        rw [hb] at hst
        obtain rfl : s1 = s' := by injection hst
        unfold tfBegin at hb
        simp only [bind, Except.bind, pure, Except.pure] at hb
        split at hb
        · cases hb
        rename_i v hv
        split at hb
        · cases hb
        rename_i sig hsig
        injection hb with hb
        subst hb
        refine ⟨hi, j, hj, hres, htr, ?_⟩
        by_cases h1 : s.iter = 1
        · rw [if_pos h1]
          exact ⟨h1, hsig⟩
        · rw [if_neg h1]
          exact fun _ => ⟨rfl, v.1, hv⟩
    | search ys dt1 sig dur =>
      rw [hp] at hst hph
      dsimp only at hst hph
      cases hb : tfSearch P s ys dt1 sig dur with
      | error e => rw [hb] at hst; cases hst
      | ok s1 =>
        rw [hb] at hst
        obtain rfl : s1 = s' := by injection hst
        have hnil : s.trace = [] := by
          rw [← List.length_eq_zero_iff]
          have := hph.1
          omega
        unfold tfSearch at hb
        split at hb
        · cases hb
        split at hb
        · injection hb with hb
          subst hb
          exact ⟨hi, j, hj, hres, htr, fun hc => absurd hph.1 hc⟩
        · rename_i hthr
          simp only [bind, Except.bind, pure, Except.pure] at hb
          split at hb
          · cases hb
          split at hb
          · cases hb
          split at hb
          · cases hb
          split at hb
          · cases hb
          rename_i hsig'
          injection hb with hb
          subst hb
          refine ⟨hi, j + 1, Or.inr ?_, ?_, by rw [hnil]; simp, hph.1, hsig'⟩
          · rcases hj with rfl | hj
            · refine ⟨ys, sig, ?_, not_le.mp hthr⟩
              have := hph.2
              rw [hres, hnil] at this
              exact this
            · exact hj
          · dsimp only
            rw [hres, hnil]
            unfold resolutionAt
            rw [Function.iterate_succ_apply']
            rfl
    | late dt1 dur =>
      rw [hp] at hst hph
      dsimp only at hst hph
      unfold tfLate at hst
      split at hst
      · cases hst
      split at hst
      · cases hst
      rename_i ys2 dt2 hc2
      dsimp only at hst
      split at hst
      · cases hst
      split at hst
      · cases hst
      split at hst
      · cases hst
      injection hst with hst
      subst hst
      refine ⟨by simp [← hi], j, hj, ?_, ?_, fun hc => ?_⟩
      · dsimp only
        rw [List.length_append, List.length_singleton, hres]
        unfold resolutionAt
        rw [Function.iterate_succ_apply']
        rfl
      · refine corrInv_append htr fun hne => ?_
        have h2 : s.iter ≠ 1 := by
          have := List.length_pos_iff.mpr hne
          omega
        obtain ⟨hd, ys, hy⟩ := hph h2
        rw [hd] at hy hc2
        rw [← hres]
        exact ⟨ys, ys2, dt2, hy, hc2, rfl⟩
      · dsimp only at hc
        omega
  · intro s r ⟨hi, j, hj, hres, htr, hph⟩ hst dt df trace hr
    subst hr
    unfold tfStep at hst
    cases hp : s.phase with
    | begin =>
      rw [hp] at hst
      dsimp only at hst
      split at hst <;> cases hst
    | search ys dt1 sig dur =>
      rw [hp] at hst
      dsimp only at hst
      split at hst <;> cases hst
    | late dt1 dur =>
      rw [hp] at hst hph
      dsimp only at hst hph
      unfold tfLate at hst
      split at hst
      · cases hst
      split at hst
      · cases hst
      rename_i ys2 dt2 hc2
      dsimp only at hst
      split at hst
      · simp only [Sum.inr.injEq, Except.ok.injEq, Prod.mk.injEq] at hst
        obtain ⟨-, -, rfl⟩ := hst
        exact ⟨j, hj, htr⟩
      split at hst
      · cases hst
      split at hst
      · simp only [Sum.inr.injEq, Except.ok.injEq, Prod.mk.injEq] at hst
        obtain ⟨-, -, rfl⟩ := hst
        refine ⟨j, hj, corrInv_append htr fun hne => ?_⟩
        have h2 : s.iter ≠ 1 := by
          have := List.length_pos_iff.mpr hne
          omega
        obtain ⟨hd, ys, hy⟩ := hph h2
        rw [hd] at hy hc2
        rw [← hres]
        exact ⟨ys, ys2, dt2, hy, hc2, rfl⟩
      · cases hst
  · exact ⟨rfl, 0, Or.inl rfl, rfl, by
      intro pre e post he
      simp at he, fun _ => rfl⟩

theorem resolutionAt_ge (P : TFParams) (res : ℚ) (j k : Nat) (hk : 0 < k) : P.target ≤ resolutionAt P res j k := by
  obtain ⟨k, rfl⟩ : ∃ m, k = m + 1 := ⟨k - 1, by omega⟩
  unfold resolutionAt
  rw [Function.iterate_succ_apply']
  exact le_max_right _ _

/-- A correlation of windows in which the true coincidences stand out. -/
theorem window_bins {rnd : ℚ → ℚ} {start dur r : ℚ} (hr0 : 0 < r) (h : dur ≤ r * 2 ^ 58) (ts : List ℚ) :
    ∀ t ∈ inWindowR rnd start dur ts, |⌊t / r⌋| + 2 ≤ 2 ^ 59 := by
  intro t htm
  unfold inWindowR at htm
  obtain ⟨-, htm⟩ := List.mem_filter.mp htm
  simp only [decide_eq_true_eq] at htm
  have q0 : 0 ≤ t / r := div_nonneg htm.1 hr0.le
  have q1 : t / r ≤ 2 ^ 58 := by
    rw [div_le_iff₀ hr0]
    linarith [htm.2]
  have q2 : ⌊t / r⌋ ≤ 2 ^ 58 := by
    have := (Int.floor_le (t / r)).trans q1
    exact_mod_cast this
  have : (2 : ℤ) ^ 58 + 2 ≤ 2 ^ 59 := by norm_num
  rw [abs_of_nonneg (Int.floor_nonneg.mpr q0)]
  linarith

theorem clear_in (P : TFParams) (hr : P.rnd = fl 53) (hra : P.rndA = fl 64) (hn64 : P.numBins < 2 ^ 64) (hn : 0 < P.numBins)
    (bts : List ℚ) (dur r start D δ : ℚ) (w : Nat) (hr0 : 0 < r) (h : ClearIn P bts dur r start D δ w) :
    (∃ ys d, tfCorrelate P bts r start dur = .ok (ys, d) ∧ |d - D| < r + δ + (|D| + (r + δ)) / 2 ^ 53) ∧
    |D| + (r + δ) ≤ P.numBins * r / 2 := by
  obtain ⟨k1, k2, k3, k4⟩ := h
  exact ⟨C103_rounded P hr hra P.numBins hn64 rfl hn bts r start _ hr0 (window_bins hr0 k1 _) (window_bins hr0 k1 _) D δ w k2 k3 k4, k4⟩

theorem clear_correlate (P : TFParams) (hr : P.rnd = fl 53) (hra : P.rndA = fl 64) (hn64 : P.numBins < 2 ^ 64) (hn : 0 < P.numBins)
    (bts : List ℚ) (r start D δ : ℚ) (w : Nat) (hr0 : 0 < r) (h : ClearAt P bts r start D δ w) :
    (∃ ys d, tfCorrelate P bts r start (tfDuration P r) = .ok (ys, d) ∧ |d - D| < r + δ + (|D| + (r + δ)) / 2 ^ 53) ∧
    |D| + (r + δ) ≤ P.numBins * r / 2 := by
  rw [duration_float P hr hra r]
  exact clear_in P hr hra hn64 hn bts _ r start D δ w hr0 h

/-- The number of bins of such a correlation. -/
theorem clear_length (P : TFParams) (hr : P.rnd = fl 53) (hra : P.rndA = fl 64) (hn64 : P.numBins < 2 ^ 64) (hn : 0 < P.numBins)
    (bts : List ℚ) (r start D δ : ℚ) (w : Nat) (hr0 : 0 < r) (h : ClearAt P bts r start D δ w) (ys : List ℚ) (d : ℚ)
    (hc : tfCorrelate P bts r start (tfDuration P r) = .ok (ys, d)) : ys.length = P.numBins := by
  rw [duration_float P hr hra r] at hc
  obtain ⟨k1, k2, k3, -⟩ := h
  have hM := k2.2.1
  obtain ⟨v, -, hv⟩ := correlate_windows P hra P.numBins hn64 rfl hn bts r start _ hr0 (window_bins hr0 k1 _) (window_bins hr0 k1 _)
    (by intro hc; rw [hc] at hM; simp [pairsNear] at hM) (by intro hc; rw [hc] at hM; simp [pairsNear] at hM) _ rfl k3.1
  rw [hv] at hc
  simp only [Except.ok.injEq, Prod.mk.injEq] at hc
  rw [← hc.1]
  exact k3.1

/-- The errors of both delays and of the frequency found from them. -/
theorem delays_near {rnd : ℚ → ℚ} (hr : RelErr rnd) {n r δ D0 D1 dt1 dt2 df1 sep : ℚ} (hsep : 0 < sep) (hH : 0 ≤ n * r)
    (a1 : |dt1 - D0| < r + δ + (|D0| + (r + δ)) / 2 ^ 53) (a2 : |D0| + (r + δ) ≤ n * r / 2)
    (b1 : |dt2 - D1| < r + δ + (|D1| + (r + δ)) / 2 ^ 53) (b2 : |D1| + (r + δ) ≤ n * r / 2)
    (hdf : df1 = rnd (rnd (dt2 - dt1) / sep)) :
    |dt1 - D0| ≤ r + δ + n * r / 2 ^ 50 ∧ |dt2 - D1| ≤ r + δ + n * r / 2 ^ 50 ∧
      |dt1 + df1 * sep - D1| ≤ r + δ + n * r / 2 ^ 50 := by
  set H := n * r with hHdef
  have hε : H / 2 / 2 ^ 53 ≤ H / 2 ^ 53 := by
    rw [div_div]; apply div_le_div_of_nonneg_left hH <;> norm_num
  have t1 : (|D0| + (r + δ)) / 2 ^ 53 ≤ H / 2 / 2 ^ 53 := div_le_div_of_nonneg_right a2 (by norm_num)
  have t2 : (|D1| + (r + δ)) / 2 ^ 53 ≤ H / 2 / 2 ^ 53 := div_le_div_of_nonneg_right b2 (by norm_num)
  -- the delays themselves
  have m1 : |dt1| ≤ H := by
    have := abs_sub_abs_le_abs_sub dt1 D0
    have : H / 2 + H / 2 / 2 ^ 53 ≤ H := by linarith
    linarith
  have m2 : |dt2| ≤ H := by
    have := abs_sub_abs_le_abs_sub dt2 D1
    have : H / 2 + H / 2 / 2 ^ 53 ≤ H := by linarith
    linarith
  have hdd : |dt2 - dt1| ≤ 2 * H := by
    have := abs_sub dt2 dt1
    linarith
  have hround : |dt1 + df1 * sep - dt2| ≤ 5 * H / 2 ^ 53 := by
    set x := dt2 - dt1 with hx
    have r1 := hr x
    have r2 := hr (rnd x / sep)
    rw [← hdf] at r2
    have r3 : |df1 * sep - rnd x| ≤ |rnd x| / 2 ^ 53 := by
      have e1 : df1 * sep - rnd x = (df1 - rnd x / sep) * sep := by
        rw [sub_mul, div_mul_cancel₀ _ hsep.ne']
      rw [e1, abs_mul, abs_of_pos hsep]
      rw [abs_div, abs_of_pos hsep] at r2
      refine (mul_le_mul_of_nonneg_right r2 hsep.le).trans (le_of_eq ?_)
      field_simp
    have r4 : |rnd x| ≤ 2 * H + 2 * H / 2 ^ 53 := by
      have := abs_sub_abs_le_abs_sub (rnd x) x
      have : |x| / 2 ^ 53 ≤ 2 * H / 2 ^ 53 := div_le_div_of_nonneg_right hdd (by norm_num)
      linarith
    have r5 : dt1 + df1 * sep - dt2 = (df1 * sep - rnd x) + (rnd x - x) := by rw [hx]; ring
    rw [r5]
    have r6 := abs_add_le (df1 * sep - rnd x) (rnd x - x)
    have r7 : |rnd x| / 2 ^ 53 ≤ (2 * H + 2 * H / 2 ^ 53) / 2 ^ 53 := div_le_div_of_nonneg_right r4 (by norm_num)
    have r8 : |x| / 2 ^ 53 ≤ 2 * H / 2 ^ 53 := div_le_div_of_nonneg_right hdd (by norm_num)
    have r9 : (2 * H + 2 * H / 2 ^ 53) / 2 ^ 53 + 2 * H / 2 ^ 53 ≤ 5 * H / 2 ^ 53 := by
      have : 2 * H / 2 ^ 53 ≤ H := by linarith
      rw [← add_div]
      apply div_le_div_of_nonneg_right _ (by norm_num)
      linarith
    linarith
  have hs1 : H / 2 / 2 ^ 53 ≤ H / 2 ^ 50 := by rw [div_div]; apply div_le_div_of_nonneg_left hH <;> norm_num
  refine ⟨by linarith, by linarith, ?_⟩
  have s1 := abs_sub_le (dt1 + df1 * sep) dt2 D1
  have : 5 * H / 2 ^ 53 + H / 2 / 2 ^ 53 ≤ H / 2 ^ 50 := by
    norm_num
    linarith
  linarith

/-- **C104** Let the target clock have the relative frequency offset φ and the offset τ, in the arithmetic in use, and let a run
with refinements return (dt, df).  If, in the windows of the last iteration (at its resolution `r`), the true coincidences stand
out, i.e. those pairs of events whose distance is that of both clocks at the begin of the window up to `δ`, then the result maps
every target time to within about `r + δ` of the reference time, plus `2 (r + δ)` per separation of the windows.  (`j` is the
number of times that bins were merged in the first iteration.) -/
theorem C104_accuracy (P : TFParams) (hr : P.rnd = fl 53) (hra : P.rndA = fl 64) (hn64 : P.numBins < 2 ^ 64)
    (hn : 0 < P.numBins) (ht : 0 < P.target) (hsep : 0 < P.sep) (bts : List ℚ) (res dt df : ℚ) (trace : List TFEntry) (e : TFEntry)
    (φ τ B R : ℚ) (h : Returns (fun fuel => timeFreq P fuel bts res) (.ok (dt, df, trace ++ [e]))) (hne : trace ≠ [])
    (hl : trace.length + 1 ≤ 2 ^ 35) (hR : R = (trace.length + 1) * (B + (trace.length + 1) * (101 * 10 ^ 6)) / 2 ^ 49)
    (hB0 : |targetClock φ τ 0| ≤ B) (hBs : |targetClock φ τ P.sep| ≤ B) :
    ∃ j r, (j = 0 ∨ ∃ ys sig, P.signif ys res = .ok sig ∧ sig < P.threshold) ∧ r = resolutionAt P res j trace.length ∧
      ∀ (δ : ℚ) (w : Nat),
      (∀ start, start = 0 ∨ start = P.sep →
        ClearAt P e.bts r start (composedR P.rnd P.rndA trace (targetClock φ τ start) - start) δ w) →
      ∀ a, 0 ≤ a → |targetClock φ τ a| ≤ B →
        |corrected dt df (targetClock φ τ a) - a| ≤
          (r + δ + P.numBins * r / 2 ^ 50 + R + 2 * (r + δ + P.numBins * r / 2 ^ 50 + R) * (a / P.sep)) * (1 + 1 / 2 ^ 10) + 3 * R := by
  obtain ⟨j, hj, hcor⟩ := run_correlations P bts res dt df _ h
  obtain ⟨ys1, ys2, dt2, hc1, hc2, hdf⟩ := hcor trace e [] rfl hne
  have hrt := resolutionAt_ge P res j trace.length (List.length_pos_iff.mpr hne)
  obtain ⟨r, hrdef⟩ : ∃ r, r = resolutionAt P res j trace.length := ⟨_, rfl⟩
  rw [← hrdef] at hc1 hc2 hrt
  have hr0 : 0 < r := lt_of_lt_of_le ht hrt
  refine ⟨j, r, hj, hrdef, fun δ w hclear a ha hBa => ?_⟩
  have hrel : RelErr P.rnd := by rw [hr]; exact C76_arithmetic.1
  have hrelA : RelErr P.rndA := by rw [hra]; exact C76_arithmetic.2
  obtain ⟨⟨y1, d1, p1, p2⟩, p3⟩ := clear_correlate P hr hra hn64 hn e.bts r 0 _ δ w hr0 (hclear 0 (Or.inl rfl))
  obtain ⟨⟨y2, d2, q1, q2⟩, q3⟩ := clear_correlate P hr hra hn64 hn e.bts r P.sep _ δ w hr0 (hclear P.sep (Or.inr rfl))
  rw [hc1] at p1
  rw [hc2] at q1
  simp only [Except.ok.injEq, Prod.mk.injEq] at p1 q1
  rw [← p1.2, sub_zero] at p2
  rw [← q1.2] at q2
  rw [sub_zero] at p3
  obtain ⟨s1, -, s2⟩ := delays_near hrel hsep (by positivity) p2 p3 q2 q3 hdf
  exact C63_rounded P hrel hrelA hsep bts res dt df trace e φ τ _ B R h hl hR s1 s2 hB0 hBs a ha hBa

/-! ## Instance: four common events in each window, a jitter of 1/8 ns and one other event -/

def noiseParams : TFParams :=
  { ats := [2, 3, 6, 8, 20002, 20003, 20006, 20008], numBins := 64, target := 1 / 2, threshold := 6, sep := 20000, duration := 64,
    endTime := 20008, rnd := fl 53, rndA := fl 64, xcorr := roughXcorr, signif := fun _ _ => .ok 10 }

def noiseTarget : List ℚ := [5, 49 / 8, 9, 11, 20, 20007, 20008, 160089 / 8, 20013, 20022]

def noiseFirst : TFEntry := { bts := noiseTarget, dt1 := 3, df1 := 7378697629483821 / 73786976294838206464 }

def noiseLast : TFEntry :=
  { bts := [18444899583751176701 / 9223372036854775808, 7205038899902803399 / 2305843009213693952,
      6916837343906691263 / 1152921504606846976, 18444899583751176701 / 2305843009213693952, 9798852903867812623 / 576460752303423488,
      11260124855754349937 / 562949953421312, 2815171937354601211 / 140737488355328, 5631223396059288213 / 281474976710656,
      703968888608667461 / 35184372088832, 11268568260715173535 / 562949953421312], dt1 := -1 / 2, df1 := 0 }

theorem noise_run : Returns (fun fuel => timeFreq noiseParams fuel noiseTarget 1)
    (.ok (1407346736055609 / 562949953421312, 450359962737 / 4503599627370496, [noiseFirst] ++ [noiseLast])) := by
  refine ⟨20, ?_⟩
  have h : timeFreq noiseParams 20 noiseTarget 1 = some
    (.ok (1407346736055609 / 562949953421312, 450359962737 / 4503599627370496, [noiseFirst] ++ [noiseLast])) := by decide +kernel
  exact fun fuel hf => runLoop_more _ 20 fuel hf _ _ h

/-- A check of a numerical correlation, bin by bin. -/
theorem accurate_check {xc : List Nat → List Nat → List ℚ} {a b : List ℚ} {n : Nat} {res : ℚ}
    (h1 : (xc (histogram a n res) (histogram b n res)).length = n)
    (h2 : (List.zipWith (fun (x : ℚ) (k : Nat) => decide (|x - (pairsAt a b n res k : Nat)| < 1 / 2)) (xc (histogram a n res) (histogram b n res))
      (List.range n)).all id = true) : XcorrAccurate xc a b n res := by
  refine ⟨h1, fun k x hk => ?_⟩
  have hk' : k < n := by
    rw [← h1]
    exact (List.getElem?_eq_some_iff.mp hk).1
  rw [List.all_eq_true] at h2
  have h3 := h2 (decide (|x - (pairsAt a b n res k : Nat)| < 1 / 2)) (by
    apply List.mem_of_getElem? (i := k)
    rw [List.getElem?_zipWith, hk, List.getElem?_range hk'])
  simpa using h3

theorem noise_clear (start : ℚ) (hs : start = 0 ∨ start = 20000) :
    ClearAt noiseParams noiseLast.bts (1 / 2) start
      (composedR (fl 53) (fl 64) [noiseFirst] (targetClock (1 / 10000) 3 start) - start) (1 / 5) 3 := by
  have hd : acqDurationFl 64 (1 / 2) 64 20008 = 64 := by decide +kernel
  unfold ClearAt ClearIn
  simp only [noiseParams]
  rw [hd]
  rcases hs with rfl | rfl
  · have hD : composedR (fl 53) (fl 64) [noiseFirst] (targetClock (1 / 10000) 3 0) - 0 = 0 := by decide +kernel
    rw [hD]
    refine ⟨by norm_num, ⟨by norm_num, by decide +kernel, ?_⟩, accurate_check (by decide +kernel) (by decide +kernel), by norm_num⟩
    intro k hk hbad
    have h1 : ∀ k : Nat, k < 64 → (k = 63 ∨ k = 0 ∨ k = 1) ∨ 3 * pairsAt (inWindowR (fl 64) 0 64 noiseParams.ats)
        (inWindowR (fl 64) 0 64 noiseLast.bts) 64 (1 / 2) (k : ℤ) <
        pairsNear (inWindowR (fl 64) 0 64 noiseParams.ats) (inWindowR (fl 64) 0 64 noiseLast.bts) 0 (1 / 5) := by
      decide +kernel
    rcases h1 k hk with (rfl | rfl | rfl) | h
    · exact absurd ⟨-1, by norm_num [abs_of_neg]⟩ hbad
    · exact absurd ⟨0, by norm_num⟩ hbad
    · exact absurd ⟨0, by norm_num [abs_of_pos]⟩ hbad
    · exact h
  · have hD : composedR (fl 53) (fl 64) [noiseFirst] (targetClock (1 / 10000) 3 20000) - 20000 = 31 / 140737488355328 := by
      decide +kernel
    rw [hD]
    refine ⟨by norm_num, ⟨by norm_num, by decide +kernel, ?_⟩, accurate_check (by decide +kernel) (by decide +kernel),
      by norm_num [abs_of_pos]⟩
    intro k hk hbad
    have h1 : ∀ k : Nat, k < 64 → (k = 63 ∨ k = 0 ∨ k = 1) ∨ 3 * pairsAt (inWindowR (fl 64) 20000 64 noiseParams.ats)
        (inWindowR (fl 64) 20000 64 noiseLast.bts) 64 (1 / 2) (k : ℤ) <
        pairsNear (inWindowR (fl 64) 20000 64 noiseParams.ats) (inWindowR (fl 64) 20000 64 noiseLast.bts)
          (31 / 140737488355328) (1 / 5) := by
      decide +kernel
    rcases h1 k hk with (rfl | rfl | rfl) | h
    · exact absurd ⟨-1, by norm_num [abs_of_neg]⟩ hbad
    · exact absurd ⟨0, by norm_num [abs_of_neg]⟩ hbad
    · exact absurd ⟨0, by norm_num [abs_of_pos]⟩ hbad
    · exact h

/-- Instance of C104: a clock that is 3 ns ahead and runs 100 ppm fast is found to within 2.2 ns in the first 20 µs. -/
example (a : ℚ) (h0 : 0 ≤ a) (h1 : a ≤ 20000) :
    |corrected (1407346736055609 / 562949953421312) (450359962737 / 4503599627370496) (targetClock (1 / 10000) 3 a) - a| ≤ 22 / 10 := by
  obtain ⟨j, r, hj, hr, h⟩ := C104_accuracy noiseParams rfl rfl (by norm_num [noiseParams]) (by norm_num [noiseParams])
    (by norm_num [noiseParams]) (by norm_num [noiseParams]) noiseTarget 1 _ _ [noiseFirst] noiseLast (1 / 10000) 3 (10 ^ 5)
    ((1 + 1) * (10 ^ 5 + (1 + 1) * (101 * 10 ^ 6)) / 2 ^ 49) noise_run (by simp) (by norm_num) (by norm_num)
    (by norm_num [targetClock]) (by norm_num [targetClock, noiseParams, abs_of_pos])
  have hj0 : j = 0 := by
    rcases hj with hj | ⟨ys, sig, h2, h3⟩
    · exact hj
    · simp only [noiseParams, Except.ok.injEq] at h2 h3
      subst h2
      norm_num at h3
  have hr2 : r = 1 / 2 := by
    rw [hr, hj0]
    decide +kernel
  subst hr2
  have hB : |targetClock (1 / 10000) 3 a| ≤ 10 ^ 5 := by
    unfold targetClock
    rw [abs_of_nonneg (by positivity)]
    linarith
  refine (h (1 / 5) 3 noise_clear a h0 hB).trans ?_
  simp only [noiseParams]
  push_cast
  have : a / 20000 ≤ 1 := by rw [div_le_iff₀ (by norm_num)]; linarith
  have h3 : 0 ≤ a / 20000 := by positivity
  norm_num at *
  nlinarith

end Fp
