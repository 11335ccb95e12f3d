import Verif.Lemmas.FpFind

/-! # Properties of the compensation search: C32-C38 -/
namespace Fp
open Spec

/-! ## C32 -/

/-- **C32** for `time_freq`: the result composes all corrections of the iterations, each of which was found with the target
timestamps corrected by the previous ones. -/
theorem C32_time_freq (P : TFParams) (hr : P.rnd = id) (hra : P.rndA = id) (bts : List ℚ) (res dt df : ℚ)
    (trace : List TFEntry) (h : Returns (fun fuel => timeFreq P fuel bts res) (.ok (dt, df, trace))) :
    trace ≠ [] ∧ (∀ t, corrected dt df t = composed trace t) ∧
      ∀ (i : Nat) e, (trace)[i]? = some e → e.bts = bts.map (composed (trace.take i)) := by
  obtain ⟨N, hN⟩ := h
  have h1 := hN N le_rfl
  have := runLoop_inv (tfStep P) (fun s => CompInv bts s ∧ (s.iter = 1 ∨ s.trace ≠ []))
    (fun r => ∀ dt df trace, r = .ok (dt, df, trace) → trace ≠ [] ∧ (∀ t, corrected dt df t = composed trace t) ∧
      ∀ (i : Nat) e, (trace)[i]? = some e → e.bts = bts.map (composed (trace.take i))) ?_ ?_ N _ _ ?_ h1
  · exact this dt df trace rfl
  · intro s s' ⟨hs, hne⟩ hst
    rcases tfStep_inl P s s' hst with ⟨ph, rs, he⟩ | ⟨dt1, dur, hp, hl⟩
    · rw [he]
      exact ⟨hs, hne⟩
    · obtain ⟨df1, hd, hf, hres, he⟩ := tfLate_inl P s s' dt1 dur hl
      rw [hr] at hf
      simp only [hr, hra, id] at he hf
      have hf0 := f_ne_zero _ hf
      obtain ⟨g1, g2⟩ := comp_step s bts hs dt1 df1 hf0
      rw [he]
      refine ⟨⟨hf0, g1, ?_, g2⟩, Or.inr (by simp)⟩
      simp only
      rw [hs.2.2.1, List.map_map]
      apply List.map_congr_left
      intro t _
      simp only [Function.comp, composed_append]
      rfl
  · intro s r ⟨hs, hne⟩ hst dt df trace he
    rw [he] at hst
    obtain ⟨dt1, dur, hp, hl⟩ := tfStep_ok P s _ hst
    rcases tfLate_ok P s dt1 dur dt df trace hl with ⟨hi, e1, e2, e3⟩ | ⟨df1, hd, hdf, hres, e1, e2, e3⟩
    · rw [hr] at e2
      simp only [id] at e2
      subst e1 e2 e3
      refine ⟨?_, ?_, hs.2.2.2⟩
      · rcases hne with h | h
        · exact absurd h hi
        · exact h
      · intro t
        unfold corrected
        rw [add_sub_cancel]
        exact hs.2.1 t
    · simp only [hr, id] at e1 e2
      have hf0 : s.f * (1 + df1) ≠ 0 := by
        apply f_ne_zero
        rw [← e2]; exact hdf
      obtain ⟨g1, g2⟩ := comp_step s bts hs dt1 df1 hf0
      subst e1 e2 e3
      refine ⟨by simp, ?_, g2⟩
      intro t
      rw [← g1 t]
      unfold corrected
      rw [add_sub_cancel]
  · refine ⟨⟨one_ne_zero, ?_, ?_, ?_⟩, Or.inl rfl⟩
    · intro t; simp [composed]
    · have : composed [] = id := by funext t; rfl
      rw [this, List.map_id]
    · simp

/-- **C32** for `fpfind`: with a precompensation df0 the result composes it with the corrections of `time_freq`. -/
theorem C32_fpfind (P : List ℚ → TFParams) (hr : ∀ b, (P b).rnd = id) (hra : ∀ b, (P b).rndA = id) (res : ℚ)
    (tf : List ℚ → Except PyErr (ℚ × ℚ))
    (htf : ∀ b r, tf b = .ok r → ∃ trace, Returns (fun fuel => timeFreq (P b) fuel b res) (.ok (r.1, r.2, trace)))
    (bob precs tried : List ℚ) (hp : ∀ df0 ∈ precs, df0 ≠ -1) (dt df : ℚ)
    (h : fpfindScan id id tf bob false precs = (.ok (dt, df), tried)) :
    ∃ df0 ∈ precs, ∃ trace, trace ≠ [] ∧ ∀ t, corrected dt df t = composed trace (corrected 0 df0 t) := by
  induction precs generalizing tried with
  | nil => simp [fpfindScan] at h
  | cons df0 rest ih =>
    unfold fpfindScan at h
    simp only [id] at h
    have hih : ∀ tried', fpfindScan id id tf bob false rest = (.ok (dt, df), tried') →
        ∃ df0' ∈ df0 :: rest, ∃ trace, trace ≠ [] ∧ ∀ t, corrected dt df t = composed trace (corrected 0 df0' t) := by
      intro tried' h'
      obtain ⟨d, hd, rest'⟩ := ih tried' (fun d hd => hp d (by simp [hd])) h'
      exact ⟨d, by simp [hd], rest'⟩
    split at h
    · rename_i he
      have e1 : (fpfindScan id id tf bob false rest).1 = .ok (dt, df) := by
        have := congrArg Prod.fst h
        simpa using this
      exact hih _ (Prod.ext e1 rfl)
    · simp at h
    · rename_i dt1 df1 he
      simp only [Bool.false_eq_true, if_false, Prod.mk.injEq, Except.ok.injEq] at h
      obtain ⟨⟨e1, e2⟩, -⟩ := h
      obtain ⟨trace, ht⟩ := htf _ _ he
      obtain ⟨g1, g2, -⟩ := C32_time_freq (P _) (hr _) (hra _) _ res _ _ trace ht
      refine ⟨df0, by simp, trace, g1, ?_⟩
      intro t
      rw [← g2]
      subst e1 e2
      have h0 : 1 + df0 ≠ 0 := by
        intro hc
        exact hp df0 (by simp) (by linarith)
      unfold corrected
      simp only [zero_add, sub_zero, add_sub_cancel]
      by_cases h1 : 1 + df1 = 0
      · rw [h1]; simp
      · field_simp

/-! ## C33 -/

/-- **C33**, for every rounding, every correlation and every significance function. -/
theorem C33_bounded (P : TFParams) (bts : List ℚ) (res dt df : ℚ) (trace : List TFEntry)
    (h : Returns (fun fuel => timeFreq P fuel bts res) (.ok (dt, df, trace))) :
    |df| < 1 / 2 ^ 13 ∧ trace ≠ [] ∧ ∀ e ∈ trace, |e.dt1| ≤ 10 ^ 8 := by
  obtain ⟨N, hN⟩ := h
  have h1 := hN N le_rfl
  have := runLoop_inv (tfStep P) (fun s => (s.iter = 1 ∨ |P.rnd (s.f - 1)| < maxFcorr ∧ s.trace ≠ []) ∧
      ∀ e ∈ s.trace, |e.dt1| ≤ ntpMaxDelay)
    (fun r => ∀ dt df trace, r = .ok (dt, df, trace) → |df| < maxFcorr ∧ trace ≠ [] ∧ ∀ e ∈ trace, |e.dt1| ≤ ntpMaxDelay)
    ?_ ?_ N _ _ ?_ h1
  · exact this dt df trace rfl
  · intro s s' ⟨hs, hne⟩ hst
    rcases tfStep_inl P s s' hst with ⟨ph, rs, he⟩ | ⟨dt1, dur, hp, hl⟩
    · rw [he]
      exact ⟨hs, hne⟩
    · obtain ⟨df1, hd, hf, hres, he⟩ := tfLate_inl P s s' dt1 dur hl
      rw [he]
      refine ⟨Or.inr ⟨hf, by simp⟩, ?_⟩
      intro e he
      rcases List.mem_append.mp he with he | he
      · exact hne e he
      · simp at he
        rw [he]; exact hd
  · intro s r ⟨hs, hne⟩ hst dt df trace he
    rw [he] at hst
    obtain ⟨dt1, dur, hp, hl⟩ := tfStep_ok P s _ hst
    rcases tfLate_ok P s dt1 dur dt df trace hl with ⟨hi, e1, e2, e3⟩ | ⟨df1, hd, hdf, hres, e1, e2, e3⟩
    · rcases hs with h | h
      · exact absurd h hi
      · rw [e2, e3]
        exact ⟨h.1, h.2, hne⟩
    · rw [e3]
      refine ⟨hdf, by simp, ?_⟩
      intro e he
      rcases List.mem_append.mp he with he | he
      · exact hne e he
      · simp at he
        rw [he]; exact hd
  · exact ⟨Or.inl rfl, by simp⟩

/-! ## C34 -/

/-- **C34**: number of iterations.  If the separation exceeds √2 (the double) times the duration by the factor ρ > 1 (beyond
rounding), the loop ends, and it runs at most n + 2 iterations if max(initial resolution, 10^4 ns) ≤ target * ρ^(n+1): for
every rounding with relative error up to 2^-53, every correlation and every significance. -/
theorem C34_iterations (P : TFParams) (hr : RelErr P.rnd) (ρ : ℚ) (hρ : 1 < ρ) (hd : 0 < P.duration) (ht : 0 < P.target)
    (hs : ρ * (1 + 1 / 2 ^ 53) * resRefineFactor * P.duration ≤ P.sep * (1 - 1 / 2 ^ 53) ^ 2)
    (bts : List ℚ) (res : ℚ) (h0 : 0 < res) (n : Nat) (hn : max res (10 ^ 4) ≤ P.target * ρ ^ (n + 1)) :
    ∃ r, Returns (fun fuel => timeFreq P fuel bts res) r ∧ ∀ dt df trace, r = .ok (dt, df, trace) → trace.length ≤ n + 2 := by
  obtain ⟨N, r, h1, h2⟩ := ends_all P ρ hρ ht (quotient_le P.rnd hr P.sep P.duration ρ hd hρ hs)
    (fun x hx => lt_of_lt_of_le (by positivity) (relErr_le P.rnd hr (x * 2) (by positivity)).2) n
    { bts := bts, res := res, dt := 0, f := 1, iter := 1, phase := .begin, trace := [] } rfl rfl h0 hn
  refine ⟨r, ⟨N, fun fuel hf => runLoop_more _ N fuel hf _ _ h1⟩, ?_⟩
  intro dt df trace hr
  simpa using h2 dt df trace hr

/-- **C34**: `time_freq` always ends if the separation is more than √2 times the duration (by a relative 2^-50). -/
theorem C34_terminates (P : TFParams) (hr : RelErr P.rnd) (hd : 0 < P.duration) (ht : 0 < P.target)
    (hs : resRefineFactor * (1 + 1 / 2 ^ 50) * P.duration ≤ P.sep) (bts : List ℚ) (res : ℚ) (h0 : 0 < res) :
    ∃ r, Returns (fun fuel => timeFreq P fuel bts res) r := by
  have hρ : (1 : ℚ) < 1 + 1 / 2 ^ 52 := by norm_num
  obtain ⟨n, hn⟩ := pow_unbounded_of_one_lt (max res (10 ^ 4) / P.target) hρ
  have hn' : max res (10 ^ 4) ≤ P.target * (1 + 1 / 2 ^ 52) ^ (n + 1) := by
    rw [div_lt_iff₀ ht] at hn
    have : (1 + 1 / 2 ^ 52 : ℚ) ^ n ≤ (1 + 1 / 2 ^ 52) ^ (n + 1) := pow_le_pow_right₀ hρ.le (by omega)
    have := mul_le_mul_of_nonneg_left this ht.le
    linarith
  have hR : (0 : ℚ) < resRefineFactor := by unfold resRefineFactor; norm_num
  have hs' : (1 + 1 / 2 ^ 52) * (1 + 1 / 2 ^ 53) * resRefineFactor * P.duration ≤ P.sep * (1 - 1 / 2 ^ 53) ^ 2 := by
    have h2 : resRefineFactor * (1 + 1 / 2 ^ 50) * P.duration * (1 - 1 / 2 ^ 53) ^ 2 ≤ P.sep * (1 - 1 / 2 ^ 53) ^ 2 :=
      mul_le_mul_of_nonneg_right hs (by norm_num)
    refine le_trans ?_ h2
    have h3 : (1 + 1 / 2 ^ 52 : ℚ) * (1 + 1 / 2 ^ 53) ≤ (1 + 1 / 2 ^ 50) * (1 - 1 / 2 ^ 53) ^ 2 := by norm_num
    have h4 := mul_le_mul_of_nonneg_right h3 (mul_pos hR hd).le
    linarith
  obtain ⟨r, h, -⟩ := C34_iterations P hr (1 + 1 / 2 ^ 52) hρ hd ht hs' bts res h0 n hn'
  exact ⟨r, h⟩

/-- The rounding of IEEE doubles meets the hypothesis of C34, and so does exact arithmetic. -/
theorem C34_relErr : RelErr (fl 53) ∧ RelErr id := by
  constructor
  · intro x
    have := fl_err 53 x
    rw [div_eq_mul_inv, ← zpow_natCast, ← zpow_neg]
    exact_mod_cast this
  · intro x
    simp only [id, sub_self, abs_zero]
    positivity

/-- Without the condition on the separation `time_freq` may never return. -/
theorem C34_stuck : ∃ (P : TFParams) (bts : List ℚ) (res : ℚ), 0 < P.duration ∧ 0 < P.target ∧ 0 < res ∧ RelErr P.rnd ∧
    P.sep = resRefineFactor * P.duration ∧ Diverges fun fuel => timeFreq P fuel bts res := by
  refine ⟨stuckParams, [0, 12, 100], 4, by norm_num [stuckParams], by norm_num [stuckParams], by norm_num, C34_relErr.2,
    rfl, ?_⟩
  have hc0 : tfCorrelate stuckParams [0, 12, 100] 4 0 8 = .ok ([1, 0], 0) := by decide +kernel
  have hc1 : tfCorrelate stuckParams [0, 12, 100] 4 (resRefineFactor * 8) 8 = .ok ([1, 0], 0) := by decide +kernel
  have hdur : tfDuration stuckParams 4 = 8 := by decide +kernel
  have hmap : ([0, 12, 100] : List ℚ).map (fun t => stuckParams.rndA (stuckParams.rndA (t - 0) / stuckParams.rnd (1 + 0))) = [0, 12, 100] := by
    decide +kernel
  have hres : max (stuckParams.rnd (4 / stuckParams.rnd (stuckParams.rnd (stuckParams.sep / stuckParams.duration) / resRefineFactor))) stuckParams.target = 4 := by
    decide +kernel
  -- the invariant: same timestamps and resolution for ever
  have hinv : ∀ s : TFState, s.bts = [0, 12, 100] → s.res = 4 → s.dt = 0 → s.f = 1 →
      (s.phase = .begin ∨ s.phase = .search [1, 0] 0 10 8 ∨ s.phase = .late 0 8) →
      ∃ s', tfStep stuckParams s = .inl s' ∧ s'.bts = [0, 12, 100] ∧ s'.res = 4 ∧ s'.dt = 0 ∧ s'.f = 1 ∧
        (s'.phase = .begin ∨ s'.phase = .search [1, 0] 0 10 8 ∨ s'.phase = .late 0 8) := by
    rintro ⟨b, r, d, f, k, ph, tr⟩ hb hr hd hf hp
    simp only at hb hr hd hf hp
    subst hb hr hd hf
    rcases hp with rfl | rfl | rfl
    · refine ⟨{ bts := [0, 12, 100], res := 4, dt := 0, f := 1, iter := k, trace := tr,
                phase := if k = 1 then .search [1, 0] 0 10 8 else .late 0 8 }, ?_, ?_⟩
      · simp only [tfStep, tfBegin, hdur, hc0, bind, Except.bind, pure, Except.pure]
        rfl
      · refine ⟨rfl, rfl, rfl, rfl, ?_⟩
        by_cases hk : k = 1
        · simp [hk]
        · simp [hk]
    · refine ⟨{ bts := [0, 12, 100], res := 4, dt := 0, f := 1, iter := k, trace := tr, phase := .late 0 8 }, ?_, ?_⟩
      · simp only [tfStep, tfSearch]
        rw [if_neg (by norm_num), if_pos (by norm_num [stuckParams])]
      · simp
    · refine ⟨{ bts := [0, 12, 100], res := 4, dt := 0, f := 1, iter := k + 1, phase := .begin,
                trace := tr ++ [{ bts := [0, 12, 100], dt1 := 0, df1 := 0 }] }, ?_, rfl, rfl, rfl, rfl, Or.inl rfl⟩
      have hrnd : stuckParams.rnd = id := rfl
      have hdf : stuckParams.rnd (stuckParams.rnd (0 - 0) / stuckParams.sep) = 0 := by decide +kernel
      have hdf' : stuckParams.rnd (stuckParams.rnd ((0 : ℚ) - 0) / (resRefineFactor * 8)) = 0 := by decide +kernel
      simp only [tfStep, tfLate]
      rw [if_neg (by norm_num [ntpMaxDelay]), show stuckParams.sep = resRefineFactor * 8 from rfl, hc1]
      simp only [hdf']
      rw [if_neg (by norm_num [hrnd]), if_neg (by norm_num [hrnd, maxFcorr]), if_neg (by norm_num [stuckParams])]
      have hres' : max (stuckParams.rnd (4 / stuckParams.rnd (stuckParams.rnd (resRefineFactor * 8 / stuckParams.duration) / resRefineFactor)))
          stuckParams.target = 4 := hres
      rw [hres', hmap]
      norm_num [hrnd]
  intro fuel
  have key : ∀ fuel (s : TFState), s.bts = [0, 12, 100] → s.res = 4 → s.dt = 0 → s.f = 1 →
      (s.phase = .begin ∨ s.phase = .search [1, 0] 0 10 8 ∨ s.phase = .late 0 8) → runLoop (tfStep stuckParams) fuel s = none := by
    intro fuel
    induction fuel with
    | zero => intros; rfl
    | succ n ih =>
      intro s h1 h2 h3 h4 h5
      obtain ⟨s', hs, h1', h2', h3', h4', h5'⟩ := hinv s h1 h2 h3 h4 h5
      rw [runLoop, hs]
      exact ih s' h1' h2' h3' h4' h5'
  exact key fuel _ rfl rfl rfl rfl (Or.inl rfl)

/-- Instance of C32 and C33: a run with two iterations. -/
theorem C32_example : Returns (fun fuel => timeFreq exampleParams fuel [0, 5, 1000000, 1000004, 2000000] 4) (.ok (-750001 / 125000, 750001 / 125000000000,
      [{ bts := [0, 5, 1000000, 1000004, 2000000], dt1 := -4, df1 := 1 / 250000 },
       { bts := [1000000 / 250001, 2250000 / 250001, 1000000, 250002000000 / 250001, 500001000000 / 250001], dt1 := -2,
         df1 := 1 / 500000 }])) := by
  refine ⟨20, ?_⟩
  have h : timeFreq exampleParams 20 [0, 5, 1000000, 1000004, 2000000] 4 = some (.ok (-750001 / 125000, 750001 / 125000000000,
      [{ bts := [0, 5, 1000000, 1000004, 2000000], dt1 := -4, df1 := 1 / 250000 },
       { bts := [1000000 / 250001, 2250000 / 250001, 1000000, 250002000000 / 250001, 500001000000 / 250001], dt1 := -2,
         df1 := 1 / 500000 }])) := by decide +kernel
  exact fun fuel hf => runLoop_more _ 20 fuel hf _ _ h

/-- Instance of the hypotheses of C34: the default separation of 6 durations. -/
example (P : TFParams) (hd : 0 < P.duration) (h : P.sep = 6 * P.duration) : resRefineFactor * (1 + 1 / 2 ^ 50) * P.duration ≤ P.sep := by
  rw [h]
  unfold resRefineFactor
  norm_num
  linarith

/-! ## C35 -/

/-- **C35**: without fullscan the first precompensation for which peak finding succeeds determines the result, and no further
ones are tried. -/
theorem C35_first_success_partial (rnd rndA : ℚ → ℚ) (tf : List ℚ → Except PyErr (ℚ × ℚ)) (bob pre post : List ℚ) (df0 dt1 df1 : ℚ)
    (hpre : ∀ d ∈ pre, tf (bob.map fun t => rndA (rndA (t - 0) / rnd (1 + d))) = .error .valueError)
    (h : tf (bob.map fun t => rndA (rndA (t - 0) / rnd (1 + df0))) = .ok (dt1, df1)) :
    fpfindScan rnd rndA tf bob false (pre ++ df0 :: post) =
      (.ok (rnd (0 + rnd (rnd (1 + df0) * dt1)), rnd (rnd (rnd (1 + df0) * rnd (1 + df1)) - 1)), pre ++ [df0]) := by
  induction pre with
  | nil =>
    rw [List.nil_append, fpfindScan]
    simp only [h]
    rfl
  | cons d pre ih =>
    rw [List.cons_append, fpfindScan]
    simp only [hpre d (by simp), ih (fun d hd => hpre d (by simp [hd]))]
    rfl

/-- **C35**: if peak finding fails for all of them, all are tried and `ValueError` is raised. -/
theorem C35_all_fail (rnd rndA : ℚ → ℚ) (tf : List ℚ → Except PyErr (ℚ × ℚ)) (bob : List ℚ) (full : Bool) (precs : List ℚ)
    (h : ∀ df0 ∈ precs, tf (bob.map fun t => rndA (rndA (t - 0) / rnd (1 + df0))) = .error .valueError) :
    fpfindScan rnd rndA tf bob full precs = (.error .valueError, precs) := scan_none rnd rndA tf bob full precs h

/-- **C35** fails with fullscan: whatever succeeds, the scan tries everything and then raises. -/
theorem C35_fullscan_negation (rnd rndA : ℚ → ℚ) (tf : List ℚ → Except PyErr (ℚ × ℚ)) (bob precs : List ℚ)
    (h : ∀ b e, tf b = .error e → e = .valueError) : fpfindScan rnd rndA tf bob true precs = (.error .valueError, precs) := by
  induction precs with
  | nil => rfl
  | cons df0 rest ih =>
    unfold fpfindScan
    cases ht : tf (bob.map fun t => rndA (rndA (t - 0) / rnd (1 + df0))) with
    | error e =>
      obtain rfl := h _ _ ht
      simp only [ht, ih]
    | ok r => simp only [ht, ih, if_true]

/-- **C35** fails for failures other than `ValueError` (an empty slice raises `IndexError`): the scan is aborted even if a
later precompensation would succeed. -/
theorem C35_other_error (rnd rndA : ℚ → ℚ) (tf : List ℚ → Except PyErr (ℚ × ℚ)) (bob post : List ℚ) (full : Bool) (df0 : ℚ) (e : PyErr)
    (he : e ≠ .valueError) (h : tf (bob.map fun t => rndA (rndA (t - 0) / rnd (1 + df0))) = .error e) :
    fpfindScan rnd rndA tf bob full (df0 :: post) = (.error e, [df0]) := by
  unfold fpfindScan
  cases e <;> simp_all

/-- Instance of C35: the first of three precompensations fails, the second one determines the result. -/
example : fpfindScan id id (fun b => if b = [10] then .error .valueError else .ok (3, 1 / 2)) [10] false [0, 1, 4] = (.ok (6, 2), [0, 1]) ∧
    fpfindScan id id (fun b => if b = [10] then .error .valueError else .ok (3, 1 / 2)) [10] true [0, 1, 4] = (.error .valueError, [0, 1, 4]) ∧
    fpfindScan id id (fun b => if b = [10] then .error .indexError else .ok (3, 1 / 2)) [10] false [0, 1, 4] = (.error .indexError, [0]) := by
  decide +kernel

/-! ## C36 -/

/-- **C36**: alternating scan up to the largest multiple of the step within `stop`. -/
theorem C36_alternating (rnd : ℚ → ℚ) (start stop step : ℚ) (m : Nat) (hstep : step ≠ 0) (h1 : (m : ℚ) ≤ stop / step)
    (h2 : stop / step < m + 1) :
    generatePrecompensations rnd start stop step false = (alternating m).map fun k : ℤ => rnd (rnd ((k : ℚ) * step) + start) := by
  unfold generatePrecompensations
  rw [if_neg hstep]
  have hf : ⌊stop / step⌋ = (m : ℤ) := by
    rw [Int.floor_eq_iff]
    exact ⟨by exact_mod_cast h1, by exact_mod_cast h2⟩
  simp only [Bool.false_eq_true, if_false, hf, trunc_nat]
  rw [← alternating_eq, show ((m : ℤ) + 1).toNat * 2 - 1 = 2 * m + 1 by omega]

/-- **C36**: the ordered scan goes up from `start` to `stop`. -/
theorem C36_ordered (rnd : ℚ → ℚ) (start stop step : ℚ) (m : Nat) (hstep : step ≠ 0) (h1 : (m : ℚ) ≤ rnd (stop - start) / step)
    (h2 : rnd (stop - start) / step < m + 1) :
    generatePrecompensations rnd start stop step true = (increasing m).map fun k : ℤ => rnd (rnd ((k : ℚ) * step) + start) := by
  unfold generatePrecompensations
  rw [if_neg hstep]
  have hf : ⌊rnd (stop - start) / step⌋ = (m : ℤ) := by
    rw [Int.floor_eq_iff]
    exact ⟨by exact_mod_cast h1, by exact_mod_cast h2⟩
  simp only [if_true, hf, trunc_nat]
  rw [← increasing_eq, show ((m : ℤ) + 1).toNat = m + 1 by omega]

/-- **C36**: a zero step gives the single value 0, and an unreachable stop gives no values at all. -/
theorem C36_degenerate (rnd : ℚ → ℚ) (start stop step : ℚ) :
    (generatePrecompensations rnd start stop 0 false = [0] ∧ generatePrecompensations rnd start stop 0 true = [0]) ∧
    (stop / step < 0 → generatePrecompensations rnd start stop step false = []) ∧
    (rnd (stop - start) / step < 0 → generatePrecompensations rnd start stop step true = []) := by
  refine ⟨⟨rfl, rfl⟩, ?_, ?_⟩
  · intro h
    have hstep : step ≠ 0 := by rintro rfl; simp at h
    have hf : ⌊stop / step⌋ < 0 := Int.floor_lt.mpr (by exact_mod_cast h)
    unfold generatePrecompensations
    rw [if_neg hstep]
    simp only [Bool.false_eq_true, if_false, trunc_floor]
    rw [show (⌊stop / step⌋ + 1).toNat * 2 - 1 = 0 by omega]
    rfl
  · intro h
    have hstep : step ≠ 0 := by rintro rfl; simp at h
    have hf : ⌊rnd (stop - start) / step⌋ < 0 := Int.floor_lt.mpr (by exact_mod_cast h)
    unfold generatePrecompensations
    rw [if_neg hstep]
    simp only [if_true, trunc_floor]
    rw [show (⌊rnd (stop - start) / step⌋ + 1).toNat = 0 by omega]
    rfl

/-- **C36**: in exact arithmetic every multiple of the step within `stop` is tried exactly once, on both sides of `start`. -/
theorem C36_each_once (start stop step : ℚ) (hstep : 0 < step) (hstop : 0 ≤ stop) :
    (generatePrecompensations id start stop step false).Nodup ∧
    (generatePrecompensations id start stop step false).head? = some start ∧
    ∀ x, x ∈ generatePrecompensations id start stop step false ↔ ∃ k : ℤ, x = start + k * step ∧ |(k : ℚ)| * step ≤ stop := by
  obtain ⟨m, hm⟩ : ∃ m : Nat, (m : ℤ) = ⌊stop / step⌋ := ⟨_, Int.toNat_of_nonneg (Int.floor_nonneg.mpr (by positivity))⟩
  have h1 : (m : ℚ) ≤ stop / step := by
    have := Int.floor_le (stop / step)
    rw [← hm] at this
    exact_mod_cast this
  have h2 : stop / step < m + 1 := by
    have := Int.lt_floor_add_one (stop / step)
    rw [← hm] at this
    exact_mod_cast this
  rw [C36_alternating id start stop step m hstep.ne' h1 h2]
  simp only [id]
  refine ⟨?_, ?_, ?_⟩
  · apply (nodup_alternating m).map
    intro a b hab
    simp only [add_left_inj] at hab
    have := mul_right_cancel₀ hstep.ne' hab
    exact_mod_cast this
  · have : ∃ l, alternating m = 0 :: l := by
      clear hm h1 h2
      induction m with
      | zero => exact ⟨[], rfl⟩
      | succ m ih =>
        obtain ⟨l, hl⟩ := ih
        rw [alternating, hl]
        exact ⟨_, rfl⟩
    obtain ⟨l, hl⟩ := this
    rw [hl]
    simp
  · intro x
    rw [List.mem_map]
    constructor
    · rintro ⟨k, hk, rfl⟩
      refine ⟨k, by ring, ?_⟩
      rw [mem_alternating] at hk
      have hkq : |(k : ℚ)| ≤ m := by exact_mod_cast hk
      calc |(k : ℚ)| * step ≤ m * step := mul_le_mul_of_nonneg_right hkq hstep.le
        _ ≤ stop := by rwa [le_div_iff₀ hstep] at h1
    · rintro ⟨k, rfl, hk⟩
      refine ⟨k, ?_, by ring⟩
      rw [mem_alternating]
      have : |(k : ℚ)| < m + 1 := by
        rw [← le_div_iff₀ hstep] at hk
        linarith
      have : |k| < (m : ℤ) + 1 := by exact_mod_cast this
      omega

/-- The examples in the documentation of `generate_precompensations` (fpfind.py:400-405): two of them are not what the
code returns. -/
theorem C36_doc_examples : generatePrecompensations id 0 0 0 false = [0] ∧
    generatePrecompensations id 1 10 5 false = [1, 6, -4, 11, -9] ∧
    generatePrecompensations id 1 1 5 false ≠ [1, 6, -4] ∧ generatePrecompensations id 1 10 5 true ≠ [1, 6, 11] := by
  decide +kernel

/-! ## C37 -/

/-- **C37**: the frequencies are inverse to each other, the identity in the comment of the code holds, and inverting twice
gives back the original values. -/
theorem C37_frequency_partial (dt df : ℚ) (h : -1 < df) :
    (1 + df) * (1 + (invertComp id dt df).2) = 1 ∧ (invertComp id dt df).1 * (1 + (invertComp id dt df).2) + dt = 0 ∧
      invertComp id (invertComp id dt df).1 (invertComp id dt df).2 = (dt, df) := by
  have h0 : (1 + df) ≠ 0 := by linarith
  unfold invertComp
  simp only [id]
  refine ⟨by field_simp; ring, by field_simp; ring, ?_⟩
  rw [Prod.mk.injEq]
  constructor
  · field_simp; ring
  · have : 1 + (1 / (1 + df) - 1) = 1 / (1 + df) := by ring
    rw [this]; field_simp; ring

/-- **C37** fails for the time: after the original correction, the inverted one leaves the error dt * df * (2 + df). -/
theorem C37_time_error (dt df t : ℚ) (h : -1 < df) :
    corrected (invertComp id dt df).1 (invertComp id dt df).2 (corrected dt df t) = t + dt * df * (2 + df) := by
  have h0 : (1 + df) ≠ 0 := by linarith
  unfold invertComp corrected
  simp only [id]
  have : 1 + (1 / (1 + df) - 1) = 1 / (1 + df) := by ring
  rw [this]
  field_simp
  ring

/-- **C37**, negation: no inversion unless there is no time or no frequency correction. -/
theorem C37_negation (dt df t : ℚ) (h : -1 < df) :
    corrected (invertComp id dt df).1 (invertComp id dt df).2 (corrected dt df t) = t ↔ dt = 0 ∨ df = 0 := by
  rw [C37_time_error dt df t h]
  constructor
  · intro he
    have h2 : dt * df * (2 + df) = 0 := by linarith
    have h3 : (2 + df) ≠ 0 := by linarith
    rcases mul_eq_zero.mp h2 with h4 | h4
    · exact mul_eq_zero.mp h4
    · exact absurd h4 h3
  · rintro (rfl | rfl) <;> simp

/-- What is printed with output bit 0 only. -/
theorem C37_printed (rnd : ℚ → ℚ) (dt df : ℚ) :
    fpOutput rnd 1 dt df = { df := .inl (invertComp rnd dt df).2, dt := some (rne (invertComp rnd dt df).1) } := by
  rfl

/-- Instance of C37: 1 ms and 10 ppm; the inverted pair is off by 20 ns. -/
example : invertComp id 1000000 (1 / 100000) = (-1000010, -1 / 100001) ∧
    corrected (-1000010) (-1 / 100001) (corrected 1000000 (1 / 100000) 0) = 2000010 / 100000 := by
  decide +kernel

/-! ## C38 -/

/-- **C38**: exact condition on the frequency compensation for `freqcd` to accept the printed number. -/
theorem C38_exact_partial (flag : Nat) (dt df : ℚ) (hflag : flag / 2 % 2 = 1) :
    ∃ n, (fpOutput id flag dt df).df = .inr n ∧
      (freqcdAccepts n ↔ |if flag % 2 = 1 then 1 / (1 + df) - 1 else df| < 1 / 2 ^ 13 - 1 / 2 ^ 35) := by
  refine ⟨rne ((if flag % 2 = 1 then 1 / (1 + df) - 1 else df) * 2 ^ 34), ?_, ?_⟩
  · unfold fpOutput
    by_cases h : flag % 2 = 1 <;> simp [h, hflag, invertComp]
  · generalize (if flag % 2 = 1 then 1 / (1 + df) - 1 else df) = x
    exact accepts_iff x

/-- **C38**: for doubles and without inversion, everything up to 2^-13 - 2^-35 is accepted (and nothing above). -/
theorem C38_double_partial (flag : Nat) (dt df : ℚ) (hdf : fl 53 df = df) (hflag : flag / 2 % 2 = 1) (hinv : flag % 2 = 0) :
    ∃ n, (fpOutput (fl 53) flag dt df).df = .inr n ∧ (freqcdAccepts n ↔ |df| < 1 / 2 ^ 13 - 1 / 2 ^ 35) := by
  refine ⟨rne (df * 2 ^ 34), ?_, accepts_iff df⟩
  have h34 : fl 53 (df * 2 ^ 34) = df * 2 ^ 34 := by
    have := fl_mul_zpow 53 df 34
    rw [hdf] at this
    exact_mod_cast this
  unfold fpOutput
  have : ¬ flag % 2 = 1 := by omega
  simp [this, hflag, h34]

/-- **C38**, negation: a compensation within the bound of `time_freq` whose printed value `freqcd` rejects. -/
theorem C38_negation : ∃ df : ℚ, fl 53 df = df ∧ |df| < maxFcorr ∧ ∀ dt, ∃ n, (fpOutput (fl 53) 2 dt df).df = .inr n ∧ ¬ freqcdAccepts n := by
  have hdf : fl 53 (1 / 2 ^ 13 - 1 / 2 ^ 36) = 1 / 2 ^ 13 - 1 / 2 ^ 36 := by decide +kernel
  refine ⟨1 / 2 ^ 13 - 1 / 2 ^ 36, hdf, by norm_num [maxFcorr, abs_of_pos], ?_⟩
  intro dt
  obtain ⟨n, h1, h2⟩ := C38_double_partial 2 dt _ hdf (by norm_num) (by norm_num)
  exact ⟨n, h1, by rw [h2]; norm_num [abs_of_pos]⟩

/-- **C38**, negation for inverted output: the inverse of an accepted compensation need not be accepted. -/
theorem C38_inverted_negation : ∃ df : ℚ, |df| < maxFcorr ∧ (∀ dt, ∃ n, (fpOutput id 2 dt df).df = .inr n ∧ freqcdAccepts n) ∧
    ∀ dt, ∃ n, (fpOutput id 3 dt df).df = .inr n ∧ ¬ freqcdAccepts n := by
  refine ⟨-(1 / 2 ^ 13 - 1 / 2 ^ 34), by norm_num [maxFcorr, abs_of_neg], ?_, ?_⟩
  · intro dt
    obtain ⟨n, h1, h2⟩ := C38_exact_partial 2 dt (-(1 / 2 ^ 13 - 1 / 2 ^ 34)) (by norm_num)
    exact ⟨n, h1, by rw [h2]; norm_num [abs_of_neg]⟩
  · intro dt
    obtain ⟨n, h1, h2⟩ := C38_exact_partial 3 dt (-(1 / 2 ^ 13 - 1 / 2 ^ 34)) (by norm_num)
    exact ⟨n, h1, by rw [h2]; norm_num [abs_of_pos]⟩

/-- **C38**, negation with precompensation: `fpfind` combines a precompensation with the bounded result of `time_freq`
without checking the sum. -/
theorem C38_precompensation_negation : ∃ (tf : List ℚ → Except PyErr (ℚ × ℚ)) (precs : List ℚ) (dt df : ℚ),
    (∀ b dt1 df1, tf b = .ok (dt1, df1) → |df1| < maxFcorr) ∧
    (fpfindScan id id tf [1, 2] false precs).1 = .ok (dt, df) ∧ ∃ n, (fpOutput id 2 dt df).df = .inr n ∧ ¬ freqcdAccepts n := by
  refine ⟨fun _ => .ok (0, 0), [1 / 1000], 0, 1 / 1000, ?_, by decide +kernel, ?_⟩
  · intro b dt1 df1 h
    simp only [Except.ok.injEq, Prod.mk.injEq] at h
    rw [← h.2]
    norm_num [maxFcorr]
  · obtain ⟨n, h1, h2⟩ := C38_exact_partial 2 0 (1 / 1000) (by norm_num)
    exact ⟨n, h1, by rw [h2]; norm_num [abs_of_pos]⟩

end Fp
