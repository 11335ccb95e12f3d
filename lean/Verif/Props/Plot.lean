import Verif.Lemmas.Plot

/-! # C79: plotting with the result of fpfind -/
namespace Fp
open Spec

/-- **C79**: with the same files and options, and at most as many epochs as fpfind reads, fpplot works on the same timestamps
with the same time reference as fpfind: the first part of the normalised timestamps of fpfind (all of them for raw files), up
to the given duration.  Otherwise, if there are no events to work with, it ends with an `IndexError`; for raw files this happens only if
fpfind has no events either. -/
theorem C79_input (rnd rndA : ℚ → ℚ) (hidem : ∀ x, rndA (rndA x) = rndA x) (A : FpArgs) (B : PlotArgs) (hB : SameInput A B)
    (hn : A.sendfiles = none ∨ A.t1files = none ∨ B.numEpochs ≤ A.requiredEpochs rnd - A.skipEpochs) (a b : List ℚ)
    (h : Returns (fun fuel => mainInput rnd rndA fuel A) (.ok (some [a, b]))) :
    (((A.sendfiles ≠ none ∧ A.t1files ≠ none) ∨ a = [] ∨ b = []) ∧ Returns (fun fuel => plotInput rnd rndA fuel B) (.error .indexError)) ∨
    ∃ a' b', a' <+: a ∧ b' <+: b ∧ (A.sendfiles = none ∨ A.t1files = none → a' = a ∧ b' = b) ∧
      Returns (fun fuel => plotInput rnd rndA fuel B) (.ok (some [a'.filter fun t => Within (B.duration.map fun d => rnd (d * 10 ^ 9)) t,
        b'.filter fun t => Within (B.duration.map fun d => rnd (d * 10 ^ 9)) t])) := by
  obtain ⟨N, hN⟩ := h
  obtain ⟨al, bo, s, h1, h2⟩ : ∃ al bo s, loadInput rnd N A = some (.ok (some (al, bo, s))) ∧
      normalizeTimestampsR rnd rndA [al, bo] s true = .ok [a, b] := by
    have := hN N le_rfl
    simp only [mainInput] at this
    split at this
    · simp at this
    · simp at this
    · simp at this
    · rename_i al bo s he
      refine ⟨al, bo, s, he, ?_⟩
      cases hn : normalizeTimestampsR rnd rndA [al, bo] s true with
      | error e => simp [hn, Except.map] at this
      | ok T => simpa [hn, Except.map] using this
  obtain ⟨al', bo', g1, g2, g3, g4⟩ := load_prefix rnd N A B hB hn al bo s h1
  have hplot : plotInput rnd rndA N B = some (((normalizeTimestampsR rnd rndA [al', bo'] s true).bind (plotSlice rnd rndA B.duration)).map some) := by
    unfold plotInput
    rw [g4]
  cases hnorm : normalizeTimestampsR rnd rndA [al', bo'] s true with
  | error e =>
    left
    have he : e = .indexError := by
      cases al' with
      | nil => simpa [normalizeTimestampsR, bind, Except.bind, pure, Except.pure] using hnorm.symm
      | cons x a1 =>
        cases bo' with
        | nil => simpa [normalizeTimestampsR, bind, Except.bind, pure, Except.pure] using hnorm.symm
        | cons y b1 => simp [normalizeTimestampsR, sliceTimestampsR, bind, Except.bind, pure, Except.pure] at hnorm
    refine ⟨Or.inl ?_, ?_⟩
    · by_contra hcon
      obtain ⟨q1, q2⟩ := g3 (by
        by_contra h'
        exact hcon (not_or.mp h'))
      rw [q1, q2, h2] at hnorm
      simp at hnorm
    · rw [hnorm, he] at hplot
      exact plotInput_more rnd rndA B N _ hplot
  | ok T =>
    obtain ⟨x, a1, y, b1, e1, e2, e3⟩ := normalize_two rnd rndA al' bo' s T hnorm
    simp only [List.map_cons, List.map_nil] at e3
    generalize hA : (al'.map fun t => rndA (t - rndA (max x y + rnd (s * 10 ^ 9)))).filter (fun t => decide (0 ≤ t)) = A' at e3
    generalize hB' : (bo'.map fun t => rndA (t - rndA (max x y + rnd (s * 10 ^ 9)))).filter (fun t => decide (0 ≤ t)) = B' at e3
    have hApos : ∀ t ∈ A', 0 ≤ t ∧ rndA t = t := by
      intro t ht
      rw [← hA] at ht
      obtain ⟨q1, q2⟩ := List.mem_filter.mp ht
      obtain ⟨u, -, rfl⟩ := List.mem_map.mp q1
      exact ⟨by simpa using q2, hidem _⟩
    have hBpos : ∀ t ∈ B', 0 ≤ t ∧ rndA t = t := by
      intro t ht
      rw [← hB'] at ht
      obtain ⟨q1, q2⟩ := List.mem_filter.mp ht
      obtain ⟨u, -, rfl⟩ := List.mem_map.mp q1
      exact ⟨by simpa using q2, hidem _⟩
    rw [e3] at hnorm
    obtain ⟨p1, p2⟩ := normalize_prefix rnd rndA al bo al' bo' s g1 g2 a b A' B' h2 hnorm
    have hraw : A.sendfiles = none ∨ A.t1files = none → A' = a ∧ B' = b := by
      intro hor
      obtain ⟨q1, q2⟩ := g3 hor
      rw [q1, q2, h2] at hnorm
      simp only [Except.ok.injEq, List.cons.injEq, and_true] at hnorm
      exact ⟨hnorm.1.symm, hnorm.2.symm⟩
    rw [hnorm] at hplot
    cases hd : B.duration with
    | none =>
      right
      refine ⟨A', B', p1, p2, hraw, plotInput_more rnd rndA B N _ ?_⟩
      rw [hplot, hd]
      simp [Except.bind, plotSlice, Except.map, Within]
    | some d =>
      rw [hd] at hplot
      simp only [Except.bind, plotSlice] at hplot
      rw [slice_two rndA _ A' B' hApos hBpos] at hplot
      split at hplot
      · rename_i hemp
        left
        refine ⟨?_, plotInput_more rnd rndA B N _ hplot⟩
        by_cases hor : A.sendfiles = none ∨ A.t1files = none
        · rw [(hraw hor).1, (hraw hor).2] at hemp
          exact Or.inr hemp
        · exact Or.inl (not_or.mp hor)
      · right
        refine ⟨A', B', p1, p2, hraw, plotInput_more rnd rndA B N _ ?_⟩
        rw [hplot]
        simp [Except.map, Within]

/-- **C79**: the correction that fpplot applies with `--freq` (ppm) and `--time` (ns) as found by fpfind is that of fpfind, up
to the rounding of the printed time to 1 ns and rounding errors. -/
theorem C79_correction (rnd rndA : ℚ → ℚ) (hr : RelErr rnd) (hra : RelErr rndA) (dt df t : ℚ) (hdf : |df| ≤ 1 / 2 ^ 12) :
    |plotCorrect rnd rndA (rnd (df * 10 ^ 6)) (rne dt) t - corrected dt df t| ≤
      1 / 2 * (1 + 1 / 2 ^ 11) + (|t| + |dt| + 1) / 2 ^ 50 := by
  have hT := rne_spec dt
  set T : ℚ := ((rne dt : ℤ) : ℚ)
  have hg := abs_le.mp hdf
  have hg0 : 0 < 1 + df := by linarith [hg.1]
  have h1 := plot_round rnd rndA hr hra df (t - T) hdf
  have hsplit : corrected dt df t = (t - T) / (1 + df) - (dt - T) / (1 + df) := by
    unfold corrected; ring
  have h2 : |(dt - T) / (1 + df)| ≤ 1 / 2 * (1 + 1 / 2 ^ 11) := by
    rw [abs_div, abs_of_pos hg0, div_le_iff₀ hg0, abs_sub_comm]
    refine hT.trans ?_
    nlinarith [hg.1]
  have h3 : |t - T| ≤ |t| + |dt| + 1 := by
    have q1 := abs_sub t T
    have q2 := abs_add_le (T - dt) dt
    rw [sub_add_cancel] at q2
    linarith
  unfold plotCorrect
  rw [hsplit]
  generalize rndA (rndA (t - T) / rnd (1 + rnd (rnd (df * 10 ^ 6) * rnd (1 / 10 ^ 6)))) = z at *
  have q := abs_add_le (z - (t - T) / (1 + df)) ((dt - T) / (1 + df))
  rw [show z - (t - T) / (1 + df) + (dt - T) / (1 + df) = z - ((t - T) / (1 + df) - (dt - T) / (1 + df)) by ring] at q
  have h4 : |t - T| / 2 ^ 50 ≤ (|t| + |dt| + 1) / 2 ^ 50 := div_le_div_of_nonneg_right h3 (by positivity)
  linarith

/-- **C79**, the arrays given to `histogram`: with the frequency and the time found by fpfind, the reference events are passed as
read and every target event, in order, is the event corrected as by fpfind, within the bound of `C79_correction`. -/
theorem C79_arrays (rnd rndA : ℚ → ℚ) (hr : RelErr rnd) (hra : RelErr rndA) (B : PlotArgs) (dt df : ℚ) (hdf : |df| ≤ 1 / 2 ^ 12)
    (hfreq : B.freq = rnd (df * 10 ^ 6)) (htime : B.time = rne dt) (a b : List ℚ)
    (h : Returns (fun fuel => plotInput rnd rndA fuel B) (.ok (some [a, b]))) :
    ∃ b', Returns (fun fuel => plotArrays rnd rndA fuel B) (.ok (some (a, b'))) ∧
      List.Forall₂ (fun t t' => |t' - corrected dt df t| ≤ 1 / 2 * (1 + 1 / 2 ^ 11) + (|t| + |dt| + 1) / 2 ^ 50) b b' := by
  refine ⟨b.map (plotCorrect rnd rndA (rnd (df * 10 ^ 6)) (rne dt)), ?_, ?_⟩
  · obtain ⟨N, hN⟩ := h
    refine ⟨N, fun fuel hf => ?_⟩
    have := hN fuel hf
    dsimp only at this ⊢
    unfold plotArrays
    rw [this, hfreq, htime]
    rfl
  · rw [List.forall₂_map_right_iff]
    exact List.forall₂_same.mpr fun t _ => C79_correction rnd rndA hr hra dt df t hdf

/-- **C79**, end to end: fpplot, given the frequency (converted to ppm) and the time that `time_freq` found, moves the target
event of a photon pair to within the accuracy of the search (see `C63_rounded`), half a nanosecond and rounding errors of the
reference event. -/
theorem C79_aligned (P : TFParams) (hr : RelErr P.rnd) (hra : RelErr P.rndA) (hsep : 0 < P.sep) (bts : List ℚ) (res dt df : ℚ)
    (trace : List TFEntry) (e : TFEntry) (φ τ ε B R : ℚ)
    (h : Returns (fun fuel => timeFreq P fuel bts res) (.ok (dt, df, trace ++ [e])))
    (hl : trace.length + 1 ≤ 2 ^ 35) (hR : R = (trace.length + 1) * (B + (trace.length + 1) * (101 * 10 ^ 6)) / 2 ^ 49)
    (h1 : |e.dt1 - composedR P.rnd P.rndA trace (targetClock φ τ 0)| ≤ ε)
    (h2 : |e.dt1 + e.df1 * P.sep - (composedR P.rnd P.rndA trace (targetClock φ τ P.sep) - P.sep)| ≤ ε)
    (hB0 : |targetClock φ τ 0| ≤ B) (hBs : |targetClock φ τ P.sep| ≤ B) (out : FpOutput) (time : ℤ) (hout : fpOutput P.rnd 0 dt df = out)
    (ht : out.dt = some time) (f : ℚ) (hf : out.df = .inl f) :
    ∀ a, 0 ≤ a → |targetClock φ τ a| ≤ B →
      |plotCorrect P.rnd P.rndA (P.rnd (f * 10 ^ 6)) time (targetClock φ τ a) - a| ≤
        (ε + R + 2 * (ε + R) * (a / P.sep)) * (1 + 1 / 2 ^ 10) + 3 * R + 1 / 2 * (1 + 1 / 2 ^ 11) + (B + |dt| + 1) / 2 ^ 50 := by
  intro a ha hBa
  have g1 := C63_rounded P hr hra hsep bts res dt df trace e φ τ ε B R h hl hR h1 h2 hB0 hBs a ha hBa
  have hdf := (C33_bounded P bts res dt df _ h).1
  have hf' : f = df ∧ time = rne dt := by
    rw [← hout] at ht hf
    simp only [fpOutput] at ht hf
    norm_num at ht hf
    exact ⟨hf.symm, ht.symm⟩
  rw [hf'.1, hf'.2]
  have g2 := C79_correction P.rnd P.rndA hr hra dt df (targetClock φ τ a) (by
    refine hdf.le.trans ?_
    norm_num)
  have g3 : (|targetClock φ τ a| + |dt| + 1) / 2 ^ 50 ≤ (B + |dt| + 1) / 2 ^ 50 :=
    div_le_div_of_nonneg_right (by linarith) (by positivity)
  have g4 := abs_sub_le (plotCorrect P.rnd P.rndA (P.rnd (df * 10 ^ 6)) (rne dt) (targetClock φ τ a))
    (corrected dt df (targetClock φ τ a)) a
  refine g4.trans ((add_le_add g2 g1).trans ?_)
  generalize (ε + R + 2 * (ε + R) * (a / P.sep)) * (1 + 1 / 2 ^ 10) = E
  linarith

/-- Instance of `C79_aligned`: the run of `C76_example`; fpfind prints a time of -6 ns. -/
example : ∀ a, 0 ≤ a → |targetClock (6 / 10 ^ 6) (-6) a| ≤ 10 ^ 12 →
    |plotCorrect (fl 53) (fl 64) (fl 53 (27021633793 / 4503599627370496 * 10 ^ 6)) (-6) (targetClock (6 / 10 ^ 6) (-6) a) - a| ≤
      (1 + (1 + 1) * (10 ^ 12 + (1 + 1) * (101 * 10 ^ 6)) / 2 ^ 49 +
        2 * (1 + (1 + 1) * (10 ^ 12 + (1 + 1) * (101 * 10 ^ 6)) / 2 ^ 49) * (a / 1000000)) * (1 + 1 / 2 ^ 10) +
      3 * ((1 + 1) * (10 ^ 12 + (1 + 1) * (101 * 10 ^ 6)) / 2 ^ 49) + 1 / 2 * (1 + 1 / 2 ^ 11) +
      (10 ^ 12 + |(-3377704224127499 / 562949953421312 : ℚ)| + 1) / 2 ^ 50 := by
  have h := C79_aligned { exampleParams with rnd := fl 53, rndA := fl 64 } C76_arithmetic.1 C76_arithmetic.2
    (by norm_num [exampleParams]) _ 4 _ _ [_] _ (6 / 10 ^ 6) (-6) 1 (10 ^ 12)
    ((1 + 1) * (10 ^ 12 + (1 + 1) * (101 * 10 ^ 6)) / 2 ^ 49) C76_example (by norm_num) (by norm_num)
    (by decide +kernel) (by decide +kernel) (by decide +kernel) (by decide +kernel) _ (-6) rfl (by decide +kernel)
    (27021633793 / 4503599627370496) (by decide +kernel)
  exact_mod_cast h

/-- Instance of `C79_input`: raw files with two events each and a duration of 1 ns. -/
example : ∃ (A : FpArgs) (B : PlotArgs) (a b : List ℚ), SameInput A B ∧ B.numEpochs ≤ A.requiredEpochs (fl 53) - A.skipEpochs ∧
    Returns (fun fuel => mainInput (fl 53) (fl 64) fuel A) (.ok (some [a, b])) ∧
    Returns (fun fuel => plotInput (fl 53) (fl 64) fuel B) (.ok (some [[0], [1 / 2]])) := by
  let A : FpArgs :=
  { sendfiles := none, t1files := none, reference := some ([(256, 1), (512, 1)].flatMap (a1Event false)),
    target := some ([(128, 1), (384, 1)].flatMap (a1Event false)), legacy := false, skipDuration := 0, firstEpoch := none,
    skipEpochs := 0, initialRes := 16, bufferOrder := 20, numWraps := 1, separation := 6 }
  let B : PlotArgs :=
  { sendfiles := none, t1files := none, reference := A.reference, target := A.target, legacy := false,
    skipDuration := 0, firstEpoch := none, numEpochs := 1, skipEpochs := 0, freq := 0, time := 0, duration := some (1 / 10 ^ 9) }
  refine ⟨A, B, [0, 1], [1 / 2], ⟨rfl, rfl, rfl, rfl, rfl, rfl, rfl, rfl⟩, by decide +kernel, ⟨0, fun fuel _ => ?_⟩, ⟨0, fun fuel _ => ?_⟩⟩
  · have e : mainInput (fl 53) (fl 64) fuel A = mainInput (fl 53) (fl 64) 0 A := rfl
    simp only [e]
    decide +kernel
  · have e : plotInput (fl 53) (fl 64) fuel B = plotInput (fl 53) (fl 64) 0 B := rfl
    simp only [e]
    decide +kernel

/-- Instance of `C79_arrays`: the correction of the previous example is 1/4 ns (printed as 0 ns) and 0 ppm. -/
example : ∃ (B : PlotArgs), B.freq = fl 53 (0 * 10 ^ 6) ∧ B.time = rne (1 / 4) ∧
    Returns (fun fuel => plotInput (fl 53) (fl 64) fuel B) (.ok (some [[0], [1 / 2]])) := by
  let B : PlotArgs :=
  { sendfiles := none, t1files := none, reference := some ([(256, 1), (512, 1)].flatMap (a1Event false)),
    target := some ([(128, 1), (384, 1)].flatMap (a1Event false)), legacy := false,
    skipDuration := 0, firstEpoch := none, numEpochs := 1, skipEpochs := 0, freq := 0, time := 0, duration := some (1 / 10 ^ 9) }
  refine ⟨B, by decide +kernel, by decide +kernel, ⟨0, fun fuel _ => ?_⟩⟩
  have e : plotInput (fl 53) (fl 64) fuel B = plotInput (fl 53) (fl 64) 0 B := rfl
  simp only [e]
  decide +kernel

end Fp
