import Verif.Lemmas.FpAccuracy
import Verif.Props.FpFind

/-! # Searches whose resolution grows instead of being refined -/
namespace Fp
open Spec

theorem relErr_zero (rnd : ℚ → ℚ) (h : RelErr rnd) : rnd 0 = 0 := by
  have := h 0
  rw [abs_zero, zero_div, sub_zero] at this
  exact abs_nonpos_iff.mp this

theorem relErr_nonneg (rnd : ℚ → ℚ) (h : RelErr rnd) (x : ℚ) (hx : 0 ≤ x) : 0 ≤ rnd x :=
  le_trans (mul_nonneg hx (by norm_num)) (relErr_le rnd h x hx).2

theorem relErr_nonpos (rnd : ℚ → ℚ) (h : RelErr rnd) (x : ℚ) (hx : x ≤ 0) : rnd x ≤ 0 := by
  have := abs_le.mp (h x)
  rw [abs_of_nonpos hx] at this
  norm_num at this
  linarith [this.2]

/-- The next resolution is larger by a factor ρ. -/
theorem quotient_ge (rnd : ℚ → ℚ) (h : RelErr rnd) (sep dur ρ : ℚ) (hd : 0 < dur) (hsep : 0 < sep)
    (hs : ρ * sep * (1 + 1 / 2 ^ 53) ^ 2 ≤ resRefineFactor * dur * (1 - 1 / 2 ^ 53)) (x : ℚ) (hx : 0 < x) :
    x * ρ ≤ rnd (x / rnd (rnd (sep / dur) / resRefineFactor)) := by
  have hR : (0 : ℚ) < resRefineFactor := by unfold resRefineFactor; norm_num
  have hu : (0 : ℚ) < 1 - 1 / 2 ^ 53 := by norm_num
  have h1 := relErr_le rnd h (sep / dur) (by positivity)
  have h1p : 0 < rnd (sep / dur) := lt_of_lt_of_le (mul_pos (by positivity) hu) h1.2
  have h2 := relErr_le rnd h (rnd (sep / dur) / resRefineFactor) (by positivity)
  have h2p : 0 < rnd (rnd (sep / dur) / resRefineFactor) := lt_of_lt_of_le (mul_pos (by positivity) hu) h2.2
  have h3 : rnd (rnd (sep / dur) / resRefineFactor) ≤ sep * (1 + 1 / 2 ^ 53) ^ 2 / (resRefineFactor * dur) := by
    refine h2.1.trans ?_
    have h4 : rnd (sep / dur) / resRefineFactor * (1 + 1 / 2 ^ 53) ≤
        sep / dur * (1 + 1 / 2 ^ 53) / resRefineFactor * (1 + 1 / 2 ^ 53) :=
      mul_le_mul_of_nonneg_right (div_le_div_of_nonneg_right h1.1 hR.le) (by norm_num)
    refine h4.trans (le_of_eq ?_)
    field_simp
  generalize rnd (rnd (sep / dur) / resRefineFactor) = q at h2p h3
  refine le_trans ?_ (relErr_le rnd h (x / q) (by positivity)).2
  rw [div_mul_eq_mul_div, le_div_iff₀ h2p, mul_assoc]
  apply mul_le_mul_of_nonneg_left _ hx.le
  rw [le_div_iff₀ (by positivity)] at h3
  by_cases hρ : 0 ≤ ρ
  · have h5 := mul_le_mul_of_nonneg_left h3 hρ
    have h6 : ρ * q * (resRefineFactor * dur) ≤ (1 - 1 / 2 ^ 53) * (resRefineFactor * dur) := by
      calc ρ * q * (resRefineFactor * dur) = ρ * (q * (resRefineFactor * dur)) := by ring
        _ ≤ ρ * (sep * (1 + 1 / 2 ^ 53) ^ 2) := h5
        _ = ρ * sep * (1 + 1 / 2 ^ 53) ^ 2 := by ring
        _ ≤ _ := by linarith
    exact le_of_mul_le_mul_right h6 (by positivity)
  · have : ρ * q ≤ 0 := mul_nonpos_of_nonpos_of_nonneg (by linarith) h2p.le
    linarith

/-- A correlation period that is longer than three times the acquisition: the window is empty. -/
theorem short_window (P : TFParams) (hr : RelErr P.rnd) (hra : RelErr P.rndA) (hd : 0 < P.duration) (res : ℚ) (h0 : 0 < res)
    (hlong : 3 * P.duration ≤ res * P.numBins) : tfDuration P res ≤ 0 := by
  have hN : (0 : ℚ) < res * P.numBins := by linarith
  have h1 := relErr_le P.rnd hr (res * P.numBins) hN.le
  have hp : 0 < P.rnd (res * P.numBins) := lt_of_lt_of_le (mul_pos hN (by norm_num)) h1.2
  have h2 := relErr_le P.rnd hr (P.duration / P.rnd (res * P.numBins)) (by positivity)
  have h3 : P.rnd (P.duration / P.rnd (res * P.numBins)) < 1 / 2 := by
    refine lt_of_le_of_lt h2.1 ?_
    rw [div_mul_eq_mul_div, div_lt_iff₀ hp]
    refine lt_of_lt_of_le ?_ (mul_le_mul_of_nonneg_left h1.2 (by norm_num))
    norm_num
    linarith
  have h4 : rne (P.rnd (P.duration / P.rnd (res * P.numBins))) = 0 := by
    have hf : ⌊P.rnd (P.duration / P.rnd (res * P.numBins))⌋ = 0 := by
      rw [Int.floor_eq_zero_iff]
      exact ⟨relErr_nonneg P.rnd hr _ (by positivity), by linarith⟩
    unfold rne
    rw [hf]
    rw [if_pos (by push_cast; linarith)]
  unfold tfDuration
  simp only [h4, Int.cast_zero, zero_mul]
  split
  · rename_i hneg
    apply relErr_nonpos _ hra
    apply mul_nonpos_of_nonpos_of_nonneg _ (Nat.cast_nonneg _)
    apply relErr_nonpos _ hra
    exact mul_nonpos_of_nonpos_of_nonneg hneg.le h0.le
  · rw [relErr_zero _ hr, zero_mul, relErr_zero _ hr]

/-- An iteration with an empty window fails. -/
theorem begin_short (P : TFParams) (s : TFState) (h : tfDuration P s.res ≤ 0) : ∃ e, tfBegin P s = .error e := by
  have hs : ∀ ts, (∃ e, sliceTimestampsR P.rndA ts (some 0) (some (tfDuration P s.res)) = .error e) ∨
      sliceTimestampsR P.rndA ts (some 0) (some (tfDuration P s.res)) = .ok [] := by
    intro ts
    unfold sliceTimestampsR
    simp only [bind, Except.bind, pure, Except.pure]
    split
    · exact Or.inl ⟨_, rfl⟩
    · right
      congr 1
      rw [List.filter_eq_nil_iff]
      intro t ht
      rw [List.mem_filter] at ht
      have h1 := ht.2
      simp only [decide_eq_true_eq] at h1 ⊢
      linarith
  have hc : ∃ e, tfCorrelate P s.bts s.res 0 (tfDuration P s.res) = .error e := by
    unfold tfCorrelate
    simp only [bind, Except.bind]
    rcases hs P.ats with ⟨e, h1⟩ | h1
    · rw [h1]; exact ⟨_, rfl⟩
    · rw [h1]
      rcases hs s.bts with ⟨e, h2⟩ | h2
      · rw [h2]; exact ⟨_, rfl⟩
      · rw [h2]
        exact ⟨.valueError, by simp [generateBinsR]⟩
  obtain ⟨e, hc⟩ := hc
  refine ⟨e, ?_⟩
  unfold tfBegin
  simp only [bind, Except.bind, hc]

/-- From the second iteration on. -/
theorem ends_grow (P : TFParams) (hr : RelErr P.rnd) (hra : RelErr P.rndA) (ρ : ℚ) (hρ : 1 < ρ) (hd : 0 < P.duration)
    (hq : ∀ x, 0 < x → x * ρ ≤ P.rnd (x / P.rnd (P.rnd (P.sep / P.duration) / resRefineFactor))) (n : Nat) (s : TFState)
    (hp : s.phase = .begin) (hi : 1 < s.iter) (h0 : 0 < s.res) (hn : 3 * P.duration ≤ s.res * ρ ^ n * P.numBins) : Ends P s n := by
  induction n generalizing s with
  | zero =>
    obtain ⟨e, hb⟩ := begin_short P s (short_window P hr hra hd s.res h0 (by simpa using hn))
    exact ends_error P s _ e (by unfold tfStep; rw [hp, hb])
  | succ n ih =>
    cases hb : tfBegin P s with
    | error e => exact ends_error P s _ e (by unfold tfStep; rw [hp, hb])
    | ok s' =>
      obtain ⟨ys, dt1, sig, dur, he⟩ := tfBegin_ok P s s' hb
      rw [if_neg (by omega)] at he
      apply ends_step P s s' _ (by unfold tfStep; rw [hp, hb]) (by rw [he])
      apply ends_late P s' dt1 dur (by rw [he]) n
      intro _ s'' hp'' hi'' hr''
      have hsr : s'.res = s.res := by rw [he]
      have hsi : s'.iter = s.iter := by rw [he]
      have hge : s.res * ρ ≤ s''.res := by
        rw [hr'', hsr]
        exact (hq s.res h0).trans (le_max_left _ _)
      refine ih s'' hp'' (by omega) (lt_of_lt_of_le (by positivity) hge) (hn.trans ?_)
      apply mul_le_mul_of_nonneg_right _ (Nat.cast_nonneg _)
      calc s.res * ρ ^ (n + 1) = s.res * ρ * ρ ^ n := by ring
        _ ≤ _ := mul_le_mul_of_nonneg_right hge (by positivity)

theorem ends_growing (P : TFParams) (hr : RelErr P.rnd) (hra : RelErr P.rndA) (ρ : ℚ) (hρ : 1 < ρ) (hd : 0 < P.duration)
    (ht : 0 < P.target) (hq : ∀ x, 0 < x → x * ρ ≤ P.rnd (x / P.rnd (P.rnd (P.sep / P.duration) / resRefineFactor))) (n : Nat)
    (hn : 3 * P.duration ≤ P.target * ρ ^ n * P.numBins) (s : TFState)
    (hp : s.phase = .begin) (hi : s.iter = 1) (h0 : 0 < s.res) : Ends P s (n + 1) := by
  have hpos : ∀ x, 0 < x → 0 < P.rnd (x * 2) := fun x hx =>
    lt_of_lt_of_le (by positivity) (relErr_le P.rnd hr (x * 2) (by positivity)).2
  cases hb : tfBegin P s with
  | error e => exact ends_error P s _ e (by unfold tfStep; rw [hp, hb])
  | ok s' =>
    obtain ⟨ys, dt1, sig, dur, he⟩ := tfBegin_ok P s s' hb
    rw [if_pos hi] at he
    apply ends_step P s s' _ (by unfold tfStep; rw [hp, hb]) (by rw [he])
    apply ends_search P (n + 1) (max s.res (10 ^ 4)) (le_max_right _ _) hpos _ ys.length s' ys dt1 sig dur (by rw [he])
      le_rfl (by rw [he]; exact hi) (by rw [he]; exact h0) (by rw [he]; exact le_max_left _ _)
    intro s1 dt1 dur hp1 hi1 h01 _
    apply ends_late P s1 dt1 dur hp1 n
    intro _ s2 hp2 hi2 hr2
    have hge : P.target ≤ s2.res := by rw [hr2]; exact le_max_right _ _
    refine ends_grow P hr hra ρ hρ hd hq n s2 hp2 (by omega) (lt_of_lt_of_le ht hge) (hn.trans ?_)
    apply mul_le_mul_of_nonneg_right _ (Nat.cast_nonneg _)
    exact mul_le_mul_of_nonneg_right hge (by positivity)

/-- One step does not depend on a target below the resolution, and stays above it. -/
theorem step_target (P : TFParams) (hr : RelErr P.rnd)
    (hq : ∀ x, 0 < x → x ≤ P.rnd (x / P.rnd (P.rnd (P.sep / P.duration) / resRefineFactor))) (a b : ℚ) (s : TFState) (h0 : 0 < s.res)
    (ha : a < s.res) (hb : b < s.res) :
    tfStep { P with target := a } s = tfStep { P with target := b } s ∧
      ∀ s', tfStep { P with target := a } s = .inl s' → 0 < s'.res ∧ a < s'.res ∧ b < s'.res := by
  have mono : ∀ {s' : TFState}, s.res ≤ s'.res → 0 < s'.res ∧ a < s'.res ∧ b < s'.res := fun h =>
    ⟨lt_of_lt_of_le h0 h, lt_of_lt_of_le ha h, lt_of_lt_of_le hb h⟩
  cases hp : s.phase with
  | begin =>
    have e : ∀ c, tfStep { P with target := c } s = match tfBegin P s with | .ok s' => .inl s' | .error e => .inr (.error e) := by
      intro c
      unfold tfStep
      rw [hp]
      rfl
    refine ⟨by rw [e, e], fun s' hs => ?_⟩
    rw [e] at hs
    cases hbe : tfBegin P s with
    | error _ => rw [hbe] at hs; simp at hs
    | ok t =>
      rw [hbe] at hs
      simp only [Sum.inl.injEq] at hs
      subst hs
      obtain ⟨ys, dt1, sig, dur, he⟩ := tfBegin_ok P s t hbe
      exact mono (by rw [he])
  | search ys dt1 sig dur =>
    have e : ∀ c, tfStep { P with target := c } s =
        match tfSearch P s ys dt1 sig dur with | .ok s' => .inl s' | .error e => .inr (.error e) := by
      intro c
      unfold tfStep
      rw [hp]
      rfl
    refine ⟨by rw [e, e], fun s' hs => ?_⟩
    rw [e] at hs
    cases hbe : tfSearch P s ys dt1 sig dur with
    | error _ => rw [hbe] at hs; simp at hs
    | ok t =>
      rw [hbe] at hs
      simp only [Sum.inl.injEq] at hs
      subst hs
      rcases tfSearch_ok P s t ys dt1 sig dur hbe with he | ⟨ys', dt1', sig', he, -, -⟩
      · exact mono (by rw [he])
      · refine mono ?_
        rw [he]
        have := (relErr_le P.rnd hr (s.res * 2) (by positivity)).2
        refine le_trans ?_ this
        norm_num
        linarith
  | late dt1 dur =>
    have e : ∀ c, tfStep { P with target := c } s = tfLate { P with target := c } s dt1 dur := by
      intro c
      unfold tfStep
      rw [hp]
    have hc : ∀ c < s.res, tfLate { P with target := c } s dt1 dur = tfLate { P with target := s.res / 2 } s dt1 dur := by
      intro c hc
      have h2 : s.res / 2 < s.res := by linarith
      have hm : ∀ d < s.res, max (P.rnd (s.res / P.rnd (P.rnd (P.sep / P.duration) / resRefineFactor))) d =
          P.rnd (s.res / P.rnd (P.rnd (P.sep / P.duration) / resRefineFactor)) := fun d hd =>
        max_eq_left (hd.le.trans (hq s.res h0))
      have hcorr : ∀ d, tfCorrelate { P with target := d } s.bts s.res P.sep dur = tfCorrelate P s.bts s.res P.sep dur := fun _ => rfl
      unfold tfLate
      simp only [hcorr, if_neg hc.ne', if_neg h2.ne', hm c hc, hm _ h2]
    refine ⟨by rw [e, e, hc a ha, hc b hb], fun s' hs => ?_⟩
    rw [e] at hs
    obtain ⟨df1, -, -, -, he⟩ := tfLate_inl { P with target := a } s s' dt1 dur hs
    refine mono ?_
    rw [he]
    exact (hq s.res h0).trans (le_max_left _ _)

theorem run_target (P : TFParams) (hr : RelErr P.rnd)
    (hq : ∀ x, 0 < x → x ≤ P.rnd (x / P.rnd (P.rnd (P.sep / P.duration) / resRefineFactor))) (a b : ℚ) (fuel : Nat) (s : TFState)
    (h0 : 0 < s.res) (ha : a < s.res) (hb : b < s.res) :
    runLoop (tfStep { P with target := a }) fuel s = runLoop (tfStep { P with target := b }) fuel s := by
  induction fuel generalizing s with
  | zero => rfl
  | succ n ih =>
    obtain ⟨h1, h2⟩ := step_target P hr hq a b s h0 ha hb
    cases hs : tfStep { P with target := a } s with
    | inl s' =>
      rw [runLoop_step _ _ _ hs, runLoop_step _ _ _ (h1 ▸ hs)]
      obtain ⟨g0, g1, g2⟩ := h2 s' hs
      exact ih s' g0 g1 g2
    | inr r => rw [runLoop_stop _ _ _ hs, runLoop_stop _ _ _ (h1 ▸ hs)]

/-- A late part that finds the delay of the early part again does not end with a result, unless the resolution is the target or
the delay is too large for the guard rails. -/
theorem late_on (P : TFParams) (hr : RelErr P.rnd) (s : TFState) (dt1 dur : ℚ) (hres : s.res ≠ P.target) (hi : s.iter = 1 ∨ dt1 = 0)
    (hc : ∀ ys d, tfCorrelate P s.bts s.res P.sep dur = .ok (ys, d) → d = dt1) (v : ℚ × ℚ × List TFEntry) :
    tfLate P s dt1 dur ≠ .inr (.ok v) := by
  intro h
  have h0 := relErr_zero _ hr
  unfold tfLate at h
  split at h
  · simp at h
  cases hcc : tfCorrelate P s.bts s.res P.sep dur with
  | error e => rw [hcc] at h; simp at h
  | ok w =>
    obtain ⟨ys, dt2⟩ := w
    obtain rfl := hc ys dt2 hcc
    rw [hcc] at h
    simp only [sub_self, h0, zero_div] at h
    have hguard : ¬ (s.iter ≠ 1 ∧ (P.rnd (10 * max |s.dt| 1) < |dt2| ∨ P.rnd (10 * max |s.dt| 1) < |dt2| ∨
        P.rnd (10 * max |P.rnd (s.f - 1)| (P.rnd (1 / 10 ^ 9))) < |0|)) := by
      rintro ⟨g1, g2⟩
      rcases hi with hi | rfl
      · exact g1 hi
      · rw [abs_zero] at g2
        have n1 : 0 ≤ P.rnd (10 * max |s.dt| 1) := relErr_nonneg _ hr _ (by positivity)
        have n2 : 0 ≤ P.rnd (10 * max |P.rnd (s.f - 1)| (P.rnd (1 / 10 ^ 9))) :=
          relErr_nonneg _ hr _ (mul_nonneg (by norm_num) (le_max_of_le_left (abs_nonneg _)))
        rcases g2 with g2 | g2 | g2 <;> linarith
    rw [if_neg hguard] at h
    split at h <;> simp at h

/-- Delays are found, and none afterwards, at resolutions above the target: no result. -/
theorem delay_never (P : TFParams) (hrr : RelErr P.rnd) (d res : ℚ) (hd : DelayExact P d) (R : ℚ → Prop) (hR0 : R res)
    (hR : ∀ r, R r → R (nextRes P r)) (hRt : ∀ r, R r → r ≠ P.target)
    (hfirst : ∀ start, start = 0 ∨ start = P.sep → ∀ ys d',
      tfCorrelate P (P.ats.map (· + d)) res start (tfDuration P res) = .ok (ys, d') → d' = d)
    (hself : ∀ r start, R r → start = 0 ∨ start = P.sep → ∀ ys d',
      tfCorrelate P P.ats r start (tfDuration P r) = .ok (ys, d') → d' = 0)
    (hsig : ∀ ys sig, P.signif ys res = .ok sig → sig ≠ 0 ∧ P.threshold ≤ sig) (v : ℚ × ℚ × List TFEntry) (N : Nat) :
    timeFreq P N (P.ats.map (· + d)) res ≠ some (.ok v) := by
  intro h1
  have := runLoop_inv (tfStep P)
    (fun s => (s.iter = 1 ∧ s.bts = P.ats.map (· + d) ∧ s.res = res ∧ s.f = 1 ∧
        (s.phase = .begin ∨ (∃ ys sig, s.phase = .search ys d sig (tfDuration P res) ∧ sig ≠ 0 ∧ P.threshold ≤ sig) ∨
          s.phase = .late d (tfDuration P res))) ∨
      (1 < s.iter ∧ s.bts = P.ats ∧ R s.res ∧ s.f = 1 ∧
        (s.phase = .begin ∨ s.phase = .late 0 (tfDuration P s.res))))
    (fun r => ∀ v, r ≠ .ok v) ?_ ?_ N _ _ ?_ h1
  · exact this v rfl
  · rintro s s' (⟨e1, e2, e3, e5, hp | ⟨ys, sig, hp, hs1, hs2⟩ | hp⟩ | ⟨e1, e2, e3, e5, hp | hp⟩) hst
    · left
      unfold tfStep at hst
      rw [hp] at hst
      simp only at hst
      cases hb : tfBegin P s with
      | error e => rw [hb] at hst; simp at hst
      | ok t =>
        rw [hb] at hst
        simp only [Sum.inl.injEq] at hst
        subst hst
        unfold tfBegin at hb
        simp only [bind, Except.bind, pure, Except.pure, e1, e2, e3, if_true] at hb
        split at hb
        · cases hb
        · rename_i v hv
          obtain ⟨ys, d'⟩ := v
          have hd' := hfirst 0 (Or.inl rfl) ys d' hv
          simp only at hb
          split at hb
          · cases hb
          · rename_i sig hsg
            simp only [Except.ok.injEq] at hb
            obtain ⟨hs1, hs2⟩ := hsig ys sig hsg
            subst hb
            exact ⟨rfl, rfl, rfl, e5, Or.inr (Or.inl ⟨ys, sig, by rw [hd'], hs1, hs2⟩)⟩
    · left
      unfold tfStep at hst
      rw [hp] at hst
      simp only [tfSearch, if_neg hs1, if_pos hs2, Sum.inl.injEq] at hst
      subst hst
      exact ⟨e1, e2, e3, e5, Or.inr (Or.inr rfl)⟩
    · right
      unfold tfStep at hst
      rw [hp] at hst
      simp only at hst
      obtain ⟨g1, g2, -, g4, g5, g6⟩ := (late_same P hd.rnd0 hd.rnd1 s e5 d _ (by
        intro ys d' hc
        rw [e2, e3] at hc
        exact hfirst P.sep (Or.inr rfl) ys d' hc)).1 s' hst
      refine ⟨by omega, ?_, ?_, g4, Or.inl g6⟩
      · rw [g1, e2, hd.bts]
      · rw [g2, e3]; exact hR res hR0
    · right
      unfold tfStep at hst
      rw [hp] at hst
      simp only at hst
      cases hb : tfBegin P s with
      | error e => rw [hb] at hst; simp at hst
      | ok t =>
        rw [hb] at hst
        simp only [Sum.inl.injEq] at hst
        subst hst
        unfold tfBegin at hb
        simp only [bind, Except.bind, pure, Except.pure, e2, if_neg (show ¬ s.iter = 1 by omega)] at hb
        split at hb
        · cases hb
        · rename_i v hv
          obtain ⟨ys, d'⟩ := v
          have hd' := hself s.res 0 e3 (Or.inl rfl) ys d' hv
          simp only at hb
          split at hb
          · cases hb
          · simp only [Except.ok.injEq] at hb
            subst hb
            exact ⟨e1, rfl, e3, e5, Or.inr (by rw [hd'])⟩
    · right
      unfold tfStep at hst
      rw [hp] at hst
      simp only at hst
      obtain ⟨g1, g2, -, g4, g5, g6⟩ := (late_same P hd.rnd0 hd.rnd1 s e5 0 _ (by
        intro ys d' hc
        rw [e2] at hc
        exact hself s.res P.sep e3 (Or.inr rfl) ys d' hc)).1 s' hst
      refine ⟨by omega, ?_, ?_, g4, Or.inl g6⟩
      · rw [g1, e2, hd.ats]
      · rw [g2]; exact hR _ e3
  · rintro s r (⟨e1, e2, e3, e5, hp | ⟨ys, sig, hp, hs1, hs2⟩ | hp⟩ | ⟨e1, e2, e3, e5, hp | hp⟩) hst v rfl
    · unfold tfStep at hst
      rw [hp] at hst
      cases hb : tfBegin P s <;> rw [hb] at hst <;> simp at hst
    · unfold tfStep at hst
      rw [hp] at hst
      simp [tfSearch, if_neg hs1, if_pos hs2] at hst
    · unfold tfStep at hst
      rw [hp] at hst
      refine late_on P hrr s d _ (by rw [e3]; exact hRt _ hR0) (Or.inl e1) ?_ v hst
      intro ys d' hc
      rw [e2, e3] at hc
      exact hfirst P.sep (Or.inr rfl) ys d' hc
    · unfold tfStep at hst
      rw [hp] at hst
      cases hb : tfBegin P s <;> rw [hb] at hst <;> simp at hst
    · unfold tfStep at hst
      rw [hp] at hst
      refine late_on P hrr s 0 _ (hRt _ e3) (Or.inr rfl) ?_ v hst
      intro ys d' hc
      rw [e2] at hc
      exact hself s.res P.sep e3 (Or.inr rfl) ys d' hc
  · exact Or.inl ⟨rfl, rfl, rfl, rfl, Or.inl rfl⟩

end Fp
