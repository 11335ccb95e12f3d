import Verif.Lemmas.FpConverge
import Verif.Lemmas.FpMerged

/-! # C105: the refinements get to the final resolution -/
namespace Fp
open Spec

/-- The invariant of a run after the search for the first peak. -/
def ConvInv (P : TFParams) (bts : List ℚ) (res : ℚ) (j : Nat) (φ τ E0 : ℚ) (s : TFState) : Prop :=
  s.trace.length + 1 = s.iter ∧ History P bts res j s.trace ∧ RoundInv P bts s.f s.dt s.trace ∧
  s.bts = bts.map (composedR P.rnd P.rndA s.trace) ∧ s.res = resolutionAt P res j s.trace.length ∧
  (s.trace ≠ [] → |composedR P.rnd P.rndA s.trace (targetClock φ τ 0)| ≤ 102 / 100 * E0 ∧
    |composedR P.rnd P.rndA s.trace (targetClock φ τ P.sep) - P.sep| ≤ 102 / 100 * E0) ∧
  (match s.phase with
    | .begin => s.trace ≠ []
    | .search _ _ _ _ => False
    | .late dt1 dur => dur = windowAt P res j s.trace.length ∧ EarlyDelay P s.bts res j s.trace.length dt1)

/-- What is claimed of the result of a run. -/
def ConvRes (P : TFParams) (bts : List ℚ) (res : ℚ) (j L : Nat) (r : TFResult) : Prop :=
  ∃ dt df trace e, r = .ok (dt, df, trace ++ [e]) ∧ History P bts res j trace ∧ trace.length ≤ L ∧
    resolutionAt P res j trace.length = P.target ∧ e.bts = bts.map (composedR P.rnd P.rndA trace) ∧ FoundAt P res j trace.length e

theorem history_length {P : TFParams} {bts : List ℚ} {res : ℚ} {j : Nat} {pre : List TFEntry} {L : Nat} (h : History P bts res j pre)
    (hL : resolutionAt P res j L = P.target) : pre.length ≤ L := by
  by_contra hc
  push Not at hc
  exact (h L pre[L] (List.getElem?_eq_getElem hc)).2.2 hL

theorem resolutionAt_zero {P : TFParams} {res : ℚ} (hr : P.rnd = fl 53) (hres : P.rnd res = res) (j : Nat) :
    resolutionAt P res j 0 = 2 ^ j * res ∧ P.rnd (2 ^ j * res) = 2 ^ j * res := by
  unfold resolutionAt
  rw [Function.iterate_zero, id]
  induction j with
  | zero => simpa using hres
  | succ j ih =>
    have h2 := C93_doubles.2.1 (2 ^ j * res) (by rw [← hr]; exact ih.2)
    rw [← hr] at h2
    rw [Function.iterate_succ_apply', ih.1, h2, pow_succ]
    refine ⟨by ring, ?_⟩
    rw [show 2 ^ j * 2 * res = 2 ^ j * res * 2 by ring]
    exact h2

theorem resolutionAt_pos {P : TFParams} {res : ℚ} (hr : P.rnd = fl 53) (hres : 0 < res ∧ P.rnd res = res) (ht : 0 < P.target)
    (j k : Nat) : 0 < resolutionAt P res j k := by
  rcases Nat.eq_zero_or_pos k with rfl | hk
  · rw [(resolutionAt_zero hr hres.2 j).1]
    have := hres.1
    positivity
  · exact lt_of_lt_of_le ht (resolutionAt_ge P res j k hk)

theorem composedR_nil (P : TFParams) : composedR P.rnd P.rndA [] = id := by funext t; rfl

section
variable {P : TFParams} {bts : List ℚ} {res : ℚ} {j : Nat} {φ τ B E0 E1 : ℚ} {δ : Nat → ℚ} {w : Nat → Nat} {L : Nat}

/-- The early delay of an iteration. -/
theorem early_near (C : RunBase P bts res j φ τ B E0 E1 δ w L) {pre : List TFEntry}
    (hclear : pre ≠ [] → ClearAt P (bts.map (composedR P.rnd P.rndA pre)) (resolutionAt P res j pre.length) 0
      (composedR P.rnd P.rndA pre (targetClock φ τ 0) - 0) (δ pre.length) (w pre.length)) {d r : ℚ}
    (hr : r = resolutionAt P res j pre.length) (h : EarlyDelay P (bts.map (composedR P.rnd P.rndA pre)) res j pre.length d) :
    |d - composedR P.rnd P.rndA pre (targetClock φ τ 0)| <
      r + δ pre.length + (|composedR P.rnd P.rndA pre (targetClock φ τ 0)| + (r + δ pre.length)) / 2 ^ 53 ∧
    |composedR P.rnd P.rndA pre (targetClock φ τ 0)| + (r + δ pre.length) ≤ P.numBins * r / 2 := by
  unfold EarlyDelay at h
  by_cases hnil : pre = []
  · subst hnil
    rw [composedR_nil] at h ⊢
    rw [List.map_id] at h
    rw [List.length_nil] at *
    rw [if_pos rfl] at h
    obtain ⟨ys, d0, h1, h2⟩ := h
    rw [(resolutionAt_zero C.rnd C.resolution.2 j).1] at hr
    obtain ⟨ys', d0', e1, -, -, e4⟩ := clear_merged P C.rnd C.rndA C.bins.2 C.bins.1 bts res _ _ j _ C.resolution.1 C.merging.1 C.clearEarly
    rw [h1] at e1
    simp only [Except.ok.injEq, Prod.mk.injEq] at e1
    rw [← e1.1] at e4
    have e0 : id (targetClock φ τ 0) = τ := by simp [targetClock]
    rw [e0, hr]
    refine ⟨e4 d h2.2.2.2.2, C.clearEarly.2.2.2.trans ?_⟩
    have hp1 : (1 : ℚ) ≤ 2 ^ j := one_le_pow₀ (by norm_num)
    have hres := C.resolution.1
    have : res ≤ 2 ^ j * res := by nlinarith
    have : (P.numBins : ℚ) * res ≤ P.numBins * (2 ^ j * res) := mul_le_mul_of_nonneg_left this (by positivity)
    linarith
  · rw [if_neg (by simpa using hnil)] at h
    obtain ⟨ys, hy⟩ := h
    obtain ⟨⟨y1, d1, p1, p2⟩, p3⟩ := clear_correlate P C.rnd C.rndA C.bins.2 C.bins.1 _ _ 0 _ _ _
      (resolutionAt_pos C.rnd C.resolution C.target _ _) (hclear hnil)
    rw [hy] at p1
    simp only [Except.ok.injEq, Prod.mk.injEq] at p1
    rw [← p1.2, sub_zero, ← hr] at p2
    rw [sub_zero, ← hr] at p3
    exact ⟨p2, p3⟩

/-- The late delay of an iteration. -/
theorem late_near (C : RunBase P bts res j φ τ B E0 E1 δ w L) {pre : List TFEntry}
    (hclear : pre ≠ [] → ClearAt P (bts.map (composedR P.rnd P.rndA pre)) (resolutionAt P res j pre.length) P.sep
      (composedR P.rnd P.rndA pre (targetClock φ τ P.sep) - P.sep) (δ pre.length) (w pre.length)) {r : ℚ}
    (hr : r = resolutionAt P res j pre.length) :
    (∃ ys dt2, tfCorrelate P (bts.map (composedR P.rnd P.rndA pre)) r P.sep (windowAt P res j pre.length) = .ok (ys, dt2) ∧
      |dt2 - (composedR P.rnd P.rndA pre (targetClock φ τ P.sep) - P.sep)| <
        r + δ pre.length + (|composedR P.rnd P.rndA pre (targetClock φ τ P.sep) - P.sep| + (r + δ pre.length)) / 2 ^ 53) ∧
    |composedR P.rnd P.rndA pre (targetClock φ τ P.sep) - P.sep| + (r + δ pre.length) ≤ P.numBins * r / 2 := by
  unfold windowAt
  by_cases hnil : pre = []
  · subst hnil
    rw [composedR_nil, List.map_id]
    rw [List.length_nil] at *
    rw [if_pos rfl, duration_float P C.rnd C.rndA res]
    rw [(resolutionAt_zero C.rnd C.resolution.2 j).1] at hr
    have hres := C.resolution.1
    rw [hr]
    exact clear_in P C.rnd C.rndA C.bins.2 C.bins.1 bts _ _ P.sep _ _ _ (by positivity) C.clearLate
  · rw [if_neg (by simpa using hnil), ← hr]
    have := hclear hnil
    rw [← hr] at this
    exact clear_correlate P C.rnd C.rndA C.bins.2 C.bins.1 _ _ P.sep _ _ _
      (by rw [hr]; exact resolutionAt_pos C.rnd C.resolution C.target _ _) this

/-- The checks of an iteration in the phase of the late correlation. -/
theorem conv_late (C : ClearRun P bts res j φ τ B E0 E1 δ w L) {s : TFState} {dt1 dur : ℚ} (h : ConvInv P bts res j φ τ E0 s)
    (hp : s.phase = .late dt1 dur) :
    s.trace.length ≤ L ∧ |dt1| ≤ ntpMaxDelay ∧ ∃ ys2 dt2, tfCorrelate P s.bts s.res P.sep dur = .ok (ys2, dt2) ∧
      ∃ df1, df1 = P.rnd (P.rnd (dt2 - dt1) / P.sep) ∧
      FoundAt P res j s.trace.length { bts := s.bts, dt1 := dt1, df1 := df1 } ∧
      |P.rnd (P.rnd (s.f * P.rnd (1 + df1)) - 1)| < maxFcorr ∧
      (s.iter ≠ 1 → |dt1| ≤ P.rnd (10 * max |s.dt| 1) ∧ |dt2| ≤ P.rnd (10 * max |s.dt| 1) ∧
        |df1| ≤ P.rnd (10 * max |P.rnd (s.f - 1)| (P.rnd (1 / 10 ^ 9)))) ∧
      |composedR P.rnd P.rndA (s.trace ++ [{ bts := s.bts, dt1 := dt1, df1 := df1 }]) (targetClock φ τ 0)| ≤ 102 / 100 * E0 ∧
      |composedR P.rnd P.rndA (s.trace ++ [{ bts := s.bts, dt1 := dt1, df1 := df1 }]) (targetClock φ τ P.sep) - P.sep| ≤
        102 / 100 * E0 := by
  obtain ⟨hi, hh, hR, hb, hres, hc, hph⟩ := h
  rw [hp] at hph
  obtain ⟨rfl, hearly⟩ := hph
  have hkL := history_length hh C.last
  have hrel : RelErr P.rnd := by rw [C.rnd]; exact C76_arithmetic.1
  have hrelA : RelErr P.rndA := by rw [C.rndA]; exact C76_arithmetic.2
  have hsep : 0 < P.sep := by
    refine lt_of_lt_of_le ?_ C.separation
    have := C.duration
    unfold resRefineFactor
    positivity
  obtain ⟨r, hr⟩ : ∃ r, r = resolutionAt P res j s.trace.length := ⟨_, rfl⟩
  have hr0 : 0 < r := by rw [hr]; exact resolutionAt_pos C.rnd C.resolution C.target _ _
  have hearly' := hearly
  rw [hb] at hearly'
  obtain ⟨p2, p3⟩ := early_near C.toRunBase (fun h => C.clear _ h hh 0 (Or.inl rfl)) hr hearly'
  obtain ⟨⟨y2, dt2, q1, q2⟩, q3⟩ := late_near C.toRunBase (fun h => C.clear _ h hh P.sep (Or.inr rfl)) hr
  rw [← hb] at q1
  rw [← hr] at hres
  obtain ⟨df1, hdf⟩ : ∃ df1, df1 = P.rnd (P.rnd (dt2 - dt1) / P.sep) := ⟨_, rfl⟩
  obtain ⟨s1, s2, s3⟩ := delays_near hrel hsep (by positivity) p2 p3 q2 q3 hdf
  obtain ⟨n1, n2, n3⟩ := C.times
  have hB : 0 ≤ B := (abs_nonneg _).trans n1
  have hround : ∀ t, |t| ≤ B → |s.f * composedR P.rnd P.rndA s.trace t + s.dt - t| ≤ E1 / 200 := by
    intro t ht
    have hfew := C.few
    refine ((hR.2.1 (by omega)).2 t).trans ?_
    have hk : (s.trace.length : ℚ) ≤ L + 1 := by
      have : s.trace.length ≤ L + 1 := by omega
      exact_mod_cast this
    have h1 : (s.trace.length : ℚ) * (|t| + s.trace.length * (101 * 10 ^ 6)) ≤ (L + 1) * (B + (L + 1) * (101 * 10 ^ 6)) := by
      apply mul_le_mul hk _ (by positivity) (by positivity)
      have := mul_le_mul_of_nonneg_right hk (show (0 : ℚ) ≤ 101 * 10 ^ 6 by norm_num)
      linarith
    have h2 := C.rounding
    have h3 := div_le_div_of_nonneg_right h1 (show (0 : ℚ) ≤ 2 ^ 50 by norm_num)
    refine h3.trans ?_
    have h4 : ((L : ℚ) + 1) * (B + (L + 1) * (101 * 10 ^ 6)) / 2 ^ 50 = (L + 1) * (B + (L + 1) * (101 * 10 ^ 6)) / 2 ^ 49 / 2 := by
      rw [div_div]; norm_num
    rw [h4]
    linarith
  have e0 : targetClock φ τ 0 = τ := by unfold targetClock; ring
  have g0 := hround _ n1
  have g1 := hround _ n2
  have hsep2 : P.sep / 2 ^ 49 ≤ E1 / 100 := by
    refine le_trans (div_le_div_of_nonneg_right ?_ (by norm_num)) C.rounding
    have hL0 : (0 : ℚ) ≤ L := by positivity
    have : B ≤ (L + 1) * (B + (L + 1) * (101 * 10 ^ 6)) := by
      have t1 : 0 ≤ (L : ℚ) * B := by positivity
      have t2 : 0 ≤ ((L : ℚ) + 1) * ((L + 1) * (101 * 10 ^ 6)) := by positivity
      nlinarith
    linarith
  rw [e0] at g0
  have herr : r + δ s.trace.length + P.numBins * r / 2 ^ 50 = errorAt P res j δ s.trace.length := by rw [hr]; rfl
  have := iteration_accepted (first := s.trace = []) hrel hrelA hsep hR.1 g0 (by
      unfold targetClock at g1 ⊢
      exact g1) (by rw [e0] at s1; exact s1) s2 s3
    (by
      rw [herr]
      rcases Nat.eq_zero_or_pos s.trace.length with hz | hz
      · rw [hz]
        exact C.errorFirst
      · exact (C.errorLater _ hz hkL).trans C.errors)
    (fun hne => by
      rw [herr]
      exact C.errorLater _ (List.length_pos_iff.mpr hne) hkL) C.errors le_rfl hsep2
    (fun hnil => by rw [hnil]; rfl) (fun hne => by
      have := hc hne
      rw [e0] at this
      exact this) C.offset C.frequency C.guardDelay C.guardFrequency
  obtain ⟨t1, t2, t3, t4, t5, -, -⟩ := this
  refine ⟨hkL, t1, y2, dt2, by rw [hres]; exact q1, df1, hdf, ⟨hearly, y2, dt2, by rw [← hr]; exact q1, hdf⟩, t2, fun hne => t3 ?_, ?_, ?_⟩
  · intro hnil
    rw [hnil] at hi
    exact hne hi.symm
  · rw [composedR_append, e0]
    exact t4
  · rw [composedR_append]
    exact t5

end

theorem history_append {P : TFParams} {bts : List ℚ} {res : ℚ} {j : Nat} {pre : List TFEntry} {x : TFEntry}
    (h : History P bts res j pre)
    (h1 : x.bts = bts.map (composedR P.rnd P.rndA pre)) (h2 : FoundAt P res j pre.length x)
    (h3 : resolutionAt P res j pre.length ≠ P.target) : History P bts res j (pre ++ [x]) := by
  intro i e he
  rcases Nat.lt_or_ge i pre.length with hi | hi
  · rw [List.getElem?_append_left hi] at he
    rw [List.take_append_of_le_length hi.le]
    exact h i e he
  · have hlt := (List.getElem?_eq_some_iff.mp he).1
    rw [List.length_append, List.length_singleton] at hlt
    obtain rfl : i = pre.length := by omega
    rw [List.getElem?_append_right le_rfl, Nat.sub_self] at he
    obtain rfl : x = e := by simpa using he
    rw [List.take_left']
    · exact ⟨h1, h2, h3⟩
    · rfl

/-- The search for the first peak of a run. -/
theorem conv_first {P : TFParams} {bts : List ℚ} {res : ℚ} {j : Nat} {φ τ B E0 E1 : ℚ} {δ : Nat → ℚ} {w : Nat → Nat} {L : Nat}
    (C : ClearRun P bts res j φ τ B E0 E1 δ w L) :
    ∃ d, EarlyDelay P bts res j 0 d ∧ ∀ fuel, timeFreq P (fuel + (j + 2)) bts res = runLoop (tfStep P) fuel
      { bts := bts, res := 2 ^ j * res, dt := 0, f := 1, iter := 1, phase := .late d (tfDuration P res), trace := [] } := by
  obtain ⟨ys, d0, e1, e2, e3, -⟩ := clear_merged P C.rnd C.rndA C.bins.2 C.bins.1 bts res _ _ j _ C.resolution.1 C.merging.1 C.clearEarly
  obtain ⟨hacc, hrej⟩ := C.significant ys d0 e1
  obtain ⟨sig, hs1, hs2, hs3⟩ := hacc
  have hne : ys ≠ [] := by
    rintro rfl
    have := C.bins.1
    simp at e2
    omega
  have h0 : P.rnd 0 = 0 := by rw [C.rnd]; exact C93_doubles.1
  obtain ⟨-, d, hd, hrun⟩ := reach_search P (by rw [C.rnd]; exact C93_doubles.2.1) bts res C.resolution.2 ys d0 hne e1 j sig C.merging.2
    (by rw [e2]; exact C.merging.1) C.resolution.1.le hrej hs1
  have hpeak : PeakDelay P.rnd (merged ys j) (2 ^ j * res) d := by
    rcases hd with ⟨rfl, rfl⟩ | ⟨v, hv, rfl⟩
    · have hm : merged ys 0 = ys := ((mergeTimes_merged 0 ys ys rfl).2).symm
      rw [hm]
      simpa using e3
    · exact peakDelay_iff P.rnd h0 _ _ v hv
  refine ⟨d, ?_, fun fuel => ?_⟩
  · unfold EarlyDelay
    rw [if_pos rfl]
    exact ⟨ys, d0, e1, ⟨sig, hs1, hs2, hs3⟩, hrej, C.merging.2, by rw [e2]; exact C.merging.1, hpeak⟩
  · rw [show fuel + (j + 2) = (fuel + 1) + (j + 1) by omega, hrun, runLoop_step]
    unfold tfStep tfSearch
    simp only
    rw [if_neg hs2, if_pos hs3]

theorem conv_run {P : TFParams} {bts : List ℚ} {res : ℚ} {j : Nat} {φ τ B E0 E1 : ℚ} {δ : Nat → ℚ} {w : Nat → Nat} {L : Nat}
    (C : ClearRun P bts res j φ τ B E0 E1 δ w L) :
    ∃ r, Returns (fun fuel => timeFreq P fuel bts res) r ∧ ConvRes P bts res j L r := by
  have hrel : RelErr P.rnd := by rw [C.rnd]; exact C76_arithmetic.1
  have hrelA : RelErr P.rndA := by rw [C.rndA]; exact C76_arithmetic.2
  obtain ⟨r, hret⟩ := C34_terminates P hrel C.duration C.target C.separation bts res C.resolution.1
  refine ⟨r, hret, ?_⟩
  obtain ⟨d, hd, hfirst⟩ := conv_first C
  obtain ⟨N, hN⟩ := hret
  have hrun := hN (N + (j + 2)) (by omega)
  dsimp only at hrun
  rw [hfirst] at hrun
  refine runLoop_inv (tfStep P) (ConvInv P bts res j φ τ E0) (ConvRes P bts res j L) ?_ ?_ N _ _ ?_ hrun
  · intro s s' hInv hst
    cases hp : s.phase with
    | begin =>
      obtain ⟨hi, hh, hR, hb, hres, hc, hph⟩ := hInv
      unfold tfStep at hst
      rw [hp] at hst hph
      dsimp only at hst hph
      cases hb1 : tfBegin P s with
      | error e => rw [hb1] at hst; cases hst
      | ok s1 =>
        rw [hb1] at hst
        obtain rfl : s1 = s' := by injection hst
        unfold tfBegin at hb1
        simp only [bind, Except.bind, pure, Except.pure] at hb1
        split at hb1
        · cases hb1
        rename_i v hv
        split at hb1
        · cases hb1
        rename_i sig hsig
        injection hb1 with hb1
        subst hb1
        refine ⟨hi, hh, hR, hb, hres, hc, ?_⟩
        have hl := List.length_pos_iff.mpr hph
        have h1 : s.iter ≠ 1 := by omega
        rw [if_neg h1]
        dsimp only
        unfold windowAt EarlyDelay
        rw [if_neg hl.ne', if_neg hl.ne', ← hres]
        exact ⟨rfl, v.1, hv⟩
    | search ys dt1 sig dur =>
      obtain ⟨-, -, -, -, -, -, hph⟩ := hInv
      rw [hp] at hph
      exact absurd hph (by simp)
    | late dt1 dur =>
      obtain ⟨-, k1, ys2, dt2, k2, df1, k3, k4, k5, k6, k7, k8⟩ := conv_late C hInv hp
      obtain ⟨hi, hh, hR, hb, hres, hc, hph⟩ := hInv
      unfold tfStep at hst
      rw [hp] at hst
      dsimp only at hst
      unfold tfLate at hst
      rw [if_neg (not_lt.mpr k1), k2] at hst
      dsimp only at hst
      rw [← k3] at hst
      split at hst
      · cases hst
      split at hst
      · cases hst
      split at hst
      · cases hst
      rename_i hnt
      obtain rfl : _ = s' := by injection hst
      refine ⟨by simp [← hi], history_append hh hb k4 (by rw [← hres]; exact hnt),
        roundInv_step P hrel hrelA bts s.bts s.f s.dt dt1 df1 s.trace hR hb k1 k5, ?_, ?_, fun _ => ⟨k7, k8⟩, by simp⟩
      · dsimp only
        rw [hb, List.map_map]
        apply List.map_congr_left
        intro t _
        simp only [Function.comp, composedR_append]
      · dsimp only
        rw [List.length_append, List.length_singleton, hres]
        unfold resolutionAt
        rw [Function.iterate_succ_apply']
        rfl
  · intro s r hInv hst
    cases hp : s.phase with
    | begin =>
      exfalso
      obtain ⟨hi, hh, hR, hb, hres, hc, hph⟩ := hInv
      rw [hp] at hph
      dsimp only at hph
      obtain ⟨⟨y1, d1, p1, p2⟩, p3⟩ := clear_correlate P C.rnd C.rndA C.bins.2 C.bins.1 _ _ 0 _ _ _
        (resolutionAt_pos C.rnd C.resolution C.target _ _) (C.clear s.trace hph hh 0 (Or.inl rfl))
      rw [← hb, ← hres] at p1
      have hlen := clear_length P C.rnd C.rndA C.bins.2 C.bins.1 _ _ 0 _ _ _
        (resolutionAt_pos C.rnd C.resolution C.target _ _) (C.clear s.trace hph hh 0 (Or.inl rfl)) y1 d1 (by rw [← hb, ← hres]; exact p1)
      obtain ⟨sig, hsig⟩ := C.significance _ _ _ _ p1 hlen
      unfold tfStep at hst
      rw [hp] at hst
      dsimp only at hst
      unfold tfBegin at hst
      simp only [bind, Except.bind, pure, Except.pure, p1, hsig] at hst
      cases hst
    | search ys dt1 sig dur =>
      obtain ⟨-, -, -, -, -, -, hph⟩ := hInv
      rw [hp] at hph
      exact absurd hph (by simp)
    | late dt1 dur =>
      obtain ⟨k0, k1, ys2, dt2, k2, df1, k3, k4, k5, k6, k7, k8⟩ := conv_late C hInv hp
      obtain ⟨hi, hh, hR, hb, hres, hc, hph⟩ := hInv
      unfold tfStep at hst
      rw [hp] at hst
      dsimp only at hst
      unfold tfLate at hst
      rw [if_neg (not_lt.mpr k1), k2] at hst
      dsimp only at hst
      rw [← k3] at hst
      split at hst
      · rename_i hg
        exfalso
        obtain ⟨j1, j2, j3⟩ := k6 hg.1
        rcases hg.2 with hx | hx | hx <;> linarith
      split at hst
      · rename_i hg
        exact absurd hg (not_le.mpr k5)
      split at hst
      · rename_i hnt
        injection hst with hst
        exact ⟨_, _, s.trace, _, hst.symm, hh, k0, by rw [← hres]; exact hnt, hb, k4⟩
      · cases hst
  · refine ⟨rfl, fun i e he => by simp at he, ⟨by norm_num, ?_, by simp, by simp⟩, ?_, ?_, fun hc => absurd rfl hc, ?_, ?_⟩
    · intro _
      simp [composedR]
    · dsimp only
      rw [composedR_nil, List.map_id]
    · exact ((resolutionAt_zero C.rnd C.resolution.2 j).1).symm
    · simp [windowAt]
    · exact hd

/-- **C105** If the true coincidences stand out in every iteration (`ClearRun`, with `j` mergings of bins in the first one),
`time_freq` returns a result, its last iteration is one at the final resolution, and the result maps every target time to within
about the final resolution and the jitter `δ` of the reference time, plus twice that per separation of the windows. -/
theorem C105_converges_partial (P : TFParams) (bts : List ℚ) (res : ℚ) (j : Nat) (φ τ B E0 E1 : ℚ) (δ : Nat → ℚ) (w : Nat → Nat)
    (L : Nat) (C : ClearRun P bts res j φ τ B E0 E1 δ w L) :
    ∃ dt df trace e, Returns (fun fuel => timeFreq P fuel bts res) (.ok (dt, df, trace ++ [e])) ∧ trace.length ≤ L ∧
      resolutionAt P res j trace.length = P.target ∧ FoundAt P res j trace.length e ∧
      ∀ ε R, ε = P.target + δ trace.length + P.numBins * P.target / 2 ^ 50 →
      R = (trace.length + 1) * (B + (trace.length + 1) * (101 * 10 ^ 6)) / 2 ^ 49 → ∀ a, 0 ≤ a → |targetClock φ τ a| ≤ B →
        |corrected dt df (targetClock φ τ a) - a| ≤ (ε + R + 2 * (ε + R) * (a / P.sep)) * (1 + 1 / 2 ^ 10) + 3 * R := by
  obtain ⟨r, hret, dt, df, trace, e, rfl, hh, hL, hres, hb, hfound⟩ := conv_run C
  refine ⟨dt, df, trace, e, hret, hL, hres, hfound, ?_⟩
  rintro ε R rfl hR a ha hBa
  have hrel : RelErr P.rnd := by rw [C.rnd]; exact C76_arithmetic.1
  have hrelA : RelErr P.rndA := by rw [C.rndA]; exact C76_arithmetic.2
  have hsep : 0 < P.sep := by
    refine lt_of_lt_of_le ?_ C.separation
    have := C.duration
    unfold resRefineFactor
    positivity
  have ht := C.target
  obtain ⟨hearly, ys2, dt2, hc2, hdf⟩ := hfound
  rw [hb] at hearly hc2
  obtain ⟨p2, p3⟩ := early_near C.toRunBase (fun h => C.clear _ h hh 0 (Or.inl rfl)) hres.symm hearly
  obtain ⟨⟨y2, d2, q1, q2⟩, q3⟩ := late_near C.toRunBase (fun h => C.clear _ h hh P.sep (Or.inr rfl)) hres.symm
  rw [← hres, hc2] at q1
  simp only [Except.ok.injEq, Prod.mk.injEq] at q1
  rw [← q1.2] at q2
  obtain ⟨s1, -, s2⟩ := delays_near hrel hsep (by positivity) p2 p3 q2 q3 hdf
  have hfew := C.few
  exact C63_rounded P hrel hrelA hsep bts res dt df trace e φ τ _ B R hret (by omega) hR s1 s2 C.times.1 C.times.2.1 a ha hBa

/-! ## Helpers for instances -/

theorem peakDelay_unique {rnd : ℚ → ℚ} {zs : List ℚ} {r d d' : ℚ} (h : PeakDelay rnd zs r d) (h' : PeakDelay rnd zs r d') : d = d' := by
  obtain ⟨p, h1, h2⟩ := h
  obtain ⟨p', h1', h2'⟩ := h'
  obtain rfl := firstMax_unique h1 h1'
  rcases h2 with ⟨a, rfl⟩ | ⟨a, rfl⟩ <;> rcases h2' with ⟨b, rfl⟩ | ⟨b, rfl⟩
  · rfl
  · omega
  · omega
  · rfl

theorem earlyDelay_eq {P : TFParams} (h0 : P.rnd 0 = 0) {bts : List ℚ} {res d d' : ℚ} {j : Nat} (h : EarlyDelay P bts res j 0 d)
    (hc : (tfCorrelate P bts res 0 (tfDuration P res)).map (fun v => (getTimingDelayFft (merged v.1 j)
      ((List.range (merged v.1 j).length).map fun k : Nat => P.rnd ((k : ℚ) * (2 ^ j * res)))).map Prod.fst) = .ok (.ok d')) : d = d' := by
  unfold EarlyDelay at h
  rw [if_pos rfl] at h
  obtain ⟨ys, d0, h1, h2⟩ := h
  rw [h1] at hc
  simp only [Except.map, Except.ok.injEq] at hc
  split at hc
  · cases hc
  · rename_i v hv
    simp only [Except.ok.injEq] at hc
    rw [← hc]
    exact peakDelay_unique h2.2.2.2.2 (peakDelay_iff P.rnd h0 _ _ v hv)

/-- Without mergings the condition for the first early correlation is that for the others. -/
theorem clearMerged_zero {P : TFParams} {bts : List ℚ} {res D δ : ℚ} {w : Nat} (h : ClearAt P bts res 0 D δ w) :
    ClearMerged P bts res 0 D δ w := by
  obtain ⟨h1, ⟨h2, h3, h4⟩, ⟨h5, h6⟩, h7⟩ := h
  have e : ∀ (a b : List ℚ) (k : ℤ), pairsInBlock a b P.numBins res 0 k = pairsAt a b P.numBins res k := by
    intro a b k
    simp [pairsInBlock]
  refine ⟨h1, ⟨by simpa using h2, h3, fun k hk hbad => ?_⟩, ⟨h5, fun k hk => ?_⟩, by simpa using h7⟩
  · rw [e]
    simp only [pow_zero, Nat.div_one, one_mul] at hk hbad
    exact h4 k hk hbad
  · rw [e]
    simp only [pow_zero, Nat.div_one] at hk
    have hk' : k < (P.xcorr (histogram (inWindowR P.rndA 0 (acqDurationFl P.numBins res P.duration P.endTime) P.ats) P.numBins res)
      (histogram (inWindowR P.rndA 0 (acqDurationFl P.numBins res P.duration P.endTime) bts) P.numBins res)).length := by
      rw [h5]; exact hk
    have := h6 k _ (List.getElem?_eq_getElem hk')
    have e2 : ∀ (ys : List ℚ) (h : k < ys.length), blockSum ys 0 k = ys[k] := by
      intro ys h
      unfold blockSum
      simp [List.take_one, List.head?_drop, List.getElem?_eq_getElem h]
    rw [e2 _ hk']
    exact this

/-- A check of `StandsOutMerged`, where `near` are the blocks around `D`. -/
theorem standsOutMerged_check {a b : List ℚ} {n : Nat} {res D δ : ℚ} {j w : Nat} (near : List Nat)
    (h1 : 2 * δ + 2 * (2 ^ j * res) ≤ w * (2 ^ j * res)) (h2 : 0 < pairsNear a b D δ)
    (h3 : ∀ k ∈ near, |(k : ℚ) * (2 ^ j * res) - D| < 2 ^ j * res + δ)
    (h4 : ∀ k : Nat, k < n / 2 ^ j → k ∈ near ∨ w * pairsInBlock a b n res j k < pairsNear a b D δ) :
    StandsOutMerged a b n res j D δ w := by
  refine ⟨h1, h2, fun k hk hbad => ?_⟩
  rcases h4 k hk with h | h
  · exact absurd ⟨0, by simpa using h3 k h⟩ hbad
  · exact h

/-! ## Instance: four common events in each window, a jitter of 1/8 ns and one other event; the peak is accepted after one merging -/

/-- A correlation with an error of 1/8 in every bin. -/
def convXcorr (A B : List Nat) : List ℚ := (roughXcorr A B).map (· - 1 / 8)

def convParams : TFParams :=
  { ats := [2, 3, 6, 8, 1000002, 1000003, 1000006, 1000008], numBins := 64, target := 1 / 2, threshold := 6, sep := 1000000,
    duration := 64, endTime := 1000008, rnd := fl 53, rndA := fl 64, xcorr := convXcorr,
    signif := fun ys _ => .ok (if ys.length = 64 then 1 else 10) }

def convTarget : List ℚ := [5, 49 / 8, 9, 11, 20, 1000015, 1000016, 8000153 / 8, 1000021, 1000030]

def convFirst : TFEntry := { bts := convTarget, dt1 := 3, df1 := 5902958103587057 / 590295810358705651712 }

def convSecondBts : List ℚ :=
  [18446559608113469273 / 9223372036854775808, 14411374693838647869 / 4611686018427387904,
    13834919706085101955 / 2305843009213693952, 18446559608113469273 / 2305843009213693952,
    9799734791810280551 / 576460752303423488, 17592221228436247477 / 17592186044416,
    1099514926277898237 / 1099511627776, 17592293795478010275 / 17592186044416,
    8796163390248496683 / 8796093022208, 8796242554294056099 / 8796093022208]

/-- A check of `StandsOut`, where `near` are the bins around `D`. -/
theorem standsOut_check {a b : List ℚ} {n : Nat} {res D δ : ℚ} {w : Nat} (near : List Nat) (h1 : 2 * δ + 2 * res ≤ w * res)
    (h2 : 0 < pairsNear a b D δ)
    (h3 : ∀ k ∈ near, |(k : ℚ) * res - D| < res + δ ∨ |((k : ℚ) - n) * res - D| < res + δ)
    (h4 : ∀ k : Nat, k < n → k ∈ near ∨ w * pairsAt a b n res k < pairsNear a b D δ) : StandsOut a b n res D δ w := by
  refine ⟨h1, h2, fun k hk hbad => ?_⟩
  rcases h4 k hk with h | h
  · rcases h3 k h with h' | h'
    · exact absurd ⟨0, by simpa using h'⟩ hbad
    · exact absurd ⟨-1, by simpa [sub_eq_add_neg] using h'⟩ hbad
  · exact h

theorem conv_clear_early : ClearMerged convParams convTarget (1 / 2) 1 3 (1 / 5) 3 := by
  have hd : acqDurationFl 64 (1 / 2) 64 1000008 = 64 := by decide +kernel
  unfold ClearMerged
  simp only [convParams]
  rw [hd]
  exact ⟨by norm_num, standsOutMerged_check [2, 3, 4] (by norm_num) (by decide +kernel) (by decide +kernel) (by decide +kernel),
    ⟨by decide +kernel, by decide +kernel⟩, by norm_num [abs_of_pos]⟩

theorem conv_clear_late : ClearIn convParams convTarget (acqDurationFl 64 (1 / 2) 64 1000008) 1 1000000 13 (1 / 5) 3 := by
  have hd : acqDurationFl 64 (1 / 2) 64 1000008 = 64 := by decide +kernel
  rw [hd]
  unfold ClearIn
  simp only [convParams]
  exact ⟨by norm_num, standsOut_check [12, 13, 14] (by norm_num) (by decide +kernel) (by decide +kernel) (by decide +kernel),
    accurate_check (by decide +kernel) (by decide +kernel), by norm_num [abs_of_pos]⟩

theorem conv_clear_second (start : ℚ) (hs : start = 0 ∨ start = 1000000) :
    ClearAt convParams convSecondBts (1 / 2) start
      (composedR (fl 53) (fl 64) [convFirst] (targetClock (1 / 100000) 3 start) - start) (1 / 5) 3 := by
  have hd : acqDurationFl 64 (1 / 2) 64 1000008 = 64 := by decide +kernel
  unfold ClearAt ClearIn
  simp only [convParams]
  rw [hd]
  rcases hs with rfl | rfl
  · have hD : composedR (fl 53) (fl 64) [convFirst] (targetClock (1 / 100000) 3 0) - 0 = 0 := by decide +kernel
    rw [hD]
    exact ⟨by norm_num, standsOut_check [63, 0, 1] (by norm_num) (by decide +kernel) (by decide +kernel) (by decide +kernel),
      accurate_check (by decide +kernel) (by decide +kernel), by norm_num⟩
  · obtain ⟨D, hD⟩ : ∃ D, D = composedR (fl 53) (fl 64) [convFirst] (targetClock (1 / 100000) 3 1000000) - 1000000 := ⟨_, rfl⟩
    rw [← hD]
    subst hD
    exact ⟨by norm_num, standsOut_check [63, 0, 1] (by norm_num) (by decide +kernel) (by decide +kernel) (by decide +kernel),
      accurate_check (by decide +kernel) (by decide +kernel), by decide +kernel⟩

theorem conv_resolution : resolutionAt convParams (1 / 2) 1 1 = 1 / 2 := by decide +kernel

theorem conv_resolution_first : resolutionAt convParams (1 / 2) 1 0 = 1 := by decide +kernel

/-- The only histories are the empty one and that of the first iteration. -/
theorem conv_history (pre : List TFEntry) (h : History convParams convTarget (1 / 2) 1 pre) : pre = [] ∨ pre = [convFirst] := by
  have hl : pre.length ≤ 1 := history_length h conv_resolution
  rcases pre with _ | ⟨e, _ | ⟨e', t⟩⟩
  · exact Or.inl rfl
  · right
    obtain ⟨h1, ⟨h2, ys2, dt2, h3, h4⟩, -⟩ := h 0 e rfl
    have hb : e.bts = convTarget := by
      rw [h1, List.take_zero, composedR_nil, List.map_id]
    rw [hb] at h2 h3
    rw [conv_resolution_first] at h3
    have c1 : e.dt1 = 3 := earlyDelay_eq (by decide +kernel) h2 (by decide +kernel)
    have c2 : (tfCorrelate convParams convTarget 1 convParams.sep (windowAt convParams (1 / 2) 1 0)).map Prod.snd = .ok 13 := by
      decide +kernel
    rw [h3] at c2
    simp only [Except.map, Except.ok.injEq] at c2
    rw [c1, c2] at h4
    have c3 : convParams.rnd (convParams.rnd (13 - 3) / convParams.sep) = 5902958103587057 / 590295810358705651712 := by
      decide +kernel
    rw [c3] at h4
    cases e
    simp only at hb c1 h4
    subst hb c1 h4
    rfl
  · simp at hl

/-- The hypotheses of C105 are satisfiable by a run with a refinement. -/
theorem conv_example : ClearRun convParams convTarget (1 / 2) 1 (1 / 100000) 3 (2 * 10 ^ 6) (13 / 10) (3 / 4) (fun _ => 1 / 5) (fun _ => 3) 1 where
  rnd := rfl
  rndA := rfl
  bins := by norm_num [convParams]
  target := by norm_num [convParams]
  duration := by norm_num [convParams]
  separation := by norm_num [convParams, resRefineFactor]
  resolution := ⟨by norm_num, by decide +kernel⟩
  merging := ⟨⟨32, rfl⟩, Or.inr (by norm_num)⟩
  last := conv_resolution
  few := by norm_num
  significance := fun _ _ ys _ _ _ => ⟨if ys.length = 64 then 1 else 10, rfl⟩
  significant := by
    intro ys d h
    have hl : (tfCorrelate convParams convTarget (1 / 2) 0 (tfDuration convParams (1 / 2))).map (fun v => v.1.length) = .ok 64 := by
      decide +kernel
    rw [h] at hl
    simp only [Except.map, Except.ok.injEq] at hl
    have hm : ∀ j, (merged ys j).length = 64 / 2 ^ j := by
      intro j
      unfold merged
      rw [List.length_map, List.length_range, hl]
    refine ⟨⟨10, ?_, by norm_num, by norm_num [convParams]⟩, ?_⟩
    · simp [convParams, hm]
    · intro i hi
      obtain rfl : i = 0 := by omega
      exact ⟨1, by simp [convParams, hm], by norm_num, by norm_num [convParams]⟩
  clearEarly := conv_clear_early
  clearLate := by
    have hD : targetClock (1 / 100000) 3 convParams.sep - convParams.sep = 13 := by norm_num [targetClock, convParams]
    have h1 : (2 : ℚ) ^ 1 * (1 / 2) = 1 := by norm_num
    rw [hD, h1]
    exact conv_clear_late
  clear := by
    intro pre hne h start hs
    rcases conv_history pre h with rfl | rfl
    · exact absurd rfl hne
    · have : convTarget.map (composedR convParams.rnd convParams.rndA [convFirst]) = convSecondBts := by decide +kernel
      rw [this, List.length_singleton, conv_resolution]
      exact conv_clear_second start hs
  times := by norm_num [convParams, targetClock, abs_of_pos]
  errorFirst := by
    unfold errorAt
    rw [conv_resolution_first]
    norm_num [convParams]
  errorLater := by
    intro k h0 h1
    obtain rfl : k = 1 := by omega
    unfold errorAt
    rw [conv_resolution]
    norm_num [convParams]
  errors := by norm_num
  rounding := by norm_num
  offset := by norm_num [abs_of_pos]
  frequency := by norm_num [convParams, abs_of_pos]
  guardDelay := Or.inl (by norm_num [abs_of_pos])
  guardFrequency := Or.inl (by norm_num [convParams, abs_of_pos])

/-- Instance of C105. -/
example : ∃ dt df trace e, Returns (fun fuel => timeFreq convParams fuel convTarget (1 / 2)) (.ok (dt, df, trace ++ [e])) ∧ trace.length ≤ 1 := by
  obtain ⟨dt, df, trace, e, h1, h2, -⟩ := C105_converges_partial _ _ _ _ _ _ _ _ _ _ _ _ conv_example
  exact ⟨dt, df, trace, e, h1, h2⟩

/-! ## Without the condition on the guard rails -/

/-- Clocks at the same rate, 12 ns apart; the first resolution is 64 ns, the final one 1/2 ns. -/
def guardParams : TFParams := { convParams with duration := 4096, signif := fun _ _ => .ok 10 }

def guardTarget : List ℚ := [14, 15, 18, 20, 1000014, 1000015, 1000018, 1000020]

theorem guard_clear_first (start : ℚ) (hs : start = 0 ∨ start = 1000000) : ClearAt guardParams guardTarget 64 start 12 0 2 := by
  have hd : acqDurationFl 64 64 4096 1000008 = 4096 := by decide +kernel
  unfold ClearAt ClearIn
  simp only [guardParams, convParams]
  rw [hd]
  rcases hs with rfl | rfl
  · exact ⟨by norm_num, standsOut_check [0, 1] (by norm_num) (by decide +kernel) (by decide +kernel) (by decide +kernel),
      accurate_check (by decide +kernel) (by decide +kernel), by norm_num [abs_of_pos]⟩
  · exact ⟨by norm_num, standsOut_check [0, 1] (by norm_num) (by decide +kernel) (by decide +kernel) (by decide +kernel),
      accurate_check (by decide +kernel) (by decide +kernel), by norm_num [abs_of_pos]⟩

theorem guard_clear_second (start : ℚ) (hs : start = 0 ∨ start = 1000000) :
    ClearAt guardParams guardTarget (1 / 2) start 12 0 2 := by
  have hd : acqDurationFl 64 (1 / 2) 4096 1000008 = 4096 := by
    decide +kernel
  unfold ClearAt ClearIn
  simp only [guardParams, convParams]
  rw [hd]
  rcases hs with rfl | rfl
  · exact ⟨by norm_num, standsOut_check [24] (by norm_num) (by decide +kernel) (by decide +kernel) (by decide +kernel),
      accurate_check (by decide +kernel) (by decide +kernel), by norm_num [abs_of_pos]⟩
  · exact ⟨by norm_num, standsOut_check [24] (by norm_num) (by decide +kernel) (by decide +kernel) (by decide +kernel),
      accurate_check (by decide +kernel) (by decide +kernel), by norm_num [abs_of_pos]⟩

/-- **C105**, negated without the condition: in both iterations the true coincidences stand out, with all pairs in one bin and its
neighbours, but the delay found by the second one is rejected, since it is more than 10 times the delay of the first one, and more
than 10 ns.  The result is that of the first iteration, 12 ns off, though the final resolution is 1/2 ns. -/
theorem C105_violated : ∃ (P : TFParams) (bts : List ℚ) (res τ : ℚ) (e : TFEntry), P.rnd = fl 53 ∧ P.rndA = fl 64 ∧
    bts = P.ats.map (targetClock 0 τ) ∧ P.target = 1 / 2 ∧ (∀ ys r, ∃ sig, P.signif ys r = .ok sig ∧ P.threshold ≤ sig) ∧
    (∀ start, start = 0 ∨ start = P.sep → ClearAt P bts res start τ 0 2 ∧
      ClearAt P (bts.map (composedR P.rnd P.rndA [e])) (resolutionAt P res 0 1) start
        (composedR P.rnd P.rndA [e] (targetClock 0 τ start) - start) 0 2) ∧
    Returns (fun fuel => timeFreq P fuel bts res) (.ok (0, 0, [e])) ∧ FromCorrelations P res e ∧
    ∀ a, corrected 0 0 (targetClock 0 τ a) - a = 12 := by
  refine ⟨guardParams, guardTarget, 64, 12, { bts := guardTarget, dt1 := 0, df1 := 0 }, rfl, rfl, by decide +kernel, rfl,
    fun _ _ => ⟨10, rfl, by norm_num [guardParams, convParams]⟩, ?_, ?_, ?_, ?_⟩
  · have hb : guardTarget.map (composedR guardParams.rnd guardParams.rndA [{ bts := guardTarget, dt1 := 0, df1 := 0 }]) =
        guardTarget := by decide +kernel
    have hD : ∀ start, start = 0 ∨ start = guardParams.sep →
        composedR guardParams.rnd guardParams.rndA [{ bts := guardTarget, dt1 := 0, df1 := 0 }] (targetClock 0 12 start) - start = 12 := by
      rintro start (rfl | rfl) <;> decide +kernel
    have hr : resolutionAt guardParams 64 0 1 = 1 / 2 := by decide +kernel
    intro start hs
    rw [hD start hs, hb, hr]
    exact ⟨guard_clear_first start hs, guard_clear_second start hs⟩
  · refine ⟨20, ?_⟩
    have h : timeFreq guardParams 20 guardTarget 64 = some (.ok (0, 0, [{ bts := guardTarget, dt1 := 0, df1 := 0 }])) := by
      decide +kernel
    exact fun fuel hf => runLoop_more _ 20 fuel hf _ _ h
  · have c1 : (tfCorrelate guardParams guardTarget 64 0 (tfDuration guardParams 64)).map Prod.snd = .ok 0 := by decide +kernel
    have c2 : (tfCorrelate guardParams guardTarget 64 guardParams.sep (tfDuration guardParams 64)).map Prod.snd = .ok 0 := by
      decide +kernel
    unfold FromCorrelations
    dsimp only
    cases e1 : tfCorrelate guardParams guardTarget 64 0 (tfDuration guardParams 64) with
    | error x => rw [e1] at c1; cases c1
    | ok v1 =>
      cases e2 : tfCorrelate guardParams guardTarget 64 guardParams.sep (tfDuration guardParams 64) with
      | error x => rw [e2] at c2; cases c2
      | ok v2 =>
        rw [e1] at c1
        rw [e2] at c2
        simp only [Except.map, Except.ok.injEq] at c1 c2
        exact ⟨v1.1, v2.1, v2.2, by rw [← c1], rfl, by rw [c2]; decide +kernel⟩
  · intro a
    unfold corrected targetClock
    ring

end Fp
