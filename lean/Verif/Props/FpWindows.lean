import Verif.Spec.FpWindows
import Verif.Props.FpThreshold
import Verif.Lemmas.FpLocal
import Verif.Props.FpRun

/-! # C113: the windows a result of fpfind rests on -/
namespace Fp
open Spec

theorem slice_events (rnd : ℚ → ℚ) (ts : List ℚ) (start dur : ℚ) (l : List ℚ) (h : sliceTimestampsR rnd ts (some start) (some dur) = .ok l) :
    l ≠ [] ↔ EventsIn rnd ts start dur := by
  unfold sliceTimestampsR at h
  simp only [bind, Except.bind, pure, Except.pure] at h
  split at h
  · cases h
  · injection h with h
    subst h
    rw [Ne, List.filter_eq_nil_iff]
    unfold EventsIn
    push Not
    simp only [List.mem_filter, List.mem_map, decide_eq_true_eq]
    constructor
    · rintro ⟨_, ⟨⟨t, ht, rfl⟩, h1⟩, h2⟩
      exact ⟨t, ht, h1, h2⟩
    · rintro ⟨t, ht, h1, h2⟩
      exact ⟨_, ⟨⟨t, ht, rfl⟩, h1⟩, h2⟩

theorem correlate_events (P : TFParams) (bts : List ℚ) (res start dur : ℚ) (v : List ℚ × ℚ) (h : tfCorrelate P bts res start dur = .ok v) :
    EventsIn P.rndA P.ats start dur ∧ EventsIn P.rndA bts start dur := by
  unfold tfCorrelate at h
  simp only [bind, Except.bind, pure, Except.pure] at h
  split at h
  · cases h
  rename_i a ha
  split at h
  · cases h
  rename_i b hb
  split at h
  · cases h
  rename_i abins ha'
  split at h
  · cases h
  rename_i bbins hb'
  constructor
  · rw [← slice_events _ _ _ _ _ ha]
    rintro rfl
    simp [generateBinsR] at ha'
  · rw [← slice_events _ _ _ _ _ hb]
    rintro rfl
    simp [generateBinsR] at hb'

theorem late_events (P : TFParams) (s : TFState) (dt1 dur : ℚ) (h : ∀ e, tfLate P s dt1 dur ≠ .inr (.error e)) :
    EventsIn P.rndA P.ats P.sep dur ∧ EventsIn P.rndA s.bts P.sep dur := by
  unfold tfLate at h
  split at h
  · exact absurd rfl (h .valueError)
  · split at h
    · rename_i e _
      exact absurd rfl (h e)
    · rename_i hc
      exact correlate_events P s.bts s.res P.sep dur _ hc

theorem relErr_nonpos (rnd : ℚ → ℚ) (h : RelErr rnd) (x : ℚ) (hx : x ≤ 0) : rnd x ≤ 0 := by
  have := h x
  rw [abs_of_nonpos hx, abs_le] at this
  have h2 : (0 : ℚ) < 2 ^ 53 := by positivity
  have h3 : -x / 2 ^ 53 ≤ -x := by
    rw [div_le_iff₀ h2]
    nlinarith
  linarith [this.2]

/-- Windows are at most twice as long as asked for. -/
theorem duration_le (P : TFParams) (hr : RelErr P.rnd) (hra : RelErr P.rndA) (hD : 0 < P.duration) (hN : 0 < P.numBins) (res : ℚ) (hres : 0 < res) :
    tfDuration P res ≤ 2 * P.duration * (1 + 1 / 2 ^ 40) := by
  obtain ⟨h1, h2⟩ := duration_long { P with endTime := 2 * P.duration * (1 + 1 / 2 ^ 40) } hr hra hD hN res hres le_rfl
  rw [h1] at h2
  simp only at h2
  unfold tfDuration
  simp only
  obtain ⟨k, hk⟩ : ∃ k, k = rne (P.rnd (P.duration / P.rnd (res * P.numBins))) := ⟨_, rfl⟩
  obtain ⟨m, hm⟩ : ∃ m, m = ⌊P.rndA (P.endTime / P.rnd (res * P.numBins))⌋ := ⟨_, rfl⟩
  rw [← hk] at h2 ⊢
  rw [← hm]
  have hN' : (0 : ℚ) < P.numBins := by exact_mod_cast hN
  have hb : (1 + 1 / 2 ^ 50 : ℚ) ≤ 1 + 1 / 2 ^ 40 := by norm_num
  split_ifs with hmk
  · rcases le_or_gt (m : ℚ) 0 with h0 | h0
    · have e1 : P.rndA ((m : ℚ) * res) ≤ 0 := relErr_nonpos _ hra _ (mul_nonpos_of_nonpos_of_nonneg h0 hres.le)
      have e2 := relErr_nonpos _ hra _ (mul_nonpos_of_nonpos_of_nonneg e1 hN'.le)
      exact e2.trans (by positivity)
    · have hk0 : (0 : ℚ) < k := h0.trans hmk
      have a1 := relErr_le P.rndA hra ((m : ℚ) * res) (by positivity)
      obtain ⟨x, hx⟩ : ∃ x, x = P.rndA ((m : ℚ) * res) := ⟨_, rfl⟩
      rw [← hx] at a1 ⊢
      have hx0 : 0 ≤ x := le_trans (mul_nonneg (by positivity) (by norm_num)) a1.2
      have a2 := relErr_le P.rndA hra (x * P.numBins) (by positivity)
      have b1 := relErr_le P.rnd hr ((k : ℚ) * res) (by positivity)
      obtain ⟨y, hy⟩ : ∃ y, y = P.rnd ((k : ℚ) * res) := ⟨_, rfl⟩
      rw [← hy] at b1 h2
      have hy0 : 0 ≤ y := le_trans (mul_nonneg (by positivity) (by norm_num)) b1.2
      have b2 := relErr_le P.rnd hr (y * P.numBins) (by positivity)
      have hmk' : (m : ℚ) * res ≤ k * res := by nlinarith
      have c1 : x * P.numBins ≤ (k * res) * (1 + 1 / 2 ^ 53) * P.numBins := by
        apply mul_le_mul_of_nonneg_right _ hN'.le
        exact a1.1.trans (mul_le_mul_of_nonneg_right hmk' (by norm_num))
      have c2 : (k * res) * (1 - 1 / 2 ^ 53) * P.numBins ≤ y * P.numBins := mul_le_mul_of_nonneg_right b1.2 hN'.le
      have c3 : k * res * P.numBins * (1 - 1 / 2 ^ 53) ^ 2 ≤ 2 * P.duration * (1 + 1 / 2 ^ 50) := by
        refine le_trans ?_ (b2.2.trans h2)
        calc k * res * P.numBins * (1 - 1 / 2 ^ 53) ^ 2 = ((k * res) * (1 - 1 / 2 ^ 53) * P.numBins) * (1 - 1 / 2 ^ 53) := by ring
          _ ≤ _ := mul_le_mul_of_nonneg_right c2 (by norm_num)
      have c4 : P.rndA (x * P.numBins) ≤ k * res * P.numBins * (1 + 1 / 2 ^ 53) ^ 2 := by
        refine a2.1.trans ?_
        calc x * P.numBins * (1 + 1 / 2 ^ 53) ≤ ((k * res) * (1 + 1 / 2 ^ 53) * P.numBins) * (1 + 1 / 2 ^ 53) :=
              mul_le_mul_of_nonneg_right c1 (by norm_num)
          _ = _ := by ring
      obtain ⟨z, hz⟩ : ∃ z, z = k * res * P.numBins := ⟨_, rfl⟩
      rw [← hz] at c3 c4
      have hz0 : 0 ≤ z := by rw [hz]; positivity
      refine c4.trans ?_
      have c5 : z * (1 - 1 / 2 ^ 50) ≤ z * (1 - 1 / 2 ^ 53) ^ 2 := mul_le_mul_of_nonneg_left (by norm_num) hz0
      have c6 : z ≤ 2 * P.duration * ((1 + 1 / 2 ^ 50) / (1 - 1 / 2 ^ 50)) := by
        rw [← mul_div_assoc, le_div_iff₀ (by norm_num)]
        exact c5.trans c3
      calc z * (1 + 1 / 2 ^ 53) ^ 2 ≤ 2 * P.duration * ((1 + 1 / 2 ^ 50) / (1 - 1 / 2 ^ 50)) * (1 + 1 / 2 ^ 53) ^ 2 :=
            mul_le_mul_of_nonneg_right c6 (by norm_num)
        _ = 2 * P.duration * (((1 + 1 / 2 ^ 50) / (1 - 1 / 2 ^ 50)) * (1 + 1 / 2 ^ 53) ^ 2) := by ring
        _ ≤ _ := mul_le_mul_of_nonneg_left (by norm_num) (by positivity)
  · exact h2.trans (mul_le_mul_of_nonneg_left hb (by positivity))

theorem begin_events (P : TFParams) (s s' : TFState) (h : tfBegin P s = .ok s') :
    EventsIn P.rndA P.ats 0 (tfDuration P s.res) ∧ EventsIn P.rndA s.bts 0 (tfDuration P s.res) ∧ s'.bts = s.bts ∧ s'.trace = s.trace ∧
      s'.res = s.res ∧ ((∃ ys d sig, s'.phase = .search ys d sig (tfDuration P s.res)) ∨ ∃ d, s'.phase = .late d (tfDuration P s.res)) := by
  unfold tfBegin at h
  simp only [bind, Except.bind, pure, Except.pure] at h
  split at h
  · cases h
  · rename_i v hv
    split at h
    · cases h
    · injection h with h
      subst h
      obtain ⟨h1, h2⟩ := correlate_events P s.bts s.res 0 _ _ hv
      refine ⟨h1, h2, rfl, rfl, rfl, ?_⟩
      dsimp only
      by_cases hi : s.iter = 1
      · rw [if_pos hi]; exact .inl ⟨_, _, _, rfl⟩
      · rw [if_neg hi]; exact .inr ⟨_, rfl⟩

/-- The invariant: complete iterations had events in all windows, the current one in the early windows. -/
def WindowsInv (P : TFParams) (bts : List ℚ) (s : TFState) : Prop :=
  (∀ e ∈ s.trace, ∃ dur, WindowsFilled P e.bts dur) ∧ 0 < s.res ∧
    ((s.trace = [] ∧ s.bts = bts) ∨ ∃ e rest, s.trace = e :: rest ∧ e.bts = bts) ∧
    (s.phase = .begin ∨ ∃ dur, dur ≤ 2 * P.duration * (1 + 1 / 2 ^ 40) ∧ EventsIn P.rndA P.ats 0 dur ∧ EventsIn P.rndA s.bts 0 dur ∧
      ((∃ ys d sig, s.phase = .search ys d sig dur) ∨ ∃ d, s.phase = .late d dur))

theorem windows_snoc {P : TFParams} {bts b : List ℚ} {trace : List TFEntry} {e : TFEntry} (he : e.bts = b)
    (h1 : ∀ e ∈ trace, ∃ dur, WindowsFilled P e.bts dur) (h2 : (trace = [] ∧ b = bts) ∨ ∃ e rest, trace = e :: rest ∧ e.bts = bts)
    (h3 : ∃ dur, WindowsFilled P b dur) :
    (∀ x ∈ trace ++ [e], ∃ dur, WindowsFilled P x.bts dur) ∧ ∃ e' rest, trace ++ [e] = e' :: rest ∧ e'.bts = bts := by
  constructor
  · intro x hx
    rcases List.mem_append.mp hx with h | h
    · exact h1 x h
    · rw [List.mem_singleton] at h
      subst h
      rw [he]
      exact h3
  · rcases h2 with ⟨rfl, rfl⟩ | ⟨e', rest, rfl, h⟩
    · exact ⟨e, [], rfl, he⟩
    · exact ⟨e', rest ++ [e], rfl, h⟩

/-- **C113**: every iteration a result comes from had events of both sides in the early and in the late window; the first one used
the target times as given. -/
theorem C113_events (P : TFParams) (hr : RelErr P.rnd) (hra : RelErr P.rndA) (hD : 0 < P.duration) (hN : 0 < P.numBins) (hT : 0 < P.target)
    (bts : List ℚ) (res : ℚ) (hres : 0 < res) (dt df : ℚ) (trace : List TFEntry)
    (h : Returns (fun fuel => timeFreq P fuel bts res) (.ok (dt, df, trace))) :
    (∃ e rest, trace = e :: rest ∧ e.bts = bts) ∧ ∀ e ∈ trace, ∃ dur, WindowsFilled P e.bts dur := by
  obtain ⟨N, hN'⟩ := h
  have h1 := hN' N le_rfl
  have := runLoop_inv (tfStep P) (fun s => WindowsInv P bts s ∧ (s.iter = 1 ∨ ∃ e rest, s.trace = e :: rest ∧ e.bts = bts))
    (fun r => ∀ dt df trace, r = .ok (dt, df, trace) →
      (∃ e rest, trace = e :: rest ∧ e.bts = bts) ∧ ∀ e ∈ trace, ∃ dur, WindowsFilled P e.bts dur)
    ?_ ?_ N _ _ ?_ h1
  · exact this dt df trace rfl
  · rintro s s' ⟨⟨i1, i2, i3, i4⟩, i5⟩ hst
    have : s.phase = .begin ∨ (∃ ys d sig dur, s.phase = .search ys d sig dur) ∨ ∃ d dur, s.phase = .late d dur := by
      cases hp : s.phase with
      | begin => exact .inl rfl
      | search ys d sig dur => exact .inr (.inl ⟨_, _, _, _, rfl⟩)
      | late d dur => exact .inr (.inr ⟨_, _, rfl⟩)
    rcases this with hp | ⟨ys, d, sig, dur, hp⟩ | ⟨d, dur, hp⟩
    · rw [step_begin P s hp] at hst
      cases hb : tfBegin P s with
      | error e => rw [hb] at hst; simp [nextOf] at hst
      | ok x =>
        rw [hb] at hst
        simp only [nextOf, Sum.inl.injEq] at hst
        subst hst
        obtain ⟨b1, b2, b3, b4, b5, b6⟩ := begin_events P s x hb
        obtain ⟨_, _, _, _, hit⟩ := tfBegin_ok P s x hb
        have hiter : x.iter = s.iter := by rw [hit]
        refine ⟨⟨by rw [b4]; exact i1, by rw [b5]; exact i2, by rw [b4, b3]; exact i3, .inr ⟨_, duration_le P hr hra hD hN _ i2, b1, by rw [b3]; exact b2, b6⟩⟩,
          by rw [hiter, b4]; exact i5⟩
    · rw [step_search P s _ _ _ _ hp] at hst
      cases hb : tfSearch P s ys d sig dur with
      | error e => rw [hb] at hst; simp [nextOf] at hst
      | ok x =>
        rw [hb] at hst
        simp only [nextOf, Sum.inl.injEq] at hst
        subst hst
        rcases i4 with h | ⟨dur', d1, d2, d3, ⟨_, _, _, h⟩ | ⟨_, h⟩⟩
        · rw [hp] at h; cases h
        · rw [hp] at h
          cases h
          rcases tfSearch_ok P s x ys d sig dur hb with rfl | ⟨ys', d', sig', rfl, -, -⟩
          · exact ⟨⟨i1, i2, i3, .inr ⟨dur, d1, d2, d3, .inr ⟨_, rfl⟩⟩⟩, i5⟩
          · refine ⟨⟨i1, ?_, i3, .inr ⟨dur, d1, d2, d3, .inl ⟨_, _, _, rfl⟩⟩⟩, i5⟩
            have := (relErr_le P.rnd hr (s.res * 2) (by positivity)).2
            exact lt_of_lt_of_le (mul_pos (by positivity) (by norm_num)) this
        · rw [hp] at h; cases h
    · rw [step_late P s _ _ hp] at hst
      have hev := late_events P s d dur (by rw [hst]; simp)
      obtain ⟨df1, -, -, -, rfl⟩ := tfLate_inl P s s' d dur hst
      rcases i4 with h | ⟨dur', d1, d2, d3, ⟨_, _, _, h⟩ | ⟨_, h⟩⟩
      · rw [hp] at h; cases h
      · rw [hp] at h; cases h
      · rw [hp] at h
        cases h
        obtain ⟨g1, g2⟩ := windows_snoc (e := { bts := s.bts, dt1 := d, df1 := df1 }) rfl i1 i3 ⟨dur, d1, d2, d3, hev.1, hev.2⟩
        exact ⟨⟨g1, lt_of_lt_of_le hT (le_max_right _ _), .inr g2, .inl rfl⟩, .inr g2⟩
  · rintro s r ⟨⟨i1, i2, i3, i4⟩, i5⟩ hst dt df trace rfl
    have : s.phase = .begin ∨ (∃ ys d sig dur, s.phase = .search ys d sig dur) ∨ ∃ d dur, s.phase = .late d dur := by
      cases hp : s.phase with
      | begin => exact .inl rfl
      | search ys d sig dur => exact .inr (.inl ⟨_, _, _, _, rfl⟩)
      | late d dur => exact .inr (.inr ⟨_, _, rfl⟩)
    rcases this with hp | ⟨ys, d, sig, dur, hp⟩ | ⟨d, dur, hp⟩
    · rw [step_begin P s hp] at hst
      cases hb : tfBegin P s <;> rw [hb] at hst <;> simp [nextOf] at hst
    · rw [step_search P s _ _ _ _ hp] at hst
      cases hb : tfSearch P s ys d sig dur <;> rw [hb] at hst <;> simp [nextOf] at hst
    · rw [step_late P s _ _ hp] at hst
      have hev := late_events P s d dur (by rw [hst]; simp)
      rcases i4 with h | ⟨dur', d1, d2, d3, ⟨_, _, _, h⟩ | ⟨_, h⟩⟩
      · rw [hp] at h; cases h
      · rw [hp] at h; cases h
      · rw [hp] at h
        cases h
        rcases tfLate_ok P s d dur dt df trace hst with ⟨hi, -, -, rfl⟩ | ⟨df1, -, -, -, -, -, rfl⟩
        · exact ⟨i5.resolve_left hi, i1⟩
        · obtain ⟨g1, g2⟩ := windows_snoc (e := { bts := s.bts, dt1 := d, df1 := df1 }) rfl i1 i3 ⟨dur, d1, d2, d3, hev.1, hev.2⟩
          exact ⟨g2, g1⟩
  · exact ⟨⟨by simp, hres, .inl ⟨rfl, rfl⟩, .inl rfl⟩, .inl rfl⟩

/-- **C113** for the program: if fpfind prints a line, both recordings have events in the early and in the late window, after one
of the precompensations. -/
theorem C113_printed (env : NumEnv) (henv : env.rnd = fl 53) (henvA : env.rndA = fl 64) (args : FpMainArgs) (a b : List ℚ)
    (hin : Input env args a b) (hres : 0 < args.initialRes) (hfin : 0 < args.finalRes)
    (hD : 0 < (searchParams env args a b).duration) (line : List Char)
    (h : Returns (fun fuel => fpMain env fuel args) (.ok (some line))) :
    ∃ d ∈ precs env args, ∃ dur, WindowsFilled (searchParams env args a (precompensated env d b)) (precompensated env d b) dur := by
  obtain ⟨pre, d, post, dt1, df1, trace, dt, df, hp, -, hs, -⟩ := C88_printed env henv args a b hin line h
  refine ⟨d, by rw [hp]; simp, ?_⟩
  obtain ⟨⟨e, rest, rfl, he⟩, h2⟩ := C113_events (searchParams env args a (precompensated env d b)) (by show RelErr env.rnd; rw [henv]; exact C76_arithmetic.1)
    (by show RelErr env.rndA; rw [henvA]; exact C76_arithmetic.2) hD (by show 0 < 2 ^ args.bufferOrder; positivity) (by show (0 : ℚ) < (args.finalRes : ℚ); exact_mod_cast hfin) _ _ (by exact_mod_cast hres) _ _ _ hs
  obtain ⟨dur, h3⟩ := h2 e (by simp)
  rw [he] at h3
  exact ⟨dur, h3⟩

/-- **C113** fails for the significance: with the first peak accepted at the resolution asked for, the result is computed from the
highest bin of the late correlation `zs`, whatever its significance. -/
theorem C113_unchecked (P : TFParams) (bts : List ℚ) (res : ℚ) (hT : res = P.target) (ys zs : List ℚ) (d1 d2 sig : ℚ)
    (hc : tfCorrelate P bts res 0 (tfDuration P res) = .ok (ys, d1)) (hs : P.signif ys res = .ok sig) (h0 : sig ≠ 0) (ht : P.threshold ≤ sig)
    (hd : |d1| ≤ 10 ^ 8) (hl : tfCorrelate P bts res P.sep (tfDuration P res) = .ok (zs, d2))
    (df : ℚ) (hdf : df = P.rnd (P.rnd (1 * P.rnd (1 + P.rnd (P.rnd (d2 - d1) / P.sep))) - 1)) (hb : |df| < 1 / 2 ^ 13) :
    ∃ trace, Returns (fun fuel => timeFreq P fuel bts res) (.ok (P.rnd (0 + P.rnd (1 * d1)), df, trace)) := by
  refine ⟨[{ bts := bts, dt1 := d1, df1 := P.rnd (P.rnd (d2 - d1) / P.sep) }], 3, fun fuel hf => ?_⟩
  dsimp only
  unfold timeFreq
  have e2 : tfStep P { bts := bts, res := res, dt := 0, f := 1, iter := 1, phase := .search ys d1 sig (tfDuration P res), trace := [] } =
      .inl { bts := bts, res := res, dt := 0, f := 1, iter := 1, phase := .late d1 (tfDuration P res), trace := [] } := by
    rw [step_search _ _ ys d1 sig (tfDuration P res) rfl]
    unfold tfSearch nextOf
    rw [if_neg h0, if_pos ht]
  have e3 : tfStep P { bts := bts, res := res, dt := 0, f := 1, iter := 1, phase := .late d1 (tfDuration P res), trace := [] } =
      .inr (.ok (P.rnd (0 + P.rnd (1 * d1)), df, [{ bts := bts, dt1 := d1, df1 := P.rnd (P.rnd (d2 - d1) / P.sep) }])) := by
    rw [step_late _ _ d1 (tfDuration P res) rfl]
    unfold tfLate
    rw [if_neg (not_lt.mpr (by unfold ntpMaxDelay; exact hd)), hl]
    dsimp only
    rw [if_neg (by simp), if_neg (not_le.mpr (by unfold maxFcorr; rw [← hdf]; exact hb)), if_pos hT, ← hdf]
    rfl
  rw [show fuel = (fuel - 3) + 1 + 1 + 1 by omega, runLoop_step _ _ _ (start_begin P bts res ys d1 sig hc hs), runLoop_step _ _ _ e2,
    runLoop_stop _ _ _ e3]

/-- Circular correlation of histograms. -/
def circularXcorr (A B : List Nat) : List ℚ := (List.range A.length).map fun k =>
  ((((List.range A.length).map fun i => A.getD i 0 * B.getD ((i + k) % A.length) 0).sum : Nat) : ℚ)

/-- 8 bins of 1 ns, in two windows 1 ms apart; a correlation is significant if it is not flat. -/
def unseenParams : TFParams :=
  { ats := [0, 1000000, 1000010], numBins := 8, target := 1, threshold := 6, sep := 1000000, duration := 8,
    endTime := 1000010, rnd := fl 53, rndA := fl 64, xcorr := circularXcorr,
    signif := fun ys _ => .ok (if ∀ y ∈ ys, y = ys.headD 0 then 0 else 10) }

/-- All events of the reference 3 ns later, and noise in the late window. -/
def unseenTarget : List ℚ := [3, 1000000, 1000001, 1000002, 1000003, 1000004, 1000005, 1000006, 1000007, 1000013]

/-- **C113** is violated: the target has every event of the reference 3 ns later, so its clock has the right frequency.  In the late
window its noise makes the correlation flat, with significance 0.  Still a result is returned, with a frequency that is wrong by
3·10^-6. -/
theorem C113_late_violated : (∀ t ∈ unseenParams.ats, t + 3 ∈ unseenTarget) ∧
    (∃ zs d2, tfCorrelate unseenParams unseenTarget 1 unseenParams.sep (tfDuration unseenParams 1) = .ok (zs, d2) ∧
      unseenParams.signif zs 1 = .ok 0) ∧
    ∃ df trace, Returns (fun fuel => timeFreq unseenParams fuel unseenTarget 1) (.ok (3, df, trace)) ∧ |df + 3 / 10 ^ 6| ≤ 1 / 10 ^ 15 := by
  refine ⟨by decide +kernel, ⟨[1, 1, 1, 1, 1, 1, 1, 1], 0, by decide +kernel, by decide +kernel⟩, ?_⟩
  obtain ⟨trace, h⟩ := C113_unchecked unseenParams unseenTarget 1 rfl [0, 0, 0, 1, 0, 0, 0, 0] [1, 1, 1, 1, 1, 1, 1, 1] 3 0 10 (by decide +kernel)
    (by decide +kernel) (by norm_num) (by decide +kernel) (by norm_num) (by decide +kernel) _ rfl (by decide +kernel)
  have e : unseenParams.rnd (0 + unseenParams.rnd (1 * 3)) = 3 := by decide +kernel
  rw [e] at h
  exact ⟨_, trace, h, by decide +kernel⟩

/-- Instance of `C113_events`. -/
example : EventsIn unseenParams.rndA unseenParams.ats unseenParams.sep 8 ∧ EventsIn unseenParams.rndA unseenTarget unseenParams.sep 8 ∧
    ¬ EventsIn unseenParams.rndA unseenParams.ats 11 8 := by
  unfold EventsIn
  decide +kernel

end Fp
