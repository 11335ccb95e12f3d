import Verif.Spec.FpRounded
import Verif.Spec.FpAccuracy
import Verif.Lemmas.FpAccuracy
import Verif.Props.FpFind

/-! Helper lemmas for `Verif/Props/FpRounded.lean`. -/
namespace Fp
open Spec

theorem relErr_factor {rnd : ℚ → ℚ} (h : RelErr rnd) (x : ℚ) : ∃ η : ℚ, |η| ≤ 1 / 2 ^ 53 ∧ rnd x = x * (1 + η) := by
  by_cases hx : x = 0
  · refine ⟨0, by norm_num, ?_⟩
    have := h x
    rw [hx, abs_zero, zero_div, sub_zero] at this
    have : rnd 0 = 0 := by simpa using abs_nonpos_iff.mp this
    rw [hx, this]; ring
  · refine ⟨(rnd x - x) / x, ?_, ?_⟩
    · rw [abs_div, div_le_iff₀ (abs_pos.mpr hx)]
      have := h x
      linarith
    · field_simp; ring

theorem triple (u a b c : ℚ) (hu : 0 ≤ u) (hu1 : u ≤ 1 / 8) (ha : |a| ≤ u) (hb : |b| ≤ u) (hc : |c| ≤ u) :
    |(1 + a) * (1 + b) * (1 + c) - 1| ≤ 4 * u := by
  have e : (1 + a) * (1 + b) * (1 + c) - 1 = a + b + c + (a * b + b * c + a * c) + a * b * c := by ring
  have h1 : |a * b| ≤ u * u := by rw [abs_mul]; exact mul_le_mul ha hb (abs_nonneg _) hu
  have h2 : |b * c| ≤ u * u := by rw [abs_mul]; exact mul_le_mul hb hc (abs_nonneg _) hu
  have h3 : |a * c| ≤ u * u := by rw [abs_mul]; exact mul_le_mul ha hc (abs_nonneg _) hu
  have h4 : |a * b * c| ≤ u * u * u := by rw [abs_mul]; exact mul_le_mul h1 hc (abs_nonneg _) (by positivity)
  rw [e]
  have h5 : u * u ≤ u / 8 := by nlinarith
  have h6 : u * u * u ≤ u / 64 := by nlinarith
  rw [abs_le] at *
  constructor <;> linarith [ha.1, ha.2, hb.1, hb.2, hc.1, hc.2, h1.1, h1.2, h2.1, h2.2, h3.1, h3.2, h4.1, h4.2]

/-- One step of the accumulation: the errors are those of six roundings. -/
theorem step_error (rnd rndA : ℚ → ℚ) (hr : RelErr rnd) (hra : RelErr rndA) (F D b t dt1 g X : ℚ) (k : ℚ) (hk : 0 ≤ k)
    (hk1 : k + 1 ≤ 2 ^ 35) (ht : 0 ≤ X) (hF : |F - 1| ≤ 1 / 2 ^ 12) (hF' : rnd (F * g) ≠ 0)
    (hdt : |dt1| ≤ 10 ^ 8) (hD : |D| ≤ k * (101 * 10 ^ 6)) (hX : |t| = X)
    (hE : |F * b + D - t| ≤ k * (X + k * (101 * 10 ^ 6)) / 2 ^ 50) :
    |rnd (D + rnd (F * dt1))| ≤ (k + 1) * (101 * 10 ^ 6) ∧
    |rnd (F * g) * rndA (rndA (b - dt1) / g) + rnd (D + rnd (F * dt1)) - t| ≤
      (k + 1) * (X + (k + 1) * (101 * 10 ^ 6)) / 2 ^ 50 := by
  obtain ⟨η1, h1, e1⟩ := relErr_factor hr (F * g)
  obtain ⟨η2, h2, e2⟩ := relErr_factor hra (b - dt1)
  obtain ⟨η3, h3, e3⟩ := relErr_factor hra (rndA (b - dt1) / g)
  obtain ⟨η4, h4, e4⟩ := relErr_factor hr (F * dt1)
  obtain ⟨η5, h5, e5⟩ := relErr_factor hr (D + rnd (F * dt1))
  have hg : g ≠ 0 := by
    rintro rfl
    apply hF'
    rw [e1]; ring
  have hT := triple (1 / 2 ^ 53) η1 η2 η3 (by positivity) (by norm_num) h1 h2 h3
  have hFb : |F| ≤ 1 + 1 / 2 ^ 12 := by
    have := abs_add_le (F - 1) 1
    rw [sub_add_cancel, abs_one] at this
    linarith
  -- the delay
  have hFd : |F * dt1| ≤ (1 + 1 / 2 ^ 12) * 10 ^ 8 := by
    rw [abs_mul]; exact mul_le_mul hFb hdt (abs_nonneg _) (by norm_num)
  have hFd4 : |F * dt1 * η4| ≤ (1 + 1 / 2 ^ 12) * 10 ^ 8 * (1 / 2 ^ 53) := by
    rw [abs_mul]; exact mul_le_mul hFd h4 (abs_nonneg _) (by norm_num)
  have hFd5 : |rnd (F * dt1)| ≤ 1003 * 10 ^ 5 := by
    rw [e4]
    have : F * dt1 * (1 + η4) = F * dt1 + F * dt1 * η4 := by ring
    rw [this]
    refine (abs_add_le _ _).trans ?_
    norm_num at hFd hFd4 ⊢
    linarith
  have hS : |D + rnd (F * dt1)| ≤ k * (101 * 10 ^ 6) + 1003 * 10 ^ 5 := (abs_add_le _ _).trans (by linarith)
  have hS5 : |(D + rnd (F * dt1)) * η5| ≤ (k * (101 * 10 ^ 6) + 1003 * 10 ^ 5) * (1 / 2 ^ 53) := by
    rw [abs_mul]; exact mul_le_mul hS h5 (abs_nonneg _) (by positivity)
  refine ⟨?_, ?_⟩
  · rw [e5, show (D + rnd (F * dt1)) * (1 + η5) = (D + rnd (F * dt1)) + (D + rnd (F * dt1)) * η5 by ring]
    refine (abs_add_le _ _).trans ?_
    norm_num at hS hS5 hk1 ⊢
    linarith
  · have hmain : rnd (F * g) * rndA (rndA (b - dt1) / g) + rnd (D + rnd (F * dt1)) - t =
        (F * b + D - t) + F * (b - dt1) * ((1 + η1) * (1 + η2) * (1 + η3) - 1) + F * dt1 * η4 +
          (D + rnd (F * dt1)) * η5 := by
      rw [e3, e2, e1, e5, e4]
      field_simp
      ring
    rw [hmain]
    have hFbb : |F * (b - dt1)| ≤ X + k * (101 * 10 ^ 6) + k * (X + k * (101 * 10 ^ 6)) / 2 ^ 50 + (1 + 1 / 2 ^ 12) * 10 ^ 8 := by
      have : F * (b - dt1) = (F * b + D - t) + t - D - F * dt1 := by ring
      rw [this]
      have q1 := abs_sub ((F * b + D - t) + t - D) (F * dt1)
      have q2 := abs_sub ((F * b + D - t) + t) D
      have q3 := abs_add_le (F * b + D - t) t
      linarith
    have hZ : k * (X + k * (101 * 10 ^ 6)) / 2 ^ 50 ≤ (X + k * (101 * 10 ^ 6)) / 2 ^ 15 := by
      have h0 : 0 ≤ X + k * (101 * 10 ^ 6) := by positivity
      generalize X + k * (101 * 10 ^ 6) = Y at *
      have : k * Y ≤ 2 ^ 35 * Y := mul_le_mul_of_nonneg_right (by linarith) h0
      rw [div_le_div_iff₀ (by norm_num) (by norm_num)]
      norm_num at this ⊢
      linarith
    have hFT : |F * (b - dt1) * ((1 + η1) * (1 + η2) * (1 + η3) - 1)| ≤
        (X + k * (101 * 10 ^ 6) + (X + k * (101 * 10 ^ 6)) / 2 ^ 15 + (1 + 1 / 2 ^ 12) * 10 ^ 8) * (4 * (1 / 2 ^ 53)) := by
      rw [abs_mul]
      exact mul_le_mul (by linarith) hT (abs_nonneg _) (by positivity)
    have t1 := abs_add_le ((F * b + D - t) + F * (b - dt1) * ((1 + η1) * (1 + η2) * (1 + η3) - 1) + F * dt1 * η4)
      ((D + rnd (F * dt1)) * η5)
    have t2 := abs_add_le ((F * b + D - t) + F * (b - dt1) * ((1 + η1) * (1 + η2) * (1 + η3) - 1)) (F * dt1 * η4)
    have t3 := abs_add_le (F * b + D - t) (F * (b - dt1) * ((1 + η1) * (1 + η2) * (1 + η3) - 1))
    have hexp : (k + 1) * (X + (k + 1) * (101 * 10 ^ 6)) / 2 ^ 50 =
        k * (X + k * (101 * 10 ^ 6)) / 2 ^ 50 + (X + (2 * k + 1) * (101 * 10 ^ 6)) / 2 ^ 50 := by ring
    rw [hexp]
    generalize k * (X + k * (101 * 10 ^ 6)) / 2 ^ 50 = E at *
    refine t1.trans ?_
    norm_num at *
    linarith

theorem composedR_append (rnd rndA : ℚ → ℚ) (trace : List TFEntry) (e : TFEntry) (t : ℚ) :
    composedR rnd rndA (trace ++ [e]) t = rndA (rndA (composedR rnd rndA trace t - e.dt1) / rnd (1 + e.df1)) := by
  unfold composedR
  rw [List.foldl_append]
  rfl

theorem small_of_rnd {rnd : ℚ → ℚ} (hr : RelErr rnd) (x : ℚ) (h : |rnd x| < maxFcorr) : |x| ≤ 1 / 2 ^ 12 := by
  have h1 := hr x
  have h2 := abs_sub_abs_le_abs_sub x (rnd x)
  rw [abs_sub_comm] at h2
  unfold maxFcorr at h
  norm_num at *
  linarith

/-- The accumulated values and the rounded corrections belong together. -/
def RoundInv (P : TFParams) (bts : List ℚ) (f dt : ℚ) (trace : List TFEntry) : Prop :=
  |f - 1| ≤ 1 / 2 ^ 12 ∧
  (trace.length ≤ 2 ^ 35 → |dt| ≤ trace.length * (101 * 10 ^ 6) ∧
    ∀ t, |f * composedR P.rnd P.rndA trace t + dt - t| ≤ trace.length * (|t| + trace.length * (101 * 10 ^ 6)) / 2 ^ 50) ∧
  (∀ (i : Nat) e, (trace)[i]? = some e → e.bts = bts.map (composedR P.rnd P.rndA (trace.take i))) ∧
  ∀ pre e post, trace = pre ++ e :: post → pre.length ≤ 2 ^ 35 → ∃ F D : ℚ, |F - 1| ≤ 1 / 2 ^ 12 ∧
    |D| ≤ pre.length * (101 * 10 ^ 6) ∧
    (∀ t, |F * composedR P.rnd P.rndA pre t + D - t| ≤ pre.length * (|t| + pre.length * (101 * 10 ^ 6)) / 2 ^ 50) ∧
    |P.rnd (F * P.rnd (1 + e.df1)) - 1| ≤ 1 / 2 ^ 12 ∧ |e.dt1| ≤ 10 ^ 8

theorem roundInv_step (P : TFParams) (hr : RelErr P.rnd) (hra : RelErr P.rndA) (bts cur : List ℚ) (f dt dt1 df1 : ℚ)
    (trace : List TFEntry) (h : RoundInv P bts f dt trace) (hcur : cur = bts.map (composedR P.rnd P.rndA trace))
    (hd : |dt1| ≤ ntpMaxDelay) (hf : |P.rnd (P.rnd (f * P.rnd (1 + df1)) - 1)| < maxFcorr) :
    RoundInv P bts (P.rnd (f * P.rnd (1 + df1))) (P.rnd (dt + P.rnd (f * dt1)))
      (trace ++ [{ bts := cur, dt1 := dt1, df1 := df1 }]) := by
  obtain ⟨h1, h2, h3, h4⟩ := h
  have hf' := small_of_rnd hr _ hf
  have hne : P.rnd (f * P.rnd (1 + df1)) ≠ 0 := by
    intro h0
    rw [h0] at hf'
    norm_num at hf'
  refine ⟨hf', ?_, ?_, ?_⟩
  · intro hl
    rw [List.length_append, List.length_singleton] at hl ⊢
    obtain ⟨g1, g2⟩ := h2 (by omega)
    have hk1 : ((trace.length : ℚ)) + 1 ≤ 2 ^ 35 := by exact_mod_cast hl
    push_cast
    refine ⟨(step_error P.rnd P.rndA hr hra f dt (composedR P.rnd P.rndA trace 0) 0 dt1 (P.rnd (1 + df1)) |0| trace.length
      (by positivity) hk1 (abs_nonneg _) h1 hne hd g1 rfl (g2 0)).1, fun t => ?_⟩
    rw [composedR_append]
    exact (step_error P.rnd P.rndA hr hra f dt (composedR P.rnd P.rndA trace t) t dt1 (P.rnd (1 + df1)) |t| trace.length
      (by positivity) hk1 (abs_nonneg _) h1 hne hd g1 rfl (g2 t)).2
  · intro i e he
    rcases Nat.lt_or_ge i trace.length with hi | hi
    · rw [List.getElem?_append_left hi] at he
      rw [List.take_append_of_le_length hi.le]
      exact h3 i e he
    · rw [List.getElem?_append_right hi] at he
      have hi0 : i - trace.length = 0 := by
        by_contra hc
        rw [List.getElem?_eq_none (by simp; omega)] at he
        cases he
      rw [hi0] at he
      simp only [List.getElem?_cons_zero, Option.some.injEq] at he
      have : i = trace.length := by omega
      subst this he
      rw [List.take_append_of_le_length le_rfl, List.take_length]
      exact hcur
  · intro pre e post he hl
    rcases List.eq_nil_or_concat post with rfl | ⟨post', x, rfl⟩
    · obtain ⟨rfl, he'⟩ := List.append_inj' he (by simp)
      simp only [List.cons.injEq, and_true] at he'
      subst he'
      exact ⟨f, dt, h1, (h2 hl).1, (h2 hl).2, hf', hd⟩
    · rw [List.concat_eq_append, ← List.cons_append, ← List.append_assoc] at he
      obtain ⟨he', -⟩ := List.append_inj' he (by simp)
      exact h4 pre e post' he' hl

theorem roundInv_result (P : TFParams) (hr : RelErr P.rnd) (bts : List ℚ) (f dt : ℚ) (trace : List TFEntry)
    (h : RoundInv P bts f dt trace) (hne : trace ≠ []) (hl : trace.length ≤ 2 ^ 35) (t : ℚ) :
    |corrected dt (P.rnd (f - 1)) t - composedR P.rnd P.rndA trace t| ≤
      trace.length * (|t| + trace.length * (101 * 10 ^ 6)) / 2 ^ 49 := by
  obtain ⟨h1, h2, -, -⟩ := h
  obtain ⟨g1, g2⟩ := h2 hl
  have g3 := g2 t
  have hn : (1 : ℚ) ≤ trace.length := by
    have : 1 ≤ trace.length := List.length_pos_iff.mpr hne
    exact_mod_cast this
  have hn2 : (trace.length : ℚ) ≤ 2 ^ 35 := by exact_mod_cast hl
  have e1 := hr (f - 1)
  set b := composedR P.rnd P.rndA trace t
  set df := P.rnd (f - 1)
  set n : ℚ := (trace.length : ℚ)
  set X : ℚ := |t| + n * (101 * 10 ^ 6) with hX
  have hX0 : 0 ≤ X := by positivity
  have hfl : 1 - 1 / 2 ^ 12 ≤ |f| := by
    have := abs_sub_abs_le_abs_sub 1 f
    rw [abs_one, abs_sub_comm] at this
    linarith
  have hE : n * X / 2 ^ 50 ≤ X / 2 ^ 15 := by
    have : n * X ≤ 2 ^ 35 * X := mul_le_mul_of_nonneg_right hn2 hX0
    rw [div_le_div_iff₀ (by norm_num) (by norm_num)]
    norm_num at this ⊢
    linarith
  have hb : |b| ≤ 2 * X := by
    have q : |f * b| ≤ X + X / 2 ^ 15 := by
      have : f * b = (f * b + dt - t) + t - dt := by ring
      rw [this]
      have q2 := abs_sub ((f * b + dt - t) + t) dt
      have q3 := abs_add_le (f * b + dt - t) t
      linarith
    rw [abs_mul] at q
    have : (1 - 1 / 2 ^ 12) * |b| ≤ X + X / 2 ^ 15 :=
      le_trans (mul_le_mul_of_nonneg_right hfl (abs_nonneg _)) q
    norm_num at this ⊢
    linarith
  have hdf : |df - (f - 1)| ≤ 1 / 2 ^ 65 := by
    refine e1.trans ?_
    norm_num at h1 ⊢
    linarith
  have hdfs : |df| ≤ 1 / 2 ^ 11 := by
    have := abs_add_le (df - (f - 1)) (f - 1)
    rw [sub_add_cancel] at this
    norm_num at *
    linarith
  have hpos : 1 - 1 / 2 ^ 11 ≤ 1 + df := by linarith [(abs_le.mp hdfs).1]
  have hpos0 : 0 < 1 + df := lt_of_lt_of_le (by norm_num) hpos
  have hdiff : corrected dt df t - b = (-(f * b + dt - t) - (df - (f - 1)) * b) / (1 + df) := by
    unfold corrected
    field_simp
    ring
  rw [hdiff, abs_div, abs_of_pos hpos0, div_le_iff₀ hpos0]
  have hq : |(df - (f - 1)) * b| ≤ 1 / 2 ^ 65 * (2 * X) := by
    rw [abs_mul]; exact mul_le_mul hdf hb (abs_nonneg _) (by positivity)
  have hq2 : |-(f * b + dt - t) - (df - (f - 1)) * b| ≤ n * X / 2 ^ 50 + 1 / 2 ^ 65 * (2 * X) := by
    have := abs_sub (-(f * b + dt - t)) ((df - (f - 1)) * b)
    rw [abs_neg] at this
    linarith
  refine hq2.trans ?_
  have hnX : X ≤ n * X := le_mul_of_one_le_left hX0 hn
  have hY : 0 ≤ n * X / 2 ^ 49 := by positivity
  have hlast : n * X / 2 ^ 49 * (1 - 1 / 2 ^ 11) ≤ n * X / 2 ^ 49 * (1 + df) := mul_le_mul_of_nonneg_left hpos hY
  refine le_trans ?_ hlast
  norm_num at *
  linarith

theorem run_inv (P : TFParams) (hr : RelErr P.rnd) (hra : RelErr P.rndA) (bts : List ℚ) (res dt df : ℚ)
    (trace : List TFEntry) (h : Returns (fun fuel => timeFreq P fuel bts res) (.ok (dt, df, trace))) :
    ∃ f, RoundInv P bts f dt trace ∧ df = P.rnd (f - 1) ∧ trace ≠ [] := by
  obtain ⟨N, hN⟩ := h
  have h1 := hN N le_rfl
  have := runLoop_inv (tfStep P) (fun s => RoundInv P bts s.f s.dt s.trace ∧
      s.bts = bts.map (composedR P.rnd P.rndA s.trace) ∧ (s.iter = 1 ∨ s.trace ≠ []))
    (fun r => ∀ dt df trace, r = .ok (dt, df, trace) → ∃ f, RoundInv P bts f dt trace ∧ df = P.rnd (f - 1) ∧ trace ≠ [])
    ?_ ?_ N _ _ ?_ h1
  · exact this dt df trace rfl
  · intro s s' ⟨hs, hb, hne⟩ hst
    rcases tfStep_inl P s s' hst with ⟨ph, rs, he⟩ | ⟨dt1, dur, hp, hl⟩
    · rw [he]
      exact ⟨hs, hb, hne⟩
    · obtain ⟨df1, hd, hf, hres, he⟩ := tfLate_inl P s s' dt1 dur hl
      rw [he]
      refine ⟨roundInv_step P hr hra bts s.bts s.f s.dt dt1 df1 s.trace hs hb hd hf, ?_, Or.inr (by simp)⟩
      simp only
      rw [hb, List.map_map]
      apply List.map_congr_left
      intro t _
      simp only [Function.comp, composedR_append]
  · intro s r ⟨hs, hb, hne⟩ hst dt df trace he
    rw [he] at hst
    obtain ⟨dt1, dur, hp, hl'⟩ := tfStep_ok P s _ hst
    rcases tfLate_ok P s dt1 dur dt df trace hl' with ⟨hi, e1, e2, e3⟩ | ⟨df1, hd, hdf, hres, e1, e2, e3⟩
    · subst e1 e2 e3
      exact ⟨s.f, hs, rfl, hne.resolve_left hi⟩
    · rw [e2] at hdf
      have hs' := roundInv_step P hr hra bts s.bts s.f s.dt dt1 df1 s.trace hs hb hd hdf
      rw [e1, e2, e3]
      exact ⟨_, hs', rfl, by simp⟩
  · refine ⟨⟨by norm_num, ?_, by simp, by simp⟩, ?_, Or.inl rfl⟩
    · intro _
      simp [composedR]
    · have : composedR P.rnd P.rndA [] = id := by funext t; rfl
      rw [this, List.map_id]

theorem prefix_approx (P : TFParams) (hr : RelErr P.rnd) (hra : RelErr P.rndA) (bts : List ℚ) (res dt df : ℚ)
    (trace : List TFEntry) (h : Returns (fun fuel => timeFreq P fuel bts res) (.ok (dt, df, trace))) :
    ∀ pre e post, trace = pre ++ e :: post → pre.length ≤ 2 ^ 35 → ∃ F D : ℚ, |F - 1| ≤ 1 / 2 ^ 12 ∧
    |D| ≤ pre.length * (101 * 10 ^ 6) ∧
    (∀ t, |F * composedR P.rnd P.rndA pre t + D - t| ≤ pre.length * (|t| + pre.length * (101 * 10 ^ 6)) / 2 ^ 50) ∧
    |P.rnd (F * P.rnd (1 + e.df1)) - 1| ≤ 1 / 2 ^ 12 ∧ |e.dt1| ≤ 10 ^ 8 := by
  obtain ⟨f, h1, -⟩ := run_inv P hr hra bts res dt df trace h
  exact h1.2.2.2

theorem last_factor {rnd : ℚ → ℚ} (hr : RelErr rnd) (F df1 : ℚ) (hF : |F - 1| ≤ 1 / 2 ^ 12)
    (hF' : |rnd (F * rnd (1 + df1)) - 1| ≤ 1 / 2 ^ 12) : 1 - 1 / 2 ^ 11 - 1 / 2 ^ 20 ≤ 1 + df1 := by
  have hFlo : 1 - 1 / 2 ^ 12 ≤ F := by linarith [(abs_le.mp hF).1]
  have hFhi : F ≤ 1 + 1 / 2 ^ 12 := by linarith [(abs_le.mp hF).2]
  have hF0 : 0 < F := lt_of_lt_of_le (by norm_num) hFlo
  obtain ⟨η1, k1, e1⟩ := relErr_factor hr (F * rnd (1 + df1))
  obtain ⟨η2, k2, e2⟩ := relErr_factor hr (1 + df1)
  rw [e1, e2, abs_le] at hF'
  have hprod : F * ((1 + df1) * (1 + η2)) * (1 + η1) = (1 + df1) * (F * (1 + η2) * (1 + η1)) := by ring
  rw [hprod] at hF'
  have k1' := abs_le.mp k1
  have k2' := abs_le.mp k2
  have hm1 : F * (1 + η2) ≤ (1 + 1 / 2 ^ 12) * (1 + 1 / 2 ^ 53) :=
    mul_le_mul hFhi (by linarith [k2'.2]) (by linarith [k2'.1]) (by norm_num)
  have hm0 : 0 < F * (1 + η2) := mul_pos hF0 (by
    have : (1 : ℚ) / 2 ^ 53 < 1 := by norm_num
    linarith [k2'.1])
  have hm2 : F * (1 + η2) * (1 + η1) ≤ (1 + 1 / 2 ^ 12) * (1 + 1 / 2 ^ 53) * (1 + 1 / 2 ^ 53) :=
    mul_le_mul hm1 (by linarith [k1'.2]) (by
      have : (1 : ℚ) / 2 ^ 53 < 1 := by norm_num
      linarith [k1'.1]) (by norm_num)
  have hm3 : 0 < F * (1 + η2) * (1 + η1) := mul_pos hm0 (by
    have : (1 : ℚ) / 2 ^ 53 < 1 := by norm_num
    linarith [k1'.1])
  by_contra hcon
  push Not at hcon
  have : (1 + df1) * (F * (1 + η2) * (1 + η1)) ≤ (1 - 1 / 2 ^ 11 - 1 / 2 ^ 20) * (F * (1 + η2) * (1 + η1)) :=
    mul_le_mul_of_nonneg_right hcon.le hm3.le
  have h7 : (1 - 1 / 2 ^ 11 - 1 / 2 ^ 20) * (F * (1 + η2) * (1 + η1)) ≤
      (1 - 1 / 2 ^ 11 - 1 / 2 ^ 20) * ((1 + 1 / 2 ^ 12) * (1 + 1 / 2 ^ 53) * (1 + 1 / 2 ^ 53)) :=
    mul_le_mul_of_nonneg_left hm2 (by norm_num)
  have h8 := hF'.1
  norm_num at h7 h8
  linarith

theorem last_step {rnd rndA : ℚ → ℚ} (hr : RelErr rnd) (hra : RelErr rndA) (x df1 Y : ℚ) (hY0 : 0 ≤ Y)
    (hg0 : 0 < 1 + df1) (hginv : 1 / (1 + df1) ≤ 1 + 1 / 2 ^ 10) (hcb : |x| ≤ 2 * Y) :
    |rndA (rndA x / rnd (1 + df1)) - x / (1 + df1)| ≤ Y / 2 ^ 49 := by
  obtain ⟨η2, k2, e2⟩ := relErr_factor hr (1 + df1)
  obtain ⟨η3, k3, e3⟩ := relErr_factor hra x
  obtain ⟨η4, k4, e4⟩ := relErr_factor hra (rndA x / rnd (1 + df1))
  have hη2 : 0 < 1 + η2 := by
    have : (1 : ℚ) / 2 ^ 53 < 1 := by norm_num
    linarith [(abs_le.mp k2).1]
  have hd : rndA (rndA x / rnd (1 + df1)) - x / (1 + df1) =
      x * (((1 + η3) * (1 + η4) - (1 + η2)) / (1 + η2)) * (1 / (1 + df1)) := by
    rw [e4, e3, e2]
    field_simp
  have hq : |((1 + η3) * (1 + η4) - (1 + η2)) / (1 + η2)| ≤ 4 * (1 / 2 ^ 53) := by
    rw [abs_div, abs_of_pos hη2, div_le_iff₀ hη2]
    have hp : |η3 * η4| ≤ 1 / 2 ^ 53 * (1 / 2 ^ 53) := by
      rw [abs_mul]; exact mul_le_mul k3 k4 (abs_nonneg _) (by norm_num)
    have k2' := abs_le.mp k2
    have k3' := abs_le.mp k3
    have k4' := abs_le.mp k4
    have hp' := abs_le.mp hp
    rw [show (1 + η3) * (1 + η4) - (1 + η2) = η3 + η4 + η3 * η4 - η2 by ring, abs_le]
    constructor <;> norm_num at * <;> linarith [k2'.1, k2'.2, k3'.1, k3'.2, k4'.1, k4'.2, hp'.1, hp'.2]
  rw [hd, abs_mul, abs_mul, abs_of_pos (a := 1 / (1 + df1)) (by positivity)]
  have hx : |x| * |((1 + η3) * (1 + η4) - (1 + η2)) / (1 + η2)| ≤ 2 * Y * (4 * (1 / 2 ^ 53)) :=
    mul_le_mul hcb hq (abs_nonneg _) (by positivity)
  have hx2 : |x| * |((1 + η3) * (1 + η4) - (1 + η2)) / (1 + η2)| * (1 / (1 + df1)) ≤
      2 * Y * (4 * (1 / 2 ^ 53)) * (1 + 1 / 2 ^ 10) := mul_le_mul hx hginv (by positivity) (by positivity)
  refine hx2.trans ?_
  norm_num
  linarith

end Fp
