import Verif.Spec.FpLocal
import Verif.Lemmas.FpFind

/-! Helper lemmas for `Verif/Props/FpLocal.lean`. -/
namespace Fp
open Spec

/-- Two loops in lockstep. -/
theorem runLoop_rel {σ ρ τ : Type} (step step' : σ → σ ⊕ ρ) (R : σ → σ → Prop) (q : ρ → τ)
    (h : ∀ s s', R s s' → (∃ t t', step s = .inl t ∧ step' s' = .inl t' ∧ R t t') ∨
      ∃ r r', step s = .inr r ∧ step' s' = .inr r' ∧ q r = q r') (fuel : Nat) (s s' : σ) (hs : R s s') :
    (runLoop step' fuel s').map q = (runLoop step fuel s).map q := by
  induction fuel generalizing s s' with
  | zero => rfl
  | succ n ih =>
    rcases h s s' hs with ⟨t, t', h1, h2, h3⟩ | ⟨r, r', h1, h2, h3⟩
    · rw [runLoop_step _ _ _ h1, runLoop_step _ _ _ h2]
      exact ih t t' h3
    · rw [runLoop_stop _ _ _ h1, runLoop_stop _ _ _ h2, Option.map_some, Option.map_some, h3]

theorem slice_append (rnd : ℚ → ℚ) (l x : List ℚ) (start dur : ℚ) (hx : ∀ y ∈ x, dur ≤ rnd (y - start))
    (hl : ∃ z ∈ l, 0 ≤ rnd (z - start)) :
    sliceTimestampsR rnd (l ++ x) (some start) (some dur) = sliceTimestampsR rnd l (some start) (some dur) := by
  obtain ⟨z, hz, hz0⟩ := hl
  have hne : ∀ r : List ℚ, (((l ++ r).map fun t => rnd (t - start)).filter fun t => decide (0 ≤ t)) ≠ [] := by
    intro r h
    have : rnd (z - start) ∈ (((l ++ r).map fun t => rnd (t - start)).filter fun t => decide (0 ≤ t)) := by
      rw [List.mem_filter]
      exact ⟨List.mem_map.mpr ⟨z, List.mem_append_left _ hz, rfl⟩, by simpa using hz0⟩
    rw [h] at this
    simp at this
  have h1 := hne x
  have h2 := hne []
  rw [List.append_nil] at h2
  unfold sliceTimestampsR
  simp only [bind, Except.bind, pure, Except.pure, if_neg h1, if_neg h2]
  rw [List.map_append, List.filter_append, List.filter_append]
  have : List.filter (fun t => decide (t < dur)) (List.filter (fun t => decide (0 ≤ t)) (List.map (fun t => rnd (t - start)) x)) = [] := by
    rw [List.filter_eq_nil_iff]
    intro t ht
    obtain ⟨y, hy, rfl⟩ := List.mem_map.mp (List.mem_filter.mp ht).1
    simpa using hx y hy
  rw [this, List.append_nil]

/-- A correlation does not see events after its windows. -/
theorem correlate_append (P : TFParams) (a' : List ℚ) (E : ℚ) (xa : List ℚ) (ha' : a' = P.ats ++ xa) (bts xb : List ℚ) (res start dur : ℚ)
    (hxa : ∀ y ∈ xa, dur ≤ P.rndA (y - start)) (hxb : ∀ y ∈ xb, dur ≤ P.rndA (y - start))
    (hza : ∃ z ∈ P.ats, 0 ≤ P.rndA (z - start)) (hzb : ∃ z ∈ bts, 0 ≤ P.rndA (z - start)) :
    tfCorrelate { P with ats := a', endTime := E } (bts ++ xb) res start dur = tfCorrelate P bts res start dur := by
  subst ha'
  unfold tfCorrelate
  simp only [slice_append P.rndA P.ats xa start dur hxa hza, slice_append P.rndA bts xb start dur hxb hzb]

/-- Times after the end of the windows are after each window. -/
theorem late_window {rnd : ℚ → ℚ} (hr : RelErr rnd) {D sep dur y start : ℚ} (hD : 0 < D) (hsep : 0 ≤ sep) (hd : dur ≤ 2 * D * (1 + 1 / 2 ^ 50))
    (hy : sep + 2 * D * (1 + 1 / 2 ^ 40) ≤ y) (hs : start ≤ sep) : dur ≤ rnd (y - start) := by
  have h1 : 0 ≤ y - start := by
    have : 0 ≤ 2 * D * (1 + 1 / 2 ^ 40) := by positivity
    linarith
  have h2 := (relErr_le rnd hr (y - start) h1).2
  have h3 : 2 * D * (1 + 1 / 2 ^ 40) * (1 - 1 / 2 ^ 53) ≤ (y - start) * (1 - 1 / 2 ^ 53) :=
    mul_le_mul_of_nonneg_right (by linarith) (by norm_num)
  have h4 : 2 * D * (1 + 1 / 2 ^ 50) ≤ 2 * D * ((1 + 1 / 2 ^ 40) * (1 - 1 / 2 ^ 53)) :=
    mul_le_mul_of_nonneg_left (by norm_num) (by positivity)
  linarith

theorem rne_le_two {y : ℚ} (hy : 0 ≤ y) : (rne y : ℚ) ≤ 2 * y := by
  rcases le_or_gt y (1 / 2) with h | h
  · have : rne y ≤ rne (1 / 2) := rne_mono h
    have h2 : rne (1 / 2) = 0 := by decide +kernel
    rw [h2] at this
    have : (rne y : ℚ) ≤ 0 := by exact_mod_cast this
    linarith
  · have := abs_le.mp (rne_spec y)
    linarith [this.2]

/-- The duration of a correlation: it does not depend on the end of recordings that are long enough, and is at most twice the
nominal duration. -/
theorem duration_long (P : TFParams) (hr : RelErr P.rnd) (hra : RelErr P.rndA) (hD : 0 < P.duration) (hN : 0 < P.numBins)
    (res : ℚ) (hres : 0 < res) (hE : 2 * P.duration * (1 + 1 / 2 ^ 40) ≤ P.endTime) :
    tfDuration P res = P.rnd (P.rnd (rne (P.rnd (P.duration / P.rnd (res * P.numBins))) * res) * P.numBins) ∧
      tfDuration P res ≤ 2 * P.duration * (1 + 1 / 2 ^ 50) := by
  have hNq : (0 : ℚ) < P.numBins := by exact_mod_cast hN
  have hp0 : 0 < res * P.numBins := by positivity
  have hp := relErr_le P.rnd hr (res * P.numBins) hp0.le
  obtain ⟨p, hpe⟩ : ∃ p, p = P.rnd (res * P.numBins) := ⟨_, rfl⟩
  rw [← hpe] at hp
  have hpp : 0 < p := lt_of_lt_of_le (mul_pos hp0 (by norm_num)) hp.2
  have hy := relErr_le P.rnd hr (P.duration / p) (by positivity)
  have hz := relErr_le P.rndA hra (P.endTime / p) (by
    have : 0 ≤ P.endTime := le_trans (by positivity) hE
    positivity)
  obtain ⟨y, hye⟩ : ∃ y, y = P.rnd (P.duration / p) := ⟨_, rfl⟩
  obtain ⟨z, hze⟩ : ∃ z, z = P.rndA (P.endTime / p) := ⟨_, rfl⟩
  rw [← hye] at hy
  rw [← hze] at hz
  have hy0 : 0 ≤ y := le_trans (mul_nonneg (by positivity) (by norm_num)) hy.2
  have h2 := rne_le_two hy0
  have hzy : 2 * y ≤ z := by
    have a1 : 2 * P.duration * (1 + 1 / 2 ^ 40) / p ≤ P.endTime / p := div_le_div_of_nonneg_right hE hpp.le
    have a2 : 2 * P.duration * (1 + 1 / 2 ^ 40) / p * (1 - 1 / 2 ^ 53) ≤ P.endTime / p * (1 - 1 / 2 ^ 53) :=
      mul_le_mul_of_nonneg_right a1 (by norm_num)
    have a3 : P.duration / p * (2 * (1 + 1 / 2 ^ 53)) ≤ P.duration / p * (2 * ((1 + 1 / 2 ^ 40) * (1 - 1 / 2 ^ 53))) :=
      mul_le_mul_of_nonneg_left (by norm_num) (by positivity)
    have a4 : 2 * P.duration * (1 + 1 / 2 ^ 40) / p * (1 - 1 / 2 ^ 53) = P.duration / p * (2 * ((1 + 1 / 2 ^ 40) * (1 - 1 / 2 ^ 53))) := by
      ring
    linarith [hy.1, hz.2]
  have hw : ¬ ((⌊z⌋ : ℤ) : ℚ) < (rne y : ℚ) := by
    rw [not_lt]
    exact_mod_cast Int.le_floor.mpr (h2.trans hzy)
  have hrne : (0 : ℚ) ≤ rne y := by
    have : rne 0 ≤ rne y := rne_mono hy0
    rw [show rne 0 = 0 by decide +kernel] at this
    exact_mod_cast this
  have he : tfDuration P res = P.rnd (P.rnd (rne y * res) * P.numBins) := by
    unfold tfDuration
    simp only
    rw [← hpe, ← hye, ← hze, if_neg hw]
  refine ⟨by rw [he, hye, hpe], ?_⟩
  rw [he]
  have b1 := (relErr_le P.rnd hr (rne y * res) (by positivity)).1
  have b1n : 0 ≤ P.rnd (rne y * res) := le_trans (mul_nonneg (by positivity) (by norm_num)) (relErr_le P.rnd hr (rne y * res) (by positivity)).2
  have b2 := (relErr_le P.rnd hr (P.rnd (rne y * res) * P.numBins) (by positivity)).1
  have b3 : P.rnd (rne y * res) * P.numBins ≤ rne y * res * (1 + 1 / 2 ^ 53) * P.numBins := mul_le_mul_of_nonneg_right b1 hNq.le
  have b4 : P.rnd (rne y * res) * P.numBins * (1 + 1 / 2 ^ 53) ≤ rne y * res * (1 + 1 / 2 ^ 53) * P.numBins * (1 + 1 / 2 ^ 53) :=
    mul_le_mul_of_nonneg_right b3 (by norm_num)
  have b5 : (rne y : ℚ) * (res * P.numBins) ≤ 2 * (P.duration / p * (1 + 1 / 2 ^ 53)) * (res * P.numBins) :=
    mul_le_mul_of_nonneg_right (h2.trans (by linarith [hy.1])) hp0.le
  have b6 : P.duration / p * (res * P.numBins) * (1 - 1 / 2 ^ 53) ≤ P.duration := by
    have : P.duration / p * (res * P.numBins * (1 - 1 / 2 ^ 53)) ≤ P.duration / p * p := mul_le_mul_of_nonneg_left hp.2 (by positivity)
    rw [div_mul_cancel₀ _ hpp.ne'] at this
    linarith
  have b7 : P.duration / p * (res * P.numBins) ≤ P.duration * (1 + 1 / 2 ^ 52) := by
    have : P.duration ≤ P.duration * ((1 + 1 / 2 ^ 52) * (1 - 1 / 2 ^ 53)) := le_mul_of_one_le_right hD.le (by norm_num)
    have h : P.duration / p * (res * P.numBins) * (1 - 1 / 2 ^ 53) ≤ P.duration * (1 + 1 / 2 ^ 52) * (1 - 1 / 2 ^ 53) := by linarith
    exact le_of_mul_le_mul_right h (by norm_num)
  calc P.rnd (P.rnd (rne y * res) * P.numBins) ≤ (rne y : ℚ) * (res * P.numBins) * ((1 + 1 / 2 ^ 53) * (1 + 1 / 2 ^ 53)) := by linarith
    _ ≤ 2 * (P.duration / p * (1 + 1 / 2 ^ 53)) * (res * P.numBins) * ((1 + 1 / 2 ^ 53) * (1 + 1 / 2 ^ 53)) :=
        mul_le_mul_of_nonneg_right b5 (by norm_num)
    _ = P.duration / p * (res * P.numBins) * (2 * (1 + 1 / 2 ^ 53) ^ 3) := by ring
    _ ≤ P.duration * (1 + 1 / 2 ^ 52) * (2 * (1 + 1 / 2 ^ 53) ^ 3) := mul_le_mul_of_nonneg_right b7 (by norm_num)
    _ = 2 * P.duration * ((1 + 1 / 2 ^ 52) * (1 + 1 / 2 ^ 53) ^ 3) := by ring
    _ ≤ 2 * P.duration * (1 + 1 / 2 ^ 50) := mul_le_mul_of_nonneg_left (by norm_num) (by positivity)

/-- A target time `y` in an iteration: it started after `V`. -/
def FarAt (V f : ℚ) (iter : Nat) (y : ℚ) : Prop := V - ((iter : ℚ) - 1) * (10005 * 10 ^ 4 + V / 2 ^ 50) ≤ y * f

theorem far_next {rnd rndA : ℚ → ℚ} (hr : RelErr rnd) (hra : RelErr rndA) {V f : ℚ} {iter : Nat} {y dt1 df1 : ℚ} (hV : 0 ≤ V)
    (hi : 1 ≤ iter) (hf : |f - 1| ≤ 1 / 2 ^ 12) (hf' : |rnd (rnd (f * rnd (1 + df1)) - 1)| < maxFcorr) (hdt : |dt1| ≤ ntpMaxDelay)
    (hL : 10005 * 10 ^ 4 ≤ V - ((iter : ℚ) - 1) * (10005 * 10 ^ 4 + V / 2 ^ 50)) (h : FarAt V f iter y) :
    FarAt V (rnd (f * rnd (1 + df1))) (iter + 1) (rndA (rndA (y - dt1) / rnd (1 + df1))) ∧ |rnd (f * rnd (1 + df1)) - 1| ≤ 1 / 2 ^ 12 := by
  unfold FarAt at h ⊢
  have hf1 := abs_le.mp hf
  have hfp : 0 < f := by linarith [hf1.1, show (1 : ℚ) / 2 ^ 12 < 1 by norm_num]
  obtain ⟨g, hg⟩ : ∃ g, g = rnd (1 + df1) := ⟨_, rfl⟩
  obtain ⟨F, hF⟩ : ∃ F, F = rnd (f * g) := ⟨_, rfl⟩
  rw [← hg, ← hF] at hf' ⊢
  have hF1 : |F - 1| ≤ 1 / 2 ^ 12 := by
    have e := hr (F - 1)
    have e2 : |F - 1| - |rnd (F - 1)| ≤ |rnd (F - 1) - (F - 1)| := by
      rw [abs_sub_comm (rnd (F - 1))]
      exact abs_sub_abs_le_abs_sub (F - 1) (rnd (F - 1))
    have e3 : maxFcorr = 1 / 2 ^ 13 := rfl
    rw [e3] at hf'
    have h0 := abs_nonneg (F - 1)
    nlinarith
  refine ⟨?_, hF1⟩
  have hF2 := abs_le.mp hF1
  have hFp : 0 < F := by linarith [hF2.1, show (1 : ℚ) / 2 ^ 12 < 1 by norm_num]
  have hfg : 0 < f * g := by
    by_contra hc
    push Not at hc
    have e := abs_le.mp (hr (f * g))
    rw [← hF, abs_of_nonpos hc] at e
    nlinarith [e.2]
  have hgp : 0 < g := (mul_pos_iff_of_pos_left hfp).mp hfg
  have hdt2 := abs_le.mp hdt
  have e3 : ntpMaxDelay = 10 ^ 8 := rfl
  rw [e3] at hdt2
  have hc0 : f * dt1 ≤ 10005 * 10 ^ 4 := by nlinarith [hf1.2, hdt2.2]
  have hyd : 0 ≤ y - dt1 := by
    have : 0 ≤ (y - dt1) * f := by nlinarith
    exact nonneg_of_mul_nonneg_left this hfp
  have r1 := (relErr_le rndA hra (y - dt1) hyd).2
  have r1n : 0 ≤ rndA (y - dt1) := le_trans (mul_nonneg hyd (by norm_num)) r1
  have r2 := (relErr_le rndA hra (rndA (y - dt1) / g) (by positivity)).2
  have r3 := (relErr_le rnd hr (f * g) hfg.le).2
  rw [← hF] at r3
  have s1 : (y - dt1) * (1 - 1 / 2 ^ 53) / g * (1 - 1 / 2 ^ 53) ≤ rndA (rndA (y - dt1) / g) :=
    le_trans (mul_le_mul_of_nonneg_right (div_le_div_of_nonneg_right r1 hgp.le) (by norm_num)) r2
  have s2 : (y - dt1) * (1 - 1 / 2 ^ 53) / g * (1 - 1 / 2 ^ 53) * (f * g * (1 - 1 / 2 ^ 53)) ≤ rndA (rndA (y - dt1) / g) * F :=
    mul_le_mul s1 r3 (mul_nonneg hfg.le (by norm_num))
      (le_trans (mul_nonneg (div_nonneg (mul_nonneg hyd (by norm_num)) hgp.le) (by norm_num)) s1)
  have s3 : (y - dt1) * (1 - 1 / 2 ^ 53) / g * (1 - 1 / 2 ^ 53) * (f * g * (1 - 1 / 2 ^ 53)) = (y - dt1) * f * (1 - 1 / 2 ^ 53) ^ 3 := by
    field_simp
  have s4 : (y - dt1) * f * (1 - 1 / 2 ^ 50) ≤ (y - dt1) * f * (1 - 1 / 2 ^ 53) ^ 3 :=
    mul_le_mul_of_nonneg_left (by norm_num) (mul_nonneg hyd hfp.le)
  refine le_trans ?_ (s4.trans (s3 ▸ s2))
  obtain ⟨L, hLe⟩ : ∃ L, L = V - ((iter : ℚ) - 1) * (10005 * 10 ^ 4 + V / 2 ^ 50) := ⟨_, rfl⟩
  rw [← hLe] at hL h
  have hi' : (0 : ℚ) ≤ (iter : ℚ) - 1 := by
    have : (1 : ℚ) ≤ iter := by exact_mod_cast hi
    linarith
  have hLV : L ≤ V := by
    rw [hLe]
    have : 0 ≤ ((iter : ℚ) - 1) * (10005 * 10 ^ 4 + V / 2 ^ 50) := by positivity
    linarith
  have t1 : V - (((iter + 1 : ℕ) : ℚ) - 1) * (10005 * 10 ^ 4 + V / 2 ^ 50) = L - (10005 * 10 ^ 4 + V / 2 ^ 50) := by
    rw [hLe]; push_cast; ring
  rw [t1]
  have t2 : (L - 10005 * 10 ^ 4) * (1 - 1 / 2 ^ 50) ≤ (y - dt1) * f * (1 - 1 / 2 ^ 50) :=
    mul_le_mul_of_nonneg_right (by linarith) (by norm_num)
  refine le_trans ?_ t2
  nlinarith

/-- The allowance for `k` iterations is enough. -/
theorem far_enough {W f V : ℚ} {k iter : Nat} {y : ℚ} (hW : 0 ≤ W) (hV : V = (1 + 1 / 2 ^ 11) * W + k * (1001 * 10 ^ 5)) (hk : k ≤ 1000)
    (hi : 1 ≤ iter) (hik : iter ≤ k) (hf : |f - 1| ≤ 1 / 2 ^ 12) (h : FarAt V f iter y) : W ≤ y := by
  unfold FarAt at h
  have hf1 := abs_le.mp hf
  have hfp : 0 < f := by linarith [hf1.1, show (1 : ℚ) / 2 ^ 12 < 1 by norm_num]
  have hkq : (k : ℚ) ≤ 1000 := by exact_mod_cast hk
  have hiq : (iter : ℚ) ≤ k := by exact_mod_cast hik
  have hi1 : (1 : ℚ) ≤ iter := by exact_mod_cast hi
  have hV0 : 0 ≤ V := by rw [hV]; positivity
  have h1 : ((iter : ℚ) - 1) * (10005 * 10 ^ 4 + V / 2 ^ 50) ≤ (k : ℚ) * (10005 * 10 ^ 4) + 1000 * (V / 2 ^ 50) := by
    have : 0 ≤ V / 2 ^ 50 := by positivity
    nlinarith
  have h2 : W * f ≤ W * (1 + 1 / 2 ^ 12) := mul_le_mul_of_nonneg_left (by linarith [hf1.2]) hW
  have h3 : W * (1 + 1 / 2 ^ 12) ≤ V - ((k : ℚ) * (10005 * 10 ^ 4) + 1000 * (V / 2 ^ 50)) := by
    have hk0 : (0 : ℚ) ≤ k := by positivity
    rw [hV]
    nlinarith
  exact le_of_mul_le_mul_right (by linarith) hfp

/-- What is left of the allowance before the last iteration. -/
theorem far_room {W V : ℚ} {k iter : Nat} (hW : 0 ≤ W) (hV : V = (1 + 1 / 2 ^ 11) * W + k * (1001 * 10 ^ 5)) (hk : k ≤ 1000)
    (hi : 1 ≤ iter) (hik : iter ≤ k) : 10005 * 10 ^ 4 ≤ V - ((iter : ℚ) - 1) * (10005 * 10 ^ 4 + V / 2 ^ 50) := by
  have hkq : (k : ℚ) ≤ 1000 := by exact_mod_cast hk
  have hiq : (iter : ℚ) ≤ k := by exact_mod_cast hik
  have hi1 : (1 : ℚ) ≤ iter := by exact_mod_cast hi
  have hV0 : 0 ≤ V := by rw [hV]; positivity
  have h1 : ((iter : ℚ) - 1) * (10005 * 10 ^ 4 + V / 2 ^ 50) ≤ ((k : ℚ) - 1) * (10005 * 10 ^ 4) + 1000 * (V / 2 ^ 50) := by
    have : 0 ≤ V / 2 ^ 50 := by positivity
    nlinarith
  have hk0 : (1 : ℚ) ≤ k := hi1.trans hiq
  have h3 : ((k : ℚ)) * (10005 * 10 ^ 4) ≤ V * (1 - 1000 / 2 ^ 50) := by
    rw [hV]
    nlinarith
  linarith

/-- What the bigger recordings change in a state: more target times. -/
def more (s : TFState) (b : List ℚ) (t : List TFEntry) : TFState := { s with bts := b, trace := t }

theorem begin_more (P : TFParams) (a' : List ℚ) (E : ℚ) (s : TFState) (b : List ℚ) (t : List TFEntry)
    (hd : tfDuration { P with ats := a', endTime := E } s.res = tfDuration P s.res)
    (hc : tfCorrelate { P with ats := a', endTime := E } b s.res 0 (tfDuration P s.res) = tfCorrelate P s.bts s.res 0 (tfDuration P s.res)) :
    tfBegin { P with ats := a', endTime := E } (more s b t) = (tfBegin P s).map fun u => more u b t := by
  unfold tfBegin more
  simp only [hd, hc, bind, Except.bind, pure, Except.pure]
  cases tfCorrelate P s.bts s.res 0 (tfDuration P s.res) with
  | error e => rfl
  | ok v =>
    simp only
    cases P.signif v.1 s.res <;> rfl

theorem search_more (P : TFParams) (a' : List ℚ) (E : ℚ) (s : TFState) (b : List ℚ) (t : List TFEntry) (ys : List ℚ) (dt1 sig dur : ℚ) :
    tfSearch { P with ats := a', endTime := E } (more s b t) ys dt1 sig dur = (tfSearch P s ys dt1 sig dur).map fun u => more u b t := by
  unfold tfSearch more
  simp only [bind, Except.bind, pure, Except.pure]
  split
  · rfl
  split
  · rfl
  cases mergePairs ys with
  | error e => rfl
  | ok v =>
    simp only
    split
    · rfl
    cases getTimingDelayFft v ((List.range v.length).map fun k : Nat => P.rnd ((k : ℚ) * P.rnd (s.res * 2))) with
    | error e => rfl
    | ok d =>
      simp only
      cases P.signif v (P.rnd (s.res * 2)) <;> rfl

/-- The state after a step that may fail. -/
def nextOf (r : Except PyErr TFState) : TFState ⊕ TFResult :=
  match r with
  | .ok s => .inl s
  | .error e => .inr (.error e)

theorem step_begin (P : TFParams) (s : TFState) (h : s.phase = .begin) : tfStep P s = nextOf (tfBegin P s) := by
  unfold tfStep nextOf
  rw [h]
  simp only
  cases tfBegin P s <;> rfl

theorem step_search (P : TFParams) (s : TFState) (ys : List ℚ) (dt1 sig dur : ℚ) (h : s.phase = .search ys dt1 sig dur) :
    tfStep P s = nextOf (tfSearch P s ys dt1 sig dur) := by
  unfold tfStep nextOf
  rw [h]
  simp only
  cases tfSearch P s ys dt1 sig dur <;> rfl

theorem step_late (P : TFParams) (s : TFState) (dt1 dur : ℚ) (h : s.phase = .late dt1 dur) : tfStep P s = tfLate P s dt1 dur := by
  unfold tfStep
  rw [h]

/-- The result without the history. -/
def plainResult (r : TFResult) : Except PyErr (ℚ × ℚ) := r.map fun r => (r.1, r.2.1)

theorem late_more (P : TFParams) (a' : List ℚ) (E : ℚ) (s : TFState) (b : List ℚ) (t : List TFEntry) (dt1 dur : ℚ)
    (hc : tfCorrelate { P with ats := a', endTime := E } b s.res P.sep dur = tfCorrelate P s.bts s.res P.sep dur) :
    (∃ u df1, tfLate P s dt1 dur = .inl u ∧ |dt1| ≤ ntpMaxDelay ∧ |P.rnd (P.rnd (s.f * P.rnd (1 + df1)) - 1)| < maxFcorr ∧
      s.res ≠ P.target ∧
      u = { bts := s.bts.map fun t => P.rndA (P.rndA (t - dt1) / P.rnd (1 + df1)),
             res := max (P.rnd (s.res / P.rnd (P.rnd (P.sep / P.duration) / resRefineFactor))) P.target,
             dt := P.rnd (s.dt + P.rnd (s.f * dt1)), f := P.rnd (s.f * P.rnd (1 + df1)), iter := s.iter + 1, phase := .begin,
             trace := s.trace ++ [{ bts := s.bts, dt1 := dt1, df1 := df1 }] } ∧
      tfLate { P with ats := a', endTime := E } (more s b t) dt1 dur =
        .inl (more u (b.map fun t => P.rndA (P.rndA (t - dt1) / P.rnd (1 + df1))) (t ++ [{ bts := b, dt1 := dt1, df1 := df1 }]))) ∨
    ∃ r r', tfLate P s dt1 dur = .inr r ∧ tfLate { P with ats := a', endTime := E } (more s b t) dt1 dur = .inr r' ∧
      plainResult r = plainResult r' := by
  unfold tfLate more
  simp only [hc]
  split
  · exact .inr ⟨_, _, rfl, rfl, rfl⟩
  rename_i h1
  cases tfCorrelate P s.bts s.res P.sep dur with
  | error e => exact .inr ⟨_, _, rfl, rfl, rfl⟩
  | ok v =>
    simp only
    split
    · exact .inr ⟨_, _, rfl, rfl, rfl⟩
    split
    · exact .inr ⟨_, _, rfl, rfl, rfl⟩
    rename_i h3
    split
    · exact .inr ⟨_, _, rfl, rfl, rfl⟩
    rename_i h4
    exact .inl ⟨_, _, rfl, not_lt.mp h1, not_le.mp h3, h4, rfl, rfl⟩

end Fp
