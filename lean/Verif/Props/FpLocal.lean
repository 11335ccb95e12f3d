import Verif.Lemmas.FpLocal
import Verif.Props.FpShift
import Verif.Props.FpRounded

/-! # C111: fpfind uses only the beginning of the recordings -/
namespace Fp
open Spec

/-- Where the search of C111 is. -/
def stageOf (P : TFParams) (B ρ : ℚ) (k : Nat) (s : TFState) : Prop :=
  (s.iter = 1 ∧ 0 < s.res ∧ s.res ≤ B) ∨ (1 < s.iter ∧ s.iter ≤ k ∧ P.target ≤ s.res ∧ s.res ≤ P.target * ρ ^ (k - s.iter))

def phaseOf (D : ℚ) (s : TFState) : Prop :=
  match s.phase with
  | .begin => True
  | .search _ _ _ dur => s.iter = 1 ∧ dur ≤ 2 * D * (1 + 1 / 2 ^ 50)
  | .late _ dur => dur ≤ 2 * D * (1 + 1 / 2 ^ 50)

/-- **C111** for `time_freq`: if both recordings are long enough for `k` iterations, events after that time change neither the
result nor the error. -/
theorem C111_time_freq (P : TFParams) (hr : RelErr P.rnd) (hra : RelErr P.rndA) (bts xa xb : List ℚ) (res E : ℚ) (k : Nat)
    (hk : AtMost P res k) (hE : windowsEnd P ≤ P.endTime) (hE' : windowsEnd P ≤ E)
    (ha : ∃ z ∈ P.ats, windowsEnd P ≤ z) (hb : ∃ z ∈ bts, targetEnd P k ≤ z)
    (hxa : ∀ y ∈ xa, windowsEnd P ≤ y) (hxb : ∀ y ∈ xb, targetEnd P k ≤ y) (fuel : Nat) :
    (timeFreq { P with ats := P.ats ++ xa, endTime := E } fuel (bts ++ xb) res).map plainResult =
      (timeFreq P fuel bts res).map plainResult := by
  obtain ⟨hD, hT, hres, hN, ⟨ρ, n, hkn, hρ, hB, hs⟩, hfew⟩ := hk
  have hq := quotient_le P.rnd hr P.sep P.duration ρ hD hρ hs
  have hR : (0 : ℚ) < resRefineFactor := by unfold resRefineFactor; norm_num
  have hsep : 0 < P.sep := by
    by_contra hc
    push Not at hc
    have h1 : P.sep * (1 - 1 / 2 ^ 53) ^ 2 ≤ 0 := mul_nonpos_of_nonpos_of_nonneg hc (by positivity)
    have h2 : 0 < ρ * (1 + 1 / 2 ^ 53) * resRefineFactor * P.duration := by
      have : 0 < ρ := by linarith
      positivity
    linarith
  obtain ⟨W, hWe⟩ : ∃ W, W = windowsEnd P := ⟨_, rfl⟩
  obtain ⟨V, hVe⟩ : ∃ V, V = targetEnd P k := ⟨_, rfl⟩
  have hW : W = P.sep + 2 * P.duration * (1 + 1 / 2 ^ 40) := hWe
  have hW0 : 0 ≤ W := by rw [hW]; positivity
  have hV : V = (1 + 1 / 2 ^ 11) * W + k * (1001 * 10 ^ 5) := by rw [hVe, hWe]; rfl
  have hV0 : 0 ≤ V := by rw [hV]; positivity
  rw [← hWe] at hE hE' ha hxa
  rw [← hVe] at hb hxb
  have hWD : 2 * P.duration * (1 + 1 / 2 ^ 40) ≤ W := by rw [hW]; linarith
  have hdur : ∀ r, 0 < r → tfDuration { P with ats := P.ats ++ xa, endTime := E } r = tfDuration P r ∧
      tfDuration P r ≤ 2 * P.duration * (1 + 1 / 2 ^ 50) := by
    intro r h0
    have h1 := duration_long P hr hra hD hN r h0 (hWD.trans hE)
    have h2 := duration_long { P with ats := P.ats ++ xa, endTime := E } hr hra hD hN r h0 (hWD.trans hE')
    exact ⟨h2.1.trans h1.1.symm, h1.2⟩
  -- a correlation is the same
  have hcor : ∀ (b x : List ℚ) (r start dur : ℚ), (start = 0 ∨ start = P.sep) → dur ≤ 2 * P.duration * (1 + 1 / 2 ^ 50) →
      (∃ z ∈ b, W ≤ z) → (∀ y ∈ x, W ≤ y) →
      tfCorrelate { P with ats := P.ats ++ xa, endTime := E } (b ++ x) r start dur = tfCorrelate P b r start dur := by
    intro b x r start dur hst hd hz hx
    have hst' : start ≤ P.sep := by rcases hst with h | h <;> rw [h]; exact hsep.le
    have hpos : ∀ z, W ≤ z → 0 ≤ P.rndA (z - start) := by
      intro z hz
      have h0 : 0 ≤ z - start := by
        have : 0 ≤ 2 * P.duration * (1 + 1 / 2 ^ 40) := by positivity
        rw [hW] at hz
        linarith
      exact le_trans (mul_nonneg h0 (by norm_num)) (relErr_le P.rndA hra (z - start) h0).2
    refine correlate_append P _ E xa rfl b x r start dur ?_ ?_ ?_ ?_
    · exact fun y hy => late_window hra hD hsep.le hd (hW ▸ hxa y hy) hst'
    · exact fun y hy => late_window hra hD hsep.le hd (hW ▸ hx y hy) hst'
    · obtain ⟨z, hz1, hz2⟩ := ha
      exact ⟨z, hz1, hpos z hz2⟩
    · obtain ⟨z, hz1, hz2⟩ := hz
      exact ⟨z, hz1, hpos z hz2⟩
  let R : TFState → TFState → Prop := fun s s' => ∃ x t, s' = more s (s.bts ++ x) t ∧ (∀ y ∈ x, FarAt V s.f s.iter y) ∧
    (∃ z ∈ s.bts, FarAt V s.f s.iter z) ∧ |s.f - 1| ≤ 1 / 2 ^ 12 ∧ stageOf P (max res (10 ^ 4)) ρ k s ∧ phaseOf P.duration s
  have hstage : ∀ s, stageOf P (max res (10 ^ 4)) ρ k s → 1 ≤ s.iter ∧ s.iter ≤ k ∧ 0 < s.res := by
    rintro s (⟨h1, h2, -⟩ | ⟨h1, h2, h3, -⟩)
    · exact ⟨by omega, by omega, h2⟩
    · exact ⟨by omega, h2, lt_of_lt_of_le hT h3⟩
  unfold timeFreq
  refine runLoop_rel (tfStep P) (tfStep { P with ats := P.ats ++ xa, endTime := E }) R plainResult ?_ fuel _ _ ?_
  · rintro s s' ⟨x, t, rfl, hx, ⟨z, hz, hzf⟩, hf, hst, hph⟩
    obtain ⟨hi1, hik, hres0⟩ := hstage s hst
    have hxW : ∀ y ∈ x, W ≤ y := fun y hy => far_enough hW0 hV hfew hi1 hik hf (hx y hy)
    have hzW : ∃ z ∈ s.bts, W ≤ z := ⟨z, hz, far_enough hW0 hV hfew hi1 hik hf hzf⟩
    cases hp : s.phase with
    | begin =>
      have hb := begin_more P (P.ats ++ xa) E s (s.bts ++ x) t (hdur s.res hres0).1
        (hcor s.bts x s.res 0 _ (.inl rfl) (hdur s.res hres0).2 hzW hxW)
      have e1 := step_begin P s hp
      have e2 := step_begin { P with ats := P.ats ++ xa, endTime := E } (more s (s.bts ++ x) t) hp
      rw [e1, e2, hb]
      cases hbe : tfBegin P s with
      | error e => exact .inr ⟨_, _, rfl, rfl, rfl⟩
      | ok u =>
        left
        refine ⟨u, more u (s.bts ++ x) t, rfl, rfl, ?_⟩
        have hu : ∃ ys dt1 sig, u = { s with phase := if s.iter = 1 then .search ys dt1 sig (tfDuration P s.res) else .late dt1 (tfDuration P s.res) } := by
          unfold tfBegin at hbe
          simp only [bind, Except.bind, pure, Except.pure] at hbe
          split at hbe
          · cases hbe
          · split at hbe
            · cases hbe
            · simp only [Except.ok.injEq] at hbe
              exact ⟨_, _, _, hbe.symm⟩
        obtain ⟨ys, dt1, sig, rfl⟩ := hu
        refine ⟨x, t, rfl, hx, ⟨z, hz, hzf⟩, hf, hst, ?_⟩
        unfold phaseOf
        by_cases h1 : s.iter = 1
        · simp only [h1, if_true]
          exact ⟨trivial, (hdur s.res hres0).2⟩
        · simp only [h1, if_false]
          exact (hdur s.res hres0).2
    | search ys dt1 sig dur =>
      have hb := search_more P (P.ats ++ xa) E s (s.bts ++ x) t ys dt1 sig dur
      have e1 := step_search P s ys dt1 sig dur hp
      have e2 := step_search { P with ats := P.ats ++ xa, endTime := E } (more s (s.bts ++ x) t) ys dt1 sig dur hp
      unfold phaseOf at hph
      simp only [hp] at hph
      rw [e1, e2, hb]
      cases hbe : tfSearch P s ys dt1 sig dur with
      | error e => exact .inr ⟨_, _, rfl, rfl, rfl⟩
      | ok u =>
        left
        refine ⟨u, more u (s.bts ++ x) t, rfl, rfl, ?_⟩
        rcases tfSearch_ok P s u ys dt1 sig dur hbe with rfl | ⟨ys', dt1', sig', rfl, -, hle⟩
        · exact ⟨x, t, rfl, hx, ⟨z, hz, hzf⟩, hf, hst, hph.2⟩
        · refine ⟨x, t, rfl, hx, ⟨z, hz, hzf⟩, hf, .inl ⟨hph.1, ?_, ?_⟩, hph⟩
          · exact lt_of_lt_of_le (mul_pos (by positivity) (by norm_num)) (relErr_le P.rnd hr (s.res * 2) (by positivity)).2
          · exact hle.trans (le_max_right _ _)
    | late dt1 dur =>
      have e1 := step_late P s dt1 dur hp
      have e2 := step_late { P with ats := P.ats ++ xa, endTime := E } (more s (s.bts ++ x) t) dt1 dur hp
      unfold phaseOf at hph
      simp only [hp] at hph
      rw [e1, e2]
      rcases late_more P (P.ats ++ xa) E s (s.bts ++ x) t dt1 dur
        (hcor s.bts x s.res P.sep dur (.inr rfl) hph hzW hxW) with ⟨u, df1, h1, hdt, hfc, hne, hu, h2⟩ | h
      · left
        refine ⟨_, _, h1, h2, ?_⟩
        have hroom := far_room (iter := s.iter) hW0 hV hfew hi1 hik
        have hnext := fun y h => far_next (y := y) hr hra hV0 hi1 hf hfc hdt hroom h
        subst hu
        refine ⟨x.map fun t => P.rndA (P.rndA (t - dt1) / P.rnd (1 + df1)), _, by rw [List.map_append], ?_, ?_, (hnext z hzf).2, ?_, trivial⟩
        · intro y hy
          obtain ⟨y', hy', rfl⟩ := List.mem_map.mp hy
          exact (hnext y' (hx y' hy')).1
        · exact ⟨_, List.mem_map.mpr ⟨z, hz, rfl⟩, (hnext z hzf).1⟩
        · right
          rcases hst with ⟨hi, hp0, hpB⟩ | ⟨hi, hik2, hlow, hhigh⟩
          · refine ⟨by show 1 < s.iter + 1; omega, by show s.iter + 1 ≤ k; omega, le_max_right _ _, ?_⟩
            have hexp : k - (s.iter + 1) = n := by omega
            show max _ _ ≤ P.target * ρ ^ (k - (s.iter + 1))
            rw [hexp]
            apply max_le
            · refine (hq s.res hp0).trans ?_
              rw [div_le_iff₀ (by linarith), mul_assoc, ← pow_succ]
              exact hpB.trans hB
            · exact le_mul_of_one_le_right hT.le (one_le_pow₀ hρ.le)
          · have hlt : s.iter < k := by
              rcases Nat.lt_or_ge s.iter k with h | h
              · exact h
              · exfalso
                apply hne
                have : k - s.iter = 0 := by omega
                rw [this, pow_zero, mul_one] at hhigh
                exact le_antisymm hhigh hlow
            refine ⟨by show 1 < s.iter + 1; omega, by show s.iter + 1 ≤ k; omega, le_max_right _ _, ?_⟩
            show max _ _ ≤ P.target * ρ ^ (k - (s.iter + 1))
            apply max_le
            · refine (hq s.res hres0).trans ?_
              rw [div_le_iff₀ (by linarith), mul_assoc, ← pow_succ]
              have : k - (s.iter + 1) + 1 = k - s.iter := by omega
              rw [this]
              exact hhigh
            · exact le_mul_of_one_le_right hT.le (one_le_pow₀ hρ.le)
      · exact .inr h
  · have far0 : ∀ y, V ≤ y → FarAt V 1 1 y := by
      intro y hy
      unfold FarAt
      norm_num
      exact hy
    obtain ⟨z, hz, hzV⟩ := hb
    exact ⟨xb, [], rfl, fun y hy => far0 y (hxb y hy), ⟨z, hz, far0 z hzV⟩, by norm_num, .inl ⟨rfl, hres, le_max_left _ _⟩, trivial⟩

/-- The windows end after zero. -/
theorem windows_pos {P : TFParams} {res : ℚ} {k : Nat} (hk : AtMost P res k) : 0 < windowsEnd P := by
  have hD := hk.duration
  obtain ⟨ρ, n, -, hρ, -, hs⟩ := hk.steps
  have hR : (0 : ℚ) < resRefineFactor := by unfold resRefineFactor; norm_num
  have h2 : 0 ≤ ρ * (1 + 1 / 2 ^ 53) * resRefineFactor * P.duration := by
    have : 0 < ρ := by linarith
    positivity
  have h3 : 0 ≤ P.sep := nonneg_of_mul_nonneg_left (h2.trans hs) (by norm_num)
  unfold windowsEnd
  positivity

theorem scan_congr {env : NumEnv} {tf tf' : List ℚ → Option (Except PyErr (ℚ × ℚ))} {bob bob' : List ℚ} {full : Bool} {ps : List ℚ}
    (h : ∀ d ∈ ps, tf' (precompensated env d bob') = tf (precompensated env d bob)) :
    fpfindScanF env.rnd env.rndA tf' bob' full ps = fpfindScanF env.rnd env.rndA tf bob full ps := by
  induction ps with
  | nil => rfl
  | cons p ps ih =>
    have ih := ih fun d hd => h d (List.mem_cons_of_mem _ hd)
    unfold fpfindScanF
    simp only [precomp_eq, h p (by simp), ih]

theorem last_append {α : Type} (l x : List α) (p : α → Prop) (d : α) (h : p (l.getLastD d)) (hx : ∀ y ∈ x, p y) : p ((l ++ x).getLastD d) := by
  rcases List.eq_nil_or_concat x with rfl | ⟨x', y, rfl⟩
  · simpa using h
  · have := hx y (by simp)
    rw [List.getLastD_eq_getLast?]
    simpa using this

theorem last_mem {α : Type} (l : List α) (d : α) (h : l ≠ []) : l.getLastD d ∈ l := by
  rw [List.getLastD_eq_getLast?, List.getLast?_eq_getLast_of_ne_nil h]
  exact List.getLast_mem h

/-- A time late enough is late enough after the precompensation. -/
theorem precomp_late {rnd rndA : ℚ → ℚ} (hr : RelErr rnd) (hra : RelErr rndA) {d δ T t : ℚ} (hδ : δ < 1) (hd : |d| ≤ δ) (hT : 0 ≤ T)
    (ht : (1 + δ) * (1 + 1 / 2 ^ 50) * T ≤ t) : T ≤ rndA (rndA t / rnd (1 + d)) := by
  have hd' := abs_le.mp hd
  have hδ0 : 0 ≤ δ := (abs_nonneg d).trans hd
  have hpos : 0 < 1 + d := by linarith
  have h1 := relErr_le rnd hr (1 + d) hpos.le
  obtain ⟨g, hg⟩ : ∃ g, g = rnd (1 + d) := ⟨_, rfl⟩
  rw [← hg] at h1 ⊢
  have hgp : 0 < g := lt_of_lt_of_le (mul_pos hpos (by norm_num)) h1.2
  have hgu : g ≤ (1 + δ) * (1 + 1 / 2 ^ 53) := h1.1.trans (mul_le_mul_of_nonneg_right (by linarith) (by norm_num))
  have ht0 : 0 ≤ t := le_trans (by positivity) ht
  have r1 := (relErr_le rndA hra t ht0).2
  have r1n : 0 ≤ rndA t := le_trans (mul_nonneg ht0 (by norm_num)) r1
  have r2 := (relErr_le rndA hra (rndA t / g) (by positivity)).2
  refine le_trans ?_ r2
  rw [div_mul_eq_mul_div, le_div_iff₀ hgp]
  calc T * g ≤ T * ((1 + δ) * (1 + 1 / 2 ^ 53)) := mul_le_mul_of_nonneg_left hgu hT
    _ = (1 + δ) * T * (1 + 1 / 2 ^ 53) := by ring
    _ ≤ (1 + δ) * T * ((1 + 1 / 2 ^ 50) * (1 - 1 / 2 ^ 53) ^ 2) :=
        mul_le_mul_of_nonneg_left (by norm_num) (by positivity)
    _ = (1 + δ) * (1 + 1 / 2 ^ 50) * T * (1 - 1 / 2 ^ 53) ^ 2 := by ring
    _ ≤ t * (1 - 1 / 2 ^ 53) ^ 2 := mul_le_mul_of_nonneg_right ht (by positivity)
    _ = t * (1 - 1 / 2 ^ 53) * (1 - 1 / 2 ^ 53) := by ring
    _ ≤ rndA t * (1 - 1 / 2 ^ 53) := mul_le_mul_of_nonneg_right r1 (by norm_num)

/-- The search of a run of fpfind on longer recordings. -/
theorem call_append (env : NumEnv) (hr : RelErr env.rnd) (hra : RelErr env.rndA) (args : FpMainArgs) (k : Nat)
    (hk : AtMost (searchParams env args [] []) args.initialRes k) (a b xa xb : List ℚ) (ha : a ≠ []) (hb : b ≠ [])
    (hla : usedReference env args ≤ a.getLastD 0) (hlb : targetEnd (searchParams env args [] []) k ≤ b.getLastD 0)
    (hxa : ∀ y ∈ xa, usedReference env args ≤ y) (hxb : ∀ y ∈ xb, targetEnd (searchParams env args [] []) k ≤ y) (fuel : Nat) :
    args.call env fuel (a ++ xa) (b ++ xb) = args.call env fuel a b := by
  rw [call_eq env args (by simp [ha]) (by simp [hb]), call_eq env args ha hb]
  have hWV : usedReference env args ≤ targetEnd (searchParams env args [] []) k := by
    unfold usedReference targetEnd
    have hsep := windows_pos hk
    have : (0 : ℚ) ≤ (k : ℚ) * (1001 * 10 ^ 5) := by positivity
    linarith
  have hE : windowsEnd (searchParams env args a b) ≤ (searchParams env args a b).endTime :=
    le_min hla (hWV.trans hlb)
  have hE' : windowsEnd (searchParams env args a b) ≤ min ((a ++ xa).getLastD 0) ((b ++ xb).getLastD 0) :=
    le_min (last_append a xa _ 0 hla hxa) (hWV.trans (last_append b xb _ 0 hlb hxb))
  have := C111_time_freq (searchParams env args a b) hr hra b xa xb args.initialRes
    (min ((a ++ xa).getLastD 0) ((b ++ xb).getLastD 0)) k ⟨hk.1, hk.2, hk.3, hk.4, hk.5, hk.6⟩ hE hE' ⟨_, last_mem a 0 ha, hla⟩
    ⟨_, last_mem b 0 hb, hlb⟩ hxa hxb fuel
  exact this

theorem fromStart_append (s : ℚ) (l x : List ℚ) : fromStart s (l ++ x) = fromStart s l ++ fromStart s x := by
  simp [fromStart]

theorem fromStart_last (s T : ℚ) (l : List ℚ) (hT : 0 ≤ T) (h : s + T ≤ l.getLastD 0) (hl : l ≠ []) : T ≤ (fromStart s l).getLastD 0 := by
  obtain ⟨l', y, rfl⟩ := (List.eq_nil_or_concat l).resolve_left hl
  have hy : s + T ≤ y := by simpa [List.getLastD_eq_getLast?] using h
  rw [List.concat_eq_append, fromStart_append]
  have : fromStart s [y] = [y - s] := by simp [fromStart, show s ≤ y by linarith]
  rw [this, List.getLastD_eq_getLast?]
  simp
  linarith

theorem fromStart_ge (s T : ℚ) (x : List ℚ) (h : ∀ y ∈ x, s + T ≤ y) : ∀ y ∈ fromStart s x, T ≤ y := by
  intro y hy
  obtain ⟨z, hz, rfl⟩ := List.mem_map.mp hy
  have := h z (List.mem_filter.mp hz).1
  linarith

/-- **C111**: fpfind prints the same line for longer timestamp files: if the files with the events `e :: a` and `f :: b` reach
beyond the parts a search uses, whatever follows in the files does not matter. -/
theorem C111_fpfind (env : NumEnv) (hr : env.rnd = fl 53) (hra : env.rndA = fl 64) (fuel : Nat) (args : FpMainArgs) (l : Bool)
    (e f : Nat × Nat) (a b xa xb : List (Nat × Nat)) (ha : ∀ x ∈ e :: a ++ xa, Valid x) (hb : ∀ x ∈ f :: b ++ xb, Valid x)
    (s : ℤ) (hs : args.skipDuration * 10 ^ 9 = s) (hsb : |s| < 2 ^ 52) (k : Nat)
    (hk : AtMost (searchParams env args [] []) args.initialRes k) (δ : ℚ) (hδ0 : 0 ≤ δ) (hδ : δ < 1) (hd : ∀ d ∈ precs env args, |d| ≤ δ)
    (start : ℚ) (hstart : start = (max e.1 f.1 : ℕ) / 256 + s)
    (hla : start + usedReference env args ≤ (nsTimes (e :: a)).getLastD 0)
    (hlb : start + usedTarget env args δ k ≤ (nsTimes (f :: b)).getLastD 0)
    (hxa : ∀ y ∈ nsTimes xa, start + usedReference env args ≤ y) (hxb : ∀ y ∈ nsTimes xb, start + usedTarget env args δ k ≤ y) :
    fpMain env fuel (rawArgs args l (e :: a ++ xa) (f :: b ++ xb)) = fpMain env fuel (rawArgs args l (e :: a) (f :: b)) := by
  have hR : RelErr env.rnd := hr ▸ C76_arithmetic.1
  have hRA : RelErr env.rndA := hra ▸ C76_arithmetic.2
  have ha0 : ∀ x ∈ e :: a, Valid x := fun x hx => ha x (List.mem_append_left _ hx)
  have hb0 : ∀ x ∈ f :: b, Valid x := fun x hx => hb x (List.mem_append_left _ hx)
  have hWp : 0 < usedReference env args := windows_pos hk
  have hW0 := hWp.le
  have hTp : 0 < targetEnd (searchParams env args [] []) k := by
    have := windows_pos hk
    unfold targetEnd
    positivity
  have hUp : 0 < usedTarget env args δ k := by unfold usedTarget; positivity
  have happ : ∀ x y : List (Nat × Nat), nsTimes (x ++ y) = nsTimes x ++ nsTimes y := fun x y => by simp [nsTimes]
  obtain ⟨A, hA⟩ : ∃ A, A = fromStart start (nsTimes (e :: a)) := ⟨_, rfl⟩
  obtain ⟨B, hB⟩ : ∃ B, B = fromStart start (nsTimes (f :: b)) := ⟨_, rfl⟩
  obtain ⟨XA, hXA⟩ : ∃ X, X = fromStart start (nsTimes xa) := ⟨_, rfl⟩
  obtain ⟨XB, hXB⟩ : ∃ X, X = fromStart start (nsTimes xb) := ⟨_, rfl⟩
  have hAl : usedReference env args ≤ A.getLastD 0 := by
    rw [hA]; exact fromStart_last _ _ _ hW0 hla (by simp [nsTimes])
  have hBl : usedTarget env args δ k ≤ B.getLastD 0 := by
    rw [hB]; exact fromStart_last _ _ _ hUp.le hlb (by simp [nsTimes])
  have hXAl : ∀ y ∈ XA, usedReference env args ≤ y := by rw [hXA]; exact fromStart_ge _ _ _ hxa
  have hXBl : ∀ y ∈ XB, usedTarget env args δ k ≤ y := by rw [hXB]; exact fromStart_ge _ _ _ hxb
  have in1 : mainInput env.rnd env.rndA fuel (rawArgs args l (e :: a) (f :: b)).toFpArgs = some (.ok (some [A, B])) := by
    unfold mainInput
    rw [load_raw _ _ _ _ _ _ ha0 hb0]
    simp only
    rw [hr, hra, normalize_raw e f a b ha0 hb0 _ s hs hsb, ← hstart, ← hA, ← hB]
    rfl
  have in2 : mainInput env.rnd env.rndA fuel (rawArgs args l (e :: a ++ xa) (f :: b ++ xb)).toFpArgs =
      some (.ok (some [A ++ XA, B ++ XB])) := by
    unfold mainInput
    rw [load_raw _ _ _ _ _ _ ha hb]
    simp only
    rw [hr, hra]
    have := normalize_raw e f (a ++ xa) (b ++ xb) ha hb _ s hs hsb
    rw [← hstart, ← List.cons_append, ← List.cons_append, happ, happ, fromStart_append, fromStart_append, ← hA, ← hB, ← hXA, ← hXB] at this
    rw [happ, happ, this]
    rfl
  have hne : ∀ (L : List ℚ) (T : ℚ), 0 < T → T ≤ L.getLastD 0 → L ≠ [] := by
    rintro L T h0 h1 rfl
    simp at h1
    linarith
  have hAne := hne A _ hWp hAl
  have hBne := hne B _ hUp hBl
  unfold fpMain
  rw [in1, in2]
  simp only [List.getD_cons_zero, List.getD_cons_succ]
  rw [if_neg (by simp [hAne, hBne]), if_neg (by simp [hAne, hBne])]
  have hscan : fpfindScanF env.rnd env.rndA ((rawArgs args l (e :: a ++ xa) (f :: b ++ xb)).call env fuel (A ++ XA)) (B ++ XB)
        (rawArgs args l (e :: a ++ xa) (f :: b ++ xb)).precompFullscan ((rawArgs args l (e :: a ++ xa) (f :: b ++ xb)).precompensations env) =
      fpfindScanF env.rnd env.rndA ((rawArgs args l (e :: a) (f :: b)).call env fuel A) B
        (rawArgs args l (e :: a) (f :: b)).precompFullscan ((rawArgs args l (e :: a) (f :: b)).precompensations env) := by
    refine scan_congr ?_
    intro d hdm
    have hdδ : |d| ≤ δ := hd d hdm
    have hp : precompensated env d (B ++ XB) = precompensated env d B ++ precompensated env d XB := by simp [precompensated]
    rw [hp]
    have hlast : targetEnd (searchParams env args [] []) k ≤ (precompensated env d B).getLastD 0 := by
      have h1 := last_mem B 0 hBne
      obtain ⟨B', y, rfl⟩ := (List.eq_nil_or_concat B).resolve_left hBne
      have hy : usedTarget env args δ k ≤ y := by simpa [List.getLastD_eq_getLast?] using hBl
      have := precomp_late hR hRA hδ hdδ hTp.le hy
      simpa [precompensated, List.getLastD_eq_getLast?] using this
    refine call_append env hR hRA args k hk A (precompensated env d B) XA (precompensated env d XB) hAne (precomp_ne hBne) hAl hlast hXAl ?_ fuel
    intro y hy
    obtain ⟨z, hz, rfl⟩ := List.mem_map.mp hy
    exact precomp_late hR hRA hδ hdδ hTp.le (hXBl z hz)
  rw [hscan]
  rfl

theorem demo_atMost : AtMost (searchParams fpDemoEnv (fpDemoArgs false false 0) [] []) (fpDemoArgs false false 0).initialRes 2 where
  duration := by decide +kernel
  target := by decide +kernel
  start := by decide +kernel
  bins := by decide +kernel
  steps := ⟨80000, 0, rfl, by norm_num, by decide +kernel, by decide +kernel⟩
  few := by norm_num

/-- Instance of `C111_fpfind`: the files of C88 with a further event on each side after 300 ms, and twice as long. -/
example : fpMain fpDemoEnv 25 (rawArgs (fpDemoArgs false false 0) true
      ([(0, 1), (256000000, 1), (256001280, 1), (512000000, 1), (76800000000, 1)] ++ [(76800000001, 2), (153600000000, 1)])
      ([(0, 1), (1280, 1), (256000000, 1), (256001024, 1), (512000000, 1), (76800000000, 1)] ++ [(153600000000, 1), (153600000000, 1)])) =
    some (.ok (some "6.00000799999556e-06\t-6\n".toList)) := by
  rw [C111_fpfind fpDemoEnv rfl rfl 25 (fpDemoArgs false false 0) true (0, 1) (0, 1)
    [(256000000, 1), (256001280, 1), (512000000, 1), (76800000000, 1)]
    [(1280, 1), (256000000, 1), (256001024, 1), (512000000, 1), (76800000000, 1)] _ _ (by simp [Valid]) (by simp [Valid])
    0 (by decide +kernel) (by decide) 2 demo_atMost 0 le_rfl (by norm_num) (by decide +kernel) 0 (by norm_num)
    (by decide +kernel) (by decide +kernel) (by decide +kernel) (by decide +kernel)]
  decide +kernel

end Fp
