import Verif.Lemmas.Rounded
import Verif.Props.Utils

/-!
# C75: rounding does not change the results of slicing, normalising and binning
-/
namespace Fp
open Spec

/-- **C75** `a // b` of numpy, computed with rounded operations, is exactly the integer part of the exact quotient, for
floats with `p` significant bits and quotients below 2^(p-5). -/
theorem C75_floor_divide (p : ℕ) (hp : 5 ≤ p) (a b : ℚ) (hb : 0 < b) (hq : |⌊a / b⌋| + 2 ≤ 2 ^ (p - 5)) :
    npFloorDivide (fl p) a b = ⌊a / b⌋ := by
  have hpow : (2 : ℤ) ^ (p - 5) ≤ 2 ^ p := pow_le_pow_right₀ (by norm_num) (by omega)
  unfold npFloorDivide
  by_cases ha : 0 ≤ a / b
  · -- truncation is floor
    have hm : a - cFmod a b = b * ⌊a / b⌋ := by unfold cFmod; rw [if_pos ha]; ring
    have hmn : ¬ (cFmod a b < 0) := by
      unfold cFmod; rw [if_pos ha, not_lt, sub_nonneg, mul_comm, ← le_div_iff₀ hb]
      exact Int.floor_le _
    simp only [hm, hmn, not_lt.mpr hb.le, decide_false, ne_eq, not_true_eq_false, and_false, if_false]
    apply snap p hp _ _ (by omega)
    have := (div_near p hp b hb ⌊a / b⌋ (by omega)).1
    linarith
  · have hm : a - cFmod a b = b * ⌈a / b⌉ := by unfold cFmod; rw [if_neg ha]; ring
    by_cases hm0 : cFmod a b = 0
    · have heq : ⌈a / b⌉ = ⌊a / b⌋ := by
        have : a / b = (⌈a / b⌉ : ℤ) := by
          rw [hm0, sub_zero] at hm
          rw [div_eq_iff hb.ne', mul_comm]; exact hm
        rw [this, Int.floor_intCast, Int.ceil_intCast]
      rw [heq] at hm
      simp only [hm, hm0, ne_eq, not_true_eq_false, false_and, if_false]
      rw [hm0, sub_zero] at hm
      apply snap p hp _ _ (by omega)
      rw [sub_zero]
      nth_rewrite 1 [hm]
      have := (div_near p hp b hb ⌊a / b⌋ (by omega)).1
      linarith
    · have hmn : cFmod a b < 0 := by
        refine lt_of_le_of_ne ?_ hm0
        unfold cFmod; rw [if_neg ha, sub_nonpos, mul_comm, ← div_le_iff₀ hb]
        exact Int.le_ceil _
      have heq : ⌈a / b⌉ = ⌊a / b⌋ + 1 := by
        rw [Int.ceil_eq_iff]
        push_cast
        refine ⟨?_, by linarith [Int.lt_floor_add_one (a / b)]⟩
        rw [add_sub_cancel_right]
        refine lt_of_le_of_ne (Int.floor_le _) ?_
        intro h
        apply hm0
        have : ⌈a / b⌉ = ⌊a / b⌋ := by rw [← h, Int.ceil_intCast, Int.floor_intCast]
        unfold cFmod
        rw [if_neg ha, this, h]
        field_simp
        ring
      rw [heq] at hm
      simp only [hm, hmn, hm0, not_lt.mpr hb.le, decide_false, decide_true, ne_eq, not_false_eq_true, Bool.false_eq_true,
        and_self, if_true]
      have hn := (div_near p hp b hb (⌊a / b⌋ + 1) (by
        have := abs_add_le ⌊a / b⌋ 1
        rw [abs_one] at this
        omega)).2
      rw [add_sub_cancel_right] at hn
      exact snap p hp _ _ (by omega) hn

/-- **C75** The histogram that `generate_fft` computes with rounded operations: `num_bins` bins, the sum is the number of
timestamps and bin `k` counts exactly the timestamps whose exact bin number is congruent to `k`, as long as the bin numbers
stay below 2^(p-5) (2^59 for `float128`). -/
theorem C75_binning (p : ℕ) (hp : 5 ≤ p) (arr : List ℚ) (numBins : Nat) (res : ℚ) (hn : 0 < numBins)
    (hnp : numBins < 2 ^ p) (hr : 0 < res) (hne : arr ≠ []) (hq : ∀ t ∈ arr, |⌊t / res⌋| + 2 ≤ 2 ^ (p - 5)) :
    ∃ bins, generateBinsR (fl p) arr numBins res = .ok bins ∧ bins.length = numBins ∧ bins.sum = arr.length ∧
      ∀ k < numBins, bins[k]? = some (inBin arr numBins res k) := by
  have : generateBinsR (fl p) arr numBins res = generateBins arr numBins res := by
    unfold generateBinsR generateBins
    rw [List.map_congr_left (g := binOf numBins res)]
    intro t ht
    unfold binOfR binOf
    rw [C75_floor_divide p hp t res hr (hq t ht), remainder_exact p _ numBins hn hnp, Int.floor_intCast]
  rw [this]
  exact C27_binning arr numBins res hn hne

/-- **C75** For timestamps and a start on the grid, `slice_timestamps` returns exactly the timestamps of
[start, start + duration), shifted to zero, without any rounding error. -/
theorem C75_slice (ts : List ℚ) (h : ∀ t ∈ ts, OnGrid t) (s d : ℚ) (hs : OnGrid s) :
    sliceTimestampsR (fl 64) ts (some s) none = .ok (fromStart s ts) ∧
    ((∃ t ∈ ts, s ≤ t) → sliceTimestampsR (fl 64) ts (some s) (some d) = .ok (inWindow s d ts)) := by
  have hs' : ∀ s', some s = some s' → OnGrid s' := by rintro s' ⟨⟩; exact hs
  rw [slice_exact 64 (by norm_num) ts h _ _ hs', slice_exact 64 (by norm_num) ts h _ _ hs']
  exact ⟨C26_slice_start ts s, (C26_slice_window ts s d).1⟩

/-- **C75** For any timestamps, start and representable duration: the selected timestamps are all in
[start, start + duration), none is missing except possibly within `duration * 2^(1-p)` of the end, and each is returned with a
relative error of at most 2^-p. -/
theorem C75_slice_error (p : ℕ) (hp : 1 ≤ p) (ts : List ℚ) (s d : ℚ) (hd : 0 < d) (hfd : fl p d = d)
    (hne : ∃ t ∈ ts, s ≤ t) :
    ∃ sel : ℚ → Bool, sliceTimestampsR (fl p) ts (some s) (some d) = .ok ((ts.filter sel).map fun t => fl p (t - s)) ∧
      (∀ t, sel t = true → s ≤ t ∧ t < s + d ∧ |fl p (t - s) - (t - s)| ≤ (t - s) * 2 ^ (-(p : ℤ))) ∧
      (∀ t, s ≤ t → t < s + d - d * 2 ^ (1 - (p : ℤ)) → sel t = true) := by
  have hsign : ∀ x : ℚ, 0 ≤ fl p x ↔ 0 ≤ x := fl_nonneg_iff p hp
  refine ⟨fun t => decide (s ≤ t ∧ fl p (t - s) < d), ?_, ?_, ?_⟩
  · unfold sliceTimestampsR
    simp only [pure, Except.pure, bind, Except.bind]
    have hf : (ts.map fun t => fl p (t - s)).filter (fun t => decide (0 ≤ t)) =
        (ts.filter fun t => decide (s ≤ t)).map fun t => fl p (t - s) := by
      rw [List.filter_map]
      congr 1
      apply List.filter_congr
      intro t _
      simp [hsign, sub_nonneg]
    rw [hf, if_neg]
    · congr 1
      rw [List.filter_map, List.filter_filter]
      congr 1
      apply List.filter_congr
      intro t _
      simp only [Function.comp, Bool.decide_and]
      exact Bool.and_comm _ _
    · obtain ⟨t, ht, hst⟩ := hne
      intro h0
      rw [List.map_eq_nil_iff, List.filter_eq_nil_iff] at h0
      exact h0 t ht (by simpa using hst)
  · intro t h
    simp only [decide_eq_true_eq] at h
    refine ⟨h.1, ?_, ?_⟩
    · by_contra hc
      push Not at hc
      have := fl_mono_nonneg p hp (x := d) (y := t - s) hd.le (by linarith)
      rw [hfd] at this
      linarith [h.2]
    · have := fl_err p (t - s)
      rwa [abs_of_nonneg (a := t - s) (by linarith [h.1])] at this
  · intro t h1 h2
    simp only [decide_eq_true_eq]
    refine ⟨h1, ?_⟩
    have he := fl_err p (t - s)
    rw [abs_of_nonneg (a := t - s) (by linarith), abs_le] at he
    have h3 : (2 : ℚ) ^ (1 - (p : ℤ)) = 2 * 2 ^ (-(p : ℤ)) := by
      rw [sub_eq_add_neg, zpow_add₀ (by norm_num)]; norm_num
    rw [h3] at h2
    have hu : (0 : ℚ) < 2 ^ (-(p : ℤ)) := by positivity
    generalize (2 : ℚ) ^ (-(p : ℤ)) = u at *
    have hdu : 0 < d * u := mul_pos hd hu
    have hx : (t - s) * u ≤ d * u := mul_le_mul_of_nonneg_right (by linarith) hu.le
    linarith [he.2]

/-- **C75** For timestamps on the grid and a whole number of ns to skip, `normalize_timestamps` shifts all arrays by exactly
the same amount, without any rounding error. -/
theorem C75_normalize (T : List (List ℚ)) (hT : T ≠ []) (hne : ∀ ts ∈ T, ts ≠ []) (hg : ∀ ts ∈ T, ∀ t ∈ ts, OnGrid t)
    (skip m : ℚ) (k : ℤ) (hk : skip * 10 ^ 9 = k) (hkb : |k| < 2 ^ 52) (hm : IsGreatest {x | ∃ ts ∈ T, ts.head? = some x} m)
    (hmk : OnGrid (m + k)) :
    normalizeTimestampsR (fl 53) (fl 64) T skip true = .ok (T.map (fromStart (m + skip * 10 ^ 9))) := by
  unfold normalizeTimestampsR
  simp only [if_true, pure, Except.pure, bind, Except.bind]
  rw [mapM_ok _ (fun ts => ts.headD 0) T (by
    intro ts hts
    cases ts with
    | nil => exact absurd rfl (hne [] hts)
    | cons t ts => rfl)]
  have hmax := heads_max T hT hne m hm
  obtain ⟨ts, T', rfl⟩ := List.exists_cons_of_ne_nil hT
  simp only [List.map_cons, List.tail_cons, List.headD_cons] at hmax ⊢
  rw [hmax]
  have h1 : fl 53 (skip * 10 ^ 9) = k := by
    rw [hk]; exact fl_int 53 k (lt_trans hkb (by norm_num))
  have h2 : fl 64 (m + k) = m + k := by
    have := grid_sub hmk (s := 0) ⟨0, by norm_num, by norm_num⟩ 64 (by norm_num)
    rwa [sub_zero] at this
  rw [h1, h2, hk]
  rw [mapM_ok _ (fromStart (m + k)) _ (fun us hus => (C75_slice us (hg us hus) (m + k) 0 hmk).1)]
  rfl

/-- The hypotheses of C75 are satisfiable: two arrays on the grid, half a second skipped. -/
example : normalizeTimestampsR (fl 53) (fl 64) [[1 / 256, 600000000], [1 / 2, 500000000 + 3 / 4]] (1 / 2) true =
    .ok [[99999999 + 1 / 2], [1 / 4]] := by decide +kernel

/-- Instance of C75: the quotient -1 / 3 is rounded, the bin is exact. -/
example : npFloorDivide (fl 64) (-1) 3 = -1 ∧ npFloorDivide (fl 64) (7 / 2) (1 / 4) = 14 ∧ binOfR (fl 64) 8 3 (-1) = 7 := by decide +kernel

end Fp
