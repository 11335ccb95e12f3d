import Verif.Lemmas.Utils

/-! # Properties of slicing, binning, delays and windows: C26, C27, C29, C31, C58-C60 -/
namespace Fp
open Spec

/-! ## C26 -/

/-- **C26**: everything from `start` on. -/
theorem C26_slice_start (ts : List ℚ) (s : ℚ) : sliceTimestamps ts (some s) none = .ok (fromStart s ts) := by
  unfold sliceTimestamps
  simp only [filter_shift]
  rfl

/-- **C26**: exactly the window [start, start + duration), provided there is any timestamp from `start` on; otherwise
`IndexError`. -/
theorem C26_slice_window (ts : List ℚ) (s d : ℚ) :
    ((∃ t ∈ ts, s ≤ t) → sliceTimestamps ts (some s) (some d) = .ok (inWindow s d ts)) ∧
    ((∀ t ∈ ts, t < s) → sliceTimestamps ts (some s) (some d) = .error .indexError) := by
  unfold sliceTimestamps
  simp only [filter_shift, pure, Except.pure, bind, Except.bind]
  have hnil : fromStart s ts = [] ↔ ∀ t ∈ ts, t < s := by
    unfold fromStart
    rw [List.map_eq_nil_iff, List.filter_eq_nil_iff]
    simp
  constructor
  · rintro ⟨t, ht, hst⟩
    rw [if_neg (fun hc => absurd (hnil.mp hc t ht) (not_lt.mpr hst)), filter_window]
  · intro h
    rw [if_pos (hnil.mpr h)]

/-- **C26**: without a start time the first timestamp is the reference. -/
theorem C26_slice_relative (t0 : ℚ) (ts : List ℚ) (d : ℚ) :
    sliceTimestamps (t0 :: ts) none none = .ok ((t0 :: ts).map (· - t0)) ∧
    sliceTimestamps (t0 :: ts) none (some d) = .ok (((t0 :: ts).filter fun t => decide (t < t0 + d)).map (· - t0)) := by
  refine ⟨rfl, ?_⟩
  unfold sliceTimestamps
  simp only [pure, Except.pure, bind, Except.bind]
  rw [if_neg (by simp), List.filter_map]
  congr 2
  apply List.filter_congr
  intro t _
  simp only [Function.comp, decide_eq_decide]
  constructor <;> intro h <;> linarith

/-- **C26**: normalisation shifts every array by the same amount, the latest first timestamp (plus the skipped time), and
drops what comes before it. -/
theorem C26_normalize (T : List (List ℚ)) (hT : T ≠ []) (hne : ∀ ts ∈ T, ts ≠ []) (skip m : ℚ)
    (hm : IsGreatest {x | ∃ ts ∈ T, ts.head? = some x} m) :
    ∃ out, normalizeTimestamps T skip true = .ok out ∧ out = T.map (fromStart (m + skip * 10 ^ 9)) ∧
      ∀ ts ∈ out, ∀ t ∈ ts, 0 ≤ t := by
  refine ⟨_, normalize_core T hT hne skip m hm, rfl, ?_⟩
  intro ts hts t ht
  obtain ⟨us, _, rfl⟩ := List.mem_map.mp hts
  unfold fromStart at ht
  obtain ⟨x, hx, rfl⟩ := List.mem_map.mp ht
  have := (List.mem_filter.mp hx).2
  simp only [decide_eq_true_eq] at this
  linarith

/-- **C26**: with `preserve_relative=False` every array is first shifted by its own first timestamp, and no event is lost
without a skip if the arrays are sorted. -/
theorem C26_normalize_independent (T : List (List ℚ)) (hT : T ≠ []) (hne : ∀ ts ∈ T, ts ≠ [])
    (hs : ∀ ts ∈ T, ts.Pairwise (· ≤ ·)) :
    normalizeTimestamps T 0 false = .ok (T.map fun ts => ts.map (· - ts.headD 0)) := by
  have h1 : T.mapM (fun ts => sliceTimestamps ts none none) = .ok (T.map fun ts => ts.map (· - ts.headD 0)) := by
    apply mapM_ok
    intro ts hts
    obtain ⟨t, ts, rfl⟩ := List.exists_cons_of_ne_nil (hne ts hts)
    exact (C26_slice_relative t ts 0).1
  have h2 : normalizeTimestamps T 0 false = normalizeTimestamps (T.map fun ts => ts.map (· - ts.headD 0)) 0 true := by
    unfold normalizeTimestamps
    simp only [if_true, Bool.false_eq_true, if_false, h1]
    rfl
  have hhead : ∀ ts ∈ T, (ts.map (· - ts.headD 0)).head? = some 0 := by
    intro ts hts
    obtain ⟨t, ts, rfl⟩ := List.exists_cons_of_ne_nil (hne ts hts)
    simp
  rw [h2, normalize_core _ (by simpa using hT) _ 0 0]
  · rw [List.map_map]
    congr 1
    apply List.map_congr_left
    intro ts hts
    obtain ⟨t, ts', rfl⟩ := List.exists_cons_of_ne_nil (hne ts hts)
    have hsort := hs _ hts
    simp only [Function.comp, fromStart, List.headD_cons]
    have hall : ∀ x ∈ (t :: ts').map (· - t), 0 ≤ x := by
      intro x hx
      obtain ⟨y, hy, rfl⟩ := List.mem_map.mp hx
      rcases List.mem_cons.mp hy with rfl | hy
      · simp
      · have := (List.pairwise_cons.mp hsort).1 y hy
        linarith
    rw [List.filter_eq_self.mpr (by intro x hx; simpa using hall x hx)]
    simp
  · constructor
    · obtain ⟨ts, T', rfl⟩ := List.exists_cons_of_ne_nil hT
      exact ⟨_, List.mem_map.mpr ⟨ts, by simp, rfl⟩, hhead ts (by simp)⟩
    · rintro x ⟨us, hus, hx⟩
      obtain ⟨ts, hts, rfl⟩ := List.mem_map.mp hus
      rw [hhead ts hts] at hx
      simp at hx
      rw [hx]
  · intro ts hts
    obtain ⟨us, hus, rfl⟩ := List.mem_map.mp hts
    simpa using hne us hus

/-- Instance of C26: two overlapping recordings. -/
example : normalizeTimestamps [[1, 4, 7], [3, 5]] 0 true = .ok [[1, 4], [0, 2]] := by decide +kernel

/-! ## C27 -/

/-- **C27**. -/
theorem C27_binning (arr : List ℚ) (numBins : Nat) (res : ℚ) (hn : 0 < numBins) (hne : arr ≠ []) :
    ∃ bins, generateBins arr numBins res = .ok bins ∧ bins.length = numBins ∧ bins.sum = arr.length ∧
      ∀ k < numBins, bins[k]? = some (inBin arr numBins res k) := by
  have hlt : ∀ v ∈ arr.map (binOf numBins res), v < numBins := by
    intro v hv
    obtain ⟨t, _, rfl⟩ := List.mem_map.mp hv
    exact binOf_lt numBins hn res t
  refine ⟨_, by unfold generateBins; rw [if_neg hne], ?_, ?_, ?_⟩
  · unfold bincount
    rw [foldl_max_bound _ _ hlt]
    simp
  · unfold bincount
    rw [foldl_max_bound _ _ hlt, countP_sum _ _ hlt, List.length_map]
  · intro k hk
    unfold bincount
    rw [foldl_max_bound _ _ hlt, List.getElem?_map, List.getElem?_range hk]
    simp only [Option.map_some, Option.some.injEq, List.countP_map, inBin]
    congr 1
    funext t
    simp only [Function.comp, decide_eq_decide]
    exact binOf_iff numBins hn res t k hk

/-- Empty arrays are refused. -/
theorem C27_empty (numBins : Nat) (res : ℚ) : generateBins [] numBins res = .error .valueError := rfl

/-- Instance of C27. -/
example : generateBins [0, 5, 21, 22, -1] 4 5 = .ok [3, 1, 0, 1] := by decide +kernel

/-! ## C29 -/

/-- **C29** for `get_timing_delay_fft`. -/
theorem C29_delay_candidates {α : Type} [LinearOrder α] (hist : List α) (hne : hist ≠ []) (res : ℚ) (hr : 0 < res) :
    ∃ p d1 d2, FirstMax hist p ∧ getTimingDelayFft hist (uniformBins hist.length res) = .ok (d1, d2) ∧
      SameDelay (hist.length * res) d1 (p * res) ∧ SameDelay (hist.length * res) d2 (p * res) ∧
      |d1| ≤ |d2| ∧ |d1| ≤ hist.length * res / 2 ∧ ((0 ≤ d1 ∧ d2 ≤ 0) ∨ (d1 ≤ 0 ∧ 0 ≤ d2)) ∧ (0 < p → d1 ≠ d2) := by
  obtain ⟨p, h1, h2⟩ := argmax_spec hist hne
  have hp := firstMax_lt hist p h2
  refine ⟨p, _, _, h2, ?_, candidates_spec hist.length p res hr hp⟩
  unfold getTimingDelayFft candidates
  rw [h1]
  simp only
  rw [uniform_get _ _ _ hp, uniform_get _ _ _ (by split_ifs <;> omega)]

/-- **C29** for `get_delay_at_index_fft`. -/
theorem C29_delay_at_index (n p : Nat) (hp : p < n) (res : ℚ) (hr : 0 < res) :
    ∃ d1 d2, getDelayAtIndexFft (uniformBins n res) p = .ok (d1, d2) ∧
      SameDelay (n * res) d1 (p * res) ∧ SameDelay (n * res) d2 (p * res) ∧
      |d1| ≤ |d2| ∧ |d1| ≤ n * res / 2 ∧ ((0 ≤ d1 ∧ d2 ≤ 0) ∨ (d1 ≤ 0 ∧ 0 ≤ d2)) ∧ (0 < p → d1 ≠ d2) := by
  refine ⟨_, _, ?_, candidates_spec n p res hr hp⟩
  have hl : (uniformBins n res).length = n := by simp [uniformBins]
  unfold getDelayAtIndexFft candidates
  simp only [hl]
  have e1 : (if p ≠ 0 then n - p else 0) = (if p = 0 then 0 else n - p) := by split_ifs <;> simp_all
  rw [e1, uniform_get _ _ _ hp, uniform_get _ _ _ (by split_ifs <;> omega)]
  simp only
  split_ifs <;> rfl

/-- Boundary instances of C29: a peak in the middle and a peak at zero. -/
example : getTimingDelayFft [1, 3, 9, (1 : Nat)] (uniformBins 4 2) = .ok (-4, 4) ∧
    getTimingDelayFft [7, 3, 7, (1 : Nat)] (uniformBins 4 2) = .ok (0, 0) := by decide +kernel

/-! ## C31 -/

/-- **C31**: without a given centre the windows are placed around the first maximum. -/
theorem C31_windows_partial {α : Type} [LinearOrder α] (hist : List α) (hne : hist ≠ []) (res window : ℚ) (hr : 0 < res)
    (hw : 0 ≤ window) :
    ∃ p stats, FirstMax hist p ∧ getStatistics hist (some res) none window = .ok stats ∧
      WindowsAt hist res window p stats := by
  obtain ⟨p, h1, h2⟩ := argmax_spec hist hne
  obtain ⟨stats, h3, h4⟩ := windows_core hist res window hr hw none p (firstMax_lt hist p h2) (by simp only [h1, Option.map_some])
  exact ⟨p, stats, h2, h3, h4⟩

/-- **C31**: an integer centre within the histogram is the centre of the windows; negative centres count from the end. -/
theorem C31_int_center_partial {α : Type} [LinearOrder α] (hist : List α) (res window : ℚ) (hr : 0 < res)
    (hw : 0 ≤ window) (c : ℚ) (hc : -(hist.length * res) ≤ c) (hc2 : c < hist.length * res) (hc3 : 0 ≤ c ∨ c ≤ -res) :
    ∃ p stats, getStatistics hist (some res) (some (c, true)) window = .ok stats ∧ WindowsAt hist res window p stats ∧
      (0 ≤ c → (p : ℚ) * res ≤ c ∧ c < (p + 1 : ℚ) * res) ∧
      (c < 0 → (p - hist.length - 1 : ℚ) * res < c ∧ c ≤ (p - hist.length : ℚ) * res) := by
  have hf1 : (⌊|c| / res⌋ : ℚ) * res ≤ |c| := by
    rw [← le_div_iff₀ hr]; exact Int.floor_le _
  have hf2 : |c| < ((⌊|c| / res⌋ : ℚ) + 1) * res := by
    rw [← div_lt_iff₀ hr]; exact Int.lt_floor_add_one _
  have hf0 : 0 ≤ ⌊|c| / res⌋ := Int.floor_nonneg.mpr (div_nonneg (abs_nonneg _) hr.le)
  rcases lt_or_ge c 0 with hneg | hpos
  · rw [abs_of_neg hneg] at hf1 hf2 hf0
    have g1 : 1 ≤ ⌊-c / res⌋ := by
      rw [Int.le_floor, le_div_iff₀ hr]
      push_cast
      rcases hc3 with h | h <;> linarith
    have g2 : ⌊-c / res⌋ ≤ hist.length := by
      have : (⌊-c / res⌋ : ℚ) ≤ hist.length := by
        refine le_of_mul_le_mul_right ?_ hr
        linarith
      exact_mod_cast this
    obtain ⟨p, hp⟩ : ∃ p : Nat, (p : ℤ) = hist.length - ⌊-c / res⌋ := ⟨_, Int.toNat_of_nonneg (by omega)⟩
    obtain ⟨stats, h3, h4⟩ := windows_core hist res window hr hw (some (c, true)) p (by omega)
      (by simp only [if_pos hneg, abs_of_neg hneg, hp])
    refine ⟨p, stats, h3, h4, fun h => absurd hneg (not_lt.mpr h), fun _ => ?_⟩
    have hpq : (p : ℚ) = hist.length - (⌊-c / res⌋ : ℚ) := by exact_mod_cast hp
    rw [hpq]
    constructor <;> linarith
  · rw [abs_of_nonneg hpos] at hf1 hf2 hf0
    obtain ⟨p, hp⟩ : ∃ p : Nat, (p : ℤ) = ⌊c / res⌋ := ⟨_, Int.toNat_of_nonneg hf0⟩
    have hpq : (p : ℚ) = (⌊c / res⌋ : ℚ) := by exact_mod_cast hp
    have hplt : p < hist.length := by
      have : (p : ℚ) < hist.length := by
        refine lt_of_mul_lt_mul_right ?_ hr.le
        rw [hpq]
        linarith
      exact_mod_cast this
    obtain ⟨stats, h3, h4⟩ := windows_core hist res window hr hw (some (c, true)) p hplt
      (by simp only [if_neg (not_lt.mpr hpos), abs_of_nonneg hpos, hp])
    refine ⟨p, stats, h3, h4, fun _ => ?_, fun h => absurd h (not_lt.mpr hpos)⟩
    rw [hpq]
    exact ⟨hf1, hf2⟩

/-- **C31**: the signal window contains the maximum. -/
theorem C31_signal_has_max {α : Type} [LinearOrder α] (hist : List α) (hne : hist ≠ []) (res window : ℚ) (hr : 0 < res)
    (hw : 0 ≤ window) (stats : PeakStatistics α) (h : getStatistics hist (some res) none window = .ok stats) :
    ∃ x ∈ stats.signal, ∀ y ∈ hist, y ≤ x := by
  obtain ⟨p, st, hp, hs, lo, hi, blo, bhi, -, hlo, hhi, -, -, -, -, -, -, -, -, -, hsig, -⟩ :=
    C31_windows_partial hist hne res window hr hw
  rw [h] at hs
  obtain rfl : stats = st := by simpa using hs
  obtain ⟨x, hx, hmax, -⟩ := hp
  refine ⟨x, ?_, hmax⟩
  rw [hsig]
  apply List.mem_of_getElem? (i := p - lo)
  rw [List.getElem?_drop, Nat.add_sub_cancel' hlo, List.getElem?_take_of_lt (by omega)]
  exact hx

/-- **C31** fails for a given centre: with a float centre (as documented) in the inner part of the histogram the slice
bounds are floats, so no statistics are returned at all. -/
theorem C31_float_center_fails {α : Type} [LinearOrder α] (hist : List α) (res window c : ℚ) (hr : 0 < res)
    (hlow : window / 2 + 2 * res ≤ c) (hw : 0 ≤ window) :
    getStatistics hist (some res) (some (c, false)) window = .error .typeError := by
  have h0 : 0 ≤ c := by linarith
  unfold getStatistics
  simp only [if_neg (not_lt.mpr h0), abs_of_nonneg h0]
  rw [if_pos]
  refine ⟨by simp, Or.inl ?_⟩
  have h1 : window / 2 / res + 2 ≤ c / res := by
    rw [le_div_iff₀ hr, add_mul, div_mul_cancel₀ _ hr.ne']
    exact hlow
  have h2 := Int.ceil_lt_add_one (window / 2 / res)
  have h3 := Int.lt_floor_add_one (c / res)
  have : (⌈window / 2 / res⌉ : ℚ) < ⌊c / res⌋ := by linarith
  have : ⌈window / 2 / res⌉ < ⌊c / res⌋ := by exact_mod_cast this
  omega

/-- Instances of C31. -/
example : (getStatistics [1, 2, 9, 3, 1, 1, 2, (1 : Nat)] (some 1) none 2).map (fun s => (s.signal, s.background)) =
      .ok ([2, 9, 3], [1, 1, 1]) ∧
    (getStatistics [1, 2, 9, 3, 1, 1, 2, (1 : Nat)] (some 1) (some (2, false)) 0).map (fun s => s.signal) =
      .error .typeError := by decide +kernel

/-! ## C58 -/

/-- **C58**. -/
theorem C58_overlap {α : Type} (arrays : List (List α)) (hne : arrays ≠ []) :
    ∃ m, IsLeast {k | ∃ a ∈ arrays, a.length = k} m ∧
      ∃ out, getOverlap arrays = .ok (m, out) ∧ out.length = arrays.length ∧
        ∀ (i : Nat) a, arrays[i]? = some a → ∃ o, out[i]? = some o ∧ o.length = m ∧ o <+: a := by
  obtain ⟨a, as, rfl⟩ := List.exists_cons_of_ne_nil hne
  obtain ⟨h1, h2⟩ := foldl_min_spec (as.map List.length) a.length
  rw [← List.map_cons (f := List.length)] at h1 h2
  refine ⟨_, ⟨List.mem_map.mp h1, ?_⟩, _, rfl, by simp, ?_⟩
  · rintro k ⟨b, hb, rfl⟩
    exact h2 _ (List.mem_map_of_mem hb)
  · intro i b hb
    refine ⟨_, by rw [List.getElem?_map, hb]; rfl, ?_, List.take_prefix _ _⟩
    rw [List.length_take]
    have := h2 b.length (List.mem_map_of_mem (List.mem_of_getElem? hb))
    omega

/-- No arrays at all are refused. -/
theorem C58_empty {α : Type} : getOverlap ([] : List (List α)) = .error .valueError := rfl

/-- Instance of C58. -/
example : getOverlap [[1, 2, 3], [4, 5], [6, 7, 8, (9 : Nat)]] = .ok (2, [[1, 2], [4, 5], [6, 7]]) := by decide +kernel

/-! ## C59 -/

/-- **C59**. -/
theorem C59_centred {α : Type} (hist : List α) (h : Nat) (hl : hist.length = 2 * h) (res : ℚ) (hr : 0 < res) :
    ∃ ys xs, convertHistogramFft hist (uniformBins (2 * h) res) = (ys, xs) ∧ ys.length = 2 * h ∧ xs.length = 2 * h ∧
      xs.Pairwise (· < ·) ∧
      (∀ (i : Nat) y x, ys[i]? = some y → xs[i]? = some x → ∃ k : Nat, k < 2 * h ∧ hist[k]? = some y ∧ SameDelay (2 * h * res) x (k * res)) ∧
      ys.Perm hist := by
  have hh : hist.length / 2 = h := by omega
  have hxs : (((uniformBins (2 * h) res).take (h + 1)).drop 1).reverse.map (fun t => -t) ++ (uniformBins (2 * h) res).take h =
      (List.range (2 * h)).map (fun i : Nat => ((i : ℚ) - h) * res) := by
    have e1 : (uniformBins (2 * h) res).take h = (List.range h).map (fun i : Nat => (i : ℚ) * res) := by
      unfold uniformBins
      rw [← List.map_take, List.take_range, Nat.min_eq_left (by omega)]
    have e2 : (((uniformBins (2 * h) res).take (h + 1)).drop 1).reverse.map (fun t => -t) =
        (List.range h).map (fun i : Nat => ((i : ℚ) - h) * res) := by
      rcases Nat.eq_zero_or_pos h with rfl | hpos
      · simp [uniformBins]
      · unfold uniformBins
        rw [← List.map_take, List.take_range, Nat.min_eq_left (by omega), ← List.map_drop, ← List.map_reverse, List.map_map]
        apply List.ext_getElem?
        intro i
        rw [List.getElem?_map, List.getElem?_map]
        rcases Nat.lt_or_ge i h with hi | hi
        · rw [List.getElem?_range hi, List.getElem?_reverse (by simpa using hi), List.getElem?_drop,
            List.getElem?_range (by simp; omega)]
          simp only [List.length_drop, List.length_range, Option.map_some, Function.comp, Option.some.injEq]
          rw [show 1 + (h + 1 - 1 - 1 - i) = h - i by omega, Nat.cast_sub hi.le]
          ring
        · rw [List.getElem?_eq_none (by simpa using hi), List.getElem?_eq_none (by simpa using hi)]
          rfl
    rw [e1, e2, two_mul, List.range_add, List.map_append, List.map_map]
    congr 1
    apply List.map_congr_left
    intro i _
    simp
  refine ⟨_, _, rfl, ?_, ?_, ?_, ?_, ?_⟩
  · simp; omega
  · rw [hh, hxs]; simp
  · rw [hh, hxs, List.pairwise_map]
    apply List.Pairwise.imp _ List.pairwise_lt_range
    intro a b hab
    have : (a : ℚ) < b := by exact_mod_cast hab
    exact mul_lt_mul_of_pos_right (by linarith) hr
  · intro i y x hy hx
    rw [hh, hxs, List.getElem?_map] at hx
    rw [hh] at hy
    rcases Nat.lt_or_ge i (2 * h) with hi | hi
    · rw [List.getElem?_range hi] at hx
      simp only [Option.map_some, Option.some.injEq] at hx
      rcases Nat.lt_or_ge i h with hih | hih
      · rw [List.getElem?_append_left (by simp; omega), List.getElem?_drop] at hy
        refine ⟨h + i, by omega, hy, -1, ?_⟩
        rw [← hx]; push_cast; ring
      · rw [List.getElem?_append_right (by simp; omega), List.length_drop, List.getElem?_take_of_lt (by omega)] at hy
        refine ⟨i - h, by omega, ?_, 0, ?_⟩
        · rw [← hy]; congr 1; omega
        · rw [← hx, Nat.cast_sub hih]; push_cast; ring
    · rw [List.getElem?_eq_none (by simpa using hi)] at hx
      simp at hx
  · rw [hh]
    exact (List.perm_append_comm).trans (by rw [List.take_append_drop])

/-! ## C60 -/

/-- **C60**. -/
theorem C60_merging (j m : Nat) (ys : List ℚ) (h : ys.length = m * 2 ^ j) :
    ∃ zs, mergeTimes j ys = .ok zs ∧ zs.length = m ∧ zs.sum = ys.sum ∧ ∀ i < m, zs[i]? = some (blockSum ys j i) := by
  induction j generalizing m with
  | zero =>
    refine ⟨ys, rfl, by simpa using h, rfl, ?_⟩
    intro i hi
    have hlt : i < ys.length := by simpa [h] using hi
    unfold blockSum
    rw [pow_zero, mul_one, List.getElem?_eq_getElem hlt, List.drop_eq_getElem_cons hlt]
    change some _ = some (List.sum [ys[i]])
    rw [List.sum_singleton]
  | succ j ih =>
    obtain ⟨zs, h1, h2, h3, h4⟩ := ih (2 * m) (by rw [h]; ring)
    obtain ⟨ws, g1, g2, g3, g4⟩ := mergePairs_even m zs h2
    refine ⟨ws, ?_, g2, g3.trans h3, ?_⟩
    · unfold mergeTimes
      rw [h1]
      exact g1
    · intro i hi
      rw [blockSum_split]
      exact g4 i _ _ (h4 _ (by omega)) (h4 _ (by omega))

/-- Merging an odd number of bins is refused (`reshape` fails). -/
theorem C60_odd (m : Nat) (ys : List ℚ) (h : ys.length = 2 * m + 1) : mergePairs ys = .error .valueError := by
  induction m generalizing ys with
  | zero =>
    obtain ⟨a, rfl⟩ := List.length_eq_one_iff.mp h
    rfl
  | succ m ih =>
    match ys, h with
    | a :: b :: ys, h =>
      have := ih ys (by simp at h; omega)
      unfold mergePairs at this ⊢
      rw [reshape2]
      cases hr : reshape2 ys with
      | error e =>
        rw [hr] at this
        simpa [Except.map, bind, Except.bind] using this
      | ok r => rw [hr] at this; cases this

/-- Instance of C60. -/
example : mergeTimes 2 [1, 2, 3, 4, 5, 6, 7, 8] = .ok [10, 26] := by decide +kernel

end Fp
