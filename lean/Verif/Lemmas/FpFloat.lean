import Verif.Spec.FpFloat
import Verif.Props.FpAccuracy
import Verif.Props.Rounded

/-! Helper lemmas for `Verif/Props/FpFloat.lean`. -/
namespace Fp
open Spec

theorem peak_ne_nil {a b : List ℚ} {h : Nat} (hh : 0 < h) {res : ℚ} {k : ℤ} (hp : Peak a b (2 * h) res k) : a ≠ [] ∧ b ≠ [] := by
  have h1 := hp (k + 1) (by
    intro hc
    obtain ⟨c, hc⟩ := Int.modEq_iff_dvd.mp hc
    have : ((2 * h : Nat) : ℤ) ∣ 1 := ⟨-c, by rw [mul_neg, ← hc]; ring⟩
    have := Int.le_of_dvd one_pos this
    omega)
  constructor
  · rintro rfl; simp [pairsAt] at h1
  · rintro rfl; simp [pairsAt] at h1

theorem generateBins_histogram (a : List ℚ) (n : Nat) (hn : 0 < n) (res : ℚ) (hne : a ≠ []) :
    generateBins a n res = .ok (histogram a n res) := by
  obtain ⟨bins, h1, h2, -, h3⟩ := C27_binning a n res hn hne
  rw [h1]
  congr 1
  apply List.ext_getElem?
  intro k
  by_cases hk : k < n
  · rw [h3 k hk]
    simp [histogram, hk]
  · rw [List.getElem?_eq_none (by omega), List.getElem?_eq_none (by simp [histogram]; omega)]

theorem pairsAt_congr (a b : List ℚ) (n : Nat) (res : ℚ) {i j : ℤ} (h : i ≡ j [ZMOD (n : ℤ)]) :
    pairsAt a b n res i = pairsAt a b n res j := by
  unfold pairsAt
  congr 2
  funext x
  congr 1
  funext y
  rw [decide_eq_decide]
  exact ⟨fun hh => hh.trans h, fun hh => hh.trans h.symm⟩

/-- The maximum of an accurate correlation is at the peak of the exact one. -/
theorem accurate_argmax (ys : List ℚ) (a b : List ℚ) (h : Nat) (hh : 0 < h) (res : ℚ) (hl : ys.length = 2 * h)
    (hy : ∀ (k : Nat) (x : ℚ), ys[k]? = some x → |x - (pairsAt a b (2 * h) res k : Nat)| < 1 / 2)
    (k : ℤ) (hp : Peak a b (2 * h) res k) : ∃ p, argmax ys = some p ∧ p < 2 * h ∧ (p : ℤ) = k % ((2 * h : Nat) : ℤ) := by
  have hne : ys ≠ [] := by
    rintro rfl
    simp at hl; omega
  obtain ⟨p, h1, h2⟩ := argmax_spec ys hne
  have hplt : p < 2 * h := by rw [← hl]; exact firstMax_lt _ _ h2
  refine ⟨p, h1, hplt, ?_⟩
  obtain ⟨j, hj⟩ : ∃ j : Nat, (j : ℤ) = k % ((2 * h : Nat) : ℤ) := ⟨_, Int.toNat_of_nonneg (Int.emod_nonneg _ (by omega))⟩
  have hjlt : j < 2 * h := by
    have := Int.emod_lt_of_pos k (show (0 : ℤ) < ((2 * h : Nat) : ℤ) by omega)
    omega
  have hjk : (j : ℤ) ≡ k [ZMOD ((2 * h : Nat) : ℤ)] := by rw [hj]; exact Int.mod_modEq _ _
  by_contra hcon
  have hpk : ¬ (p : ℤ) ≡ k [ZMOD ((2 * h : Nat) : ℤ)] := by
    intro hc
    apply hcon
    have : (p : ℤ) % ((2 * h : Nat) : ℤ) = p := Int.emod_eq_of_lt (by omega) (by omega)
    rw [← this]; exact hc
  have hlt := hp p hpk
  rw [← pairsAt_congr a b (2 * h) res hjk] at hlt
  obtain ⟨x, hx1, hx2, -⟩ := h2
  have hjs : ys[j]? = some ys[j] := List.getElem?_eq_getElem (by omega)
  have e1 := abs_lt.mp (hy p x hx1)
  have e2 := abs_lt.mp (hy j _ hjs)
  have e3 := hx2 _ (List.mem_of_getElem? hjs)
  have e4 : ((pairsAt a b (2 * h) res p : Nat) : ℚ) + 1 ≤ ((pairsAt a b (2 * h) res j : Nat) : ℚ) := by exact_mod_cast hlt
  linarith [e1.2, e2.1]

/-- The delay computed from a maximum at `k` (modulo the number of bins) on a rounded time axis. -/
theorem delay_at_rounded (rnd : ℚ → ℚ) (ys : List ℚ) (h : Nat) (hh : 0 < h) (res : ℚ) (hl : ys.length = 2 * h) (k : ℤ) (hk : |k| < h)
    (p : Nat) (hm : argmax ys = some p) (hp : p < 2 * h) (hpk : (p : ℤ) = k % ((2 * h : Nat) : ℤ))
    (hr : rnd (|k| * res) = |k| * res) :
    ∃ d2, getTimingDelayFft ys ((List.range (2 * h)).map fun k : Nat => rnd ((k : ℚ) * res)) = .ok (k * res, d2) := by
  have hget : ∀ i < 2 * h, ((List.range (2 * h)).map fun k : Nat => rnd ((k : ℚ) * res))[i]? = some (rnd ((i : ℚ) * res)) := by
    intro i hi
    simp [hi]
  rw [abs_lt] at hk
  unfold getTimingDelayFft
  rw [hm]
  simp only [hl]
  rw [hget p hp, hget _ (by split_ifs <;> omega)]
  simp only
  rcases lt_trichotomy k 0 with h0 | h0 | h0
  · have hpe : (p : ℤ) = 2 * h + k := by
      rw [hpk, ← Int.add_emod_right, Int.emod_eq_of_lt (by omega) (by omega)]
      push_cast; ring
    have hp0 : p ≠ 0 := by omega
    rw [if_neg hp0, if_neg (by omega)]
    refine ⟨rnd ((p : ℚ) * res), ?_⟩
    have : ((2 * h - p : Nat) : ℚ) = |k| := by
      have : ((2 * h - p : Nat) : ℤ) = |k| := by rw [abs_of_neg h0]; omega
      exact_mod_cast this
    rw [this]
    have e : (((|k| : ℤ)) : ℚ) = -(k : ℚ) := by rw [abs_of_neg h0]; push_cast; ring
    rw [hr, e]
    congr 2
    ring
  · subst h0
    have hp0 : p = 0 := by
      rw [Int.zero_emod] at hpk; omega
    subst hp0
    simp only [abs_zero, Int.cast_zero, zero_mul] at hr
    simp [hr]
  · have hpe : (p : ℤ) = k := by
      rw [hpk, Int.emod_eq_of_lt (by omega) (by omega)]
    have hp0 : p ≠ 0 := by omega
    rw [if_neg hp0, if_pos (by omega)]
    refine ⟨-rnd (((2 * h - p : Nat) : ℚ) * res), ?_⟩
    have e : ((p : Nat) : ℚ) = k := by exact_mod_cast hpe
    have e2 : ((|k| : ℤ) : ℚ) = k := by rw [abs_of_pos h0]
    rw [e2] at hr
    rw [e, hr]

/-- A correlation in floating point whose window has a clear peak. -/
theorem correlate_float (P : TFParams) (hra : P.rndA = fl 64) (h : Nat) (hh : 0 < h) (hh64 : 2 * h < 2 ^ 64) (hN : P.numBins = 2 * h)
    (bts : List ℚ) (res start dur : ℚ) (hres : 0 < res) (ga : ∀ t ∈ P.ats, OnGrid t) (gb : ∀ t ∈ bts, OnGrid t) (gs : OnGrid start)
    (qa : ∀ t ∈ inWindow start dur P.ats, |⌊t / res⌋| + 2 ≤ 2 ^ 59) (qb : ∀ t ∈ inWindow start dur bts, |⌊t / res⌋| + 2 ≤ 2 ^ 59)
    (k : ℤ) (hk : |k| < h) (hr : P.rnd (|k| * res) = |k| * res)
    (hp : Peak (inWindow start dur P.ats) (inWindow start dur bts) (2 * h) res k)
    (hx : XcorrAccurate P.xcorr (inWindow start dur P.ats) (inWindow start dur bts) (2 * h) res) :
    ∃ ys, tfCorrelate P bts res start dur = .ok (ys, k * res) ∧ ys.length = 2 * h := by
  obtain ⟨na, nb⟩ := peak_ne_nil hh hp
  have hex : ∀ ts : List ℚ, inWindow start dur ts ≠ [] → ∃ t ∈ ts, start ≤ t := by
    intro ts hne
    by_contra hcon
    push Not at hcon
    apply hne
    unfold inWindow
    rw [List.map_eq_nil_iff, List.filter_eq_nil_iff]
    intro t ht
    have := hcon t ht
    simp only [decide_eq_true_eq, not_and]
    intro h1
    exact absurd h1 (not_le.mpr this)
  have hbin : ∀ w : List ℚ, w ≠ [] → (∀ t ∈ w, |⌊t / res⌋| + 2 ≤ 2 ^ 59) →
      generateBinsR (fl 64) w (2 * h) res = .ok (histogram w (2 * h) res) := by
    intro w hw hq
    rw [← generateBins_histogram w (2 * h) (by omega) res hw]
    unfold generateBinsR generateBins
    rw [List.map_congr_left (g := binOf (2 * h) res)]
    intro t ht
    unfold binOfR binOf
    rw [C75_floor_divide 64 (by norm_num) t res hres (hq t ht), remainder_exact 64 _ (2 * h) (by omega) hh64, Int.floor_intCast]
  obtain ⟨hl, hy⟩ := hx
  obtain ⟨p, p1, p2, p3⟩ := accurate_argmax _ _ _ h hh res hl hy k hp
  obtain ⟨d2, hd⟩ := delay_at_rounded P.rnd _ h hh res hl k hk p p1 p2 p3 hr
  refine ⟨_, ?_, hl⟩
  unfold tfCorrelate
  rw [hra, (C75_slice P.ats ga start dur gs).2 (hex _ na), (C75_slice bts gb start dur gs).2 (hex _ nb)]
  simp only [bind, Except.bind, pure, Except.pure, hN]
  rw [hbin _ na qa, hbin _ nb qb]
  simp only [hd]

theorem onGrid_abs {t : ℚ} (h : OnGrid t) : OnGrid |t| := by
  obtain ⟨m, rfl, hm⟩ := h
  refine ⟨|m|, ?_, by rwa [abs_abs]⟩
  rw [abs_div]
  push_cast
  norm_num

theorem onGrid_fl64 {t : ℚ} (h : OnGrid t) : fl 64 t = t := by
  have := grid_sub h (s := 0) ⟨0, by norm_num, by norm_num⟩ 64 (by norm_num)
  rwa [sub_zero] at this

theorem onGrid_fl53 {t : ℚ} (h : OnGrid t) (hb : |t| ≤ 10 ^ 8) : fl 53 t = t := by
  obtain ⟨m, rfl, -⟩ := h
  have h1 : |m| < 2 ^ 53 := by
    have : |(m : ℚ)| ≤ 256 * 10 ^ 8 := by
      rw [abs_div, div_le_iff₀ (by norm_num)] at hb
      norm_num at hb ⊢
      linarith
    have h2 : |m| ≤ 256 * 10 ^ 8 := by exact_mod_cast this
    refine lt_of_le_of_lt h2 (by norm_num)
  have := fl_exact 53 m (-8) h1
  have e : (m : ℚ) / 256 = (m : ℚ) * 2 ^ (-8 : ℤ) := by norm_num; ring
  rw [e, this]

theorem window_quot {T target res start dur : ℚ} (ts : List ℚ) (ht : 0 < target) (hr : target ≤ res) (hs : 0 ≤ start)
    (hT : T ≤ target * 2 ^ 58) (hts : ∀ t ∈ ts, t ≤ T) : ∀ t ∈ inWindow start dur ts, |⌊t / res⌋| + 2 ≤ 2 ^ 59 := by
  intro x hx
  unfold inWindow at hx
  obtain ⟨t, ht', rfl⟩ := List.mem_map.mp hx
  obtain ⟨hm, hw⟩ := List.mem_filter.mp ht'
  simp only [decide_eq_true_eq] at hw
  have h0 : 0 < res := lt_of_lt_of_le ht hr
  have h1 : 0 ≤ (t - start) / res := div_nonneg (by linarith [hw.1]) h0.le
  rw [abs_of_nonneg (Int.floor_nonneg.mpr h1)]
  have h2 : (t - start) / res ≤ 2 ^ 58 := by
    rw [div_le_iff₀ h0]
    have := hts t hm
    have : target * 2 ^ 58 ≤ res * 2 ^ 58 := by nlinarith
    nlinarith
  have h3 : ⌊(t - start) / res⌋ ≤ 2 ^ 58 := by
    have := (Int.floor_le ((t - start) / res)).trans h2
    exact_mod_cast this
  have : (2 : ℤ) ^ 58 + 2 ≤ 2 ^ 59 := by norm_num
  linarith

theorem duration_float (P : TFParams) (hr : P.rnd = fl 53) (hra : P.rndA = fl 64) (res : ℚ) :
    tfDuration P res = acqDurationFl P.numBins res P.duration P.endTime := by
  unfold tfDuration acqDurationFl
  rw [hr, hra]
  simp only [Int.cast_lt]

theorem fl_one {p : ℕ} (hp : 1 ≤ p) : fl p 1 = 1 := by
  have := fl_int p 1 (by
    rw [abs_one]
    exact one_lt_pow₀ (by norm_num) (by omega))
  exact_mod_cast this

/-- The divisor of the resolution is at least one, also after rounding. -/
theorem refine_ge_one (sep duration : ℚ) (hdur : 0 < duration) (hs : resRefineFactor * (1 + 1 / 2 ^ 50) * duration ≤ sep) :
    1 ≤ fl 53 (fl 53 (sep / duration) / resRefineFactor) := by
  have hR : (0 : ℚ) < resRefineFactor := by unfold resRefineFactor; norm_num
  have h1 : resRefineFactor * (1 + 1 / 2 ^ 50) ≤ sep / duration := by rwa [le_div_iff₀ hdur]
  have h2 : resRefineFactor ≤ fl 53 (sep / duration) := by
    have he := fl_err 53 (sep / duration)
    have hpos : 0 < sep / duration := lt_of_lt_of_le (by positivity) h1
    rw [abs_of_pos hpos, abs_le] at he
    have hu : (2 : ℚ) ^ (-((53 : ℕ) : ℤ)) = 1 / 2 ^ 53 := by norm_num
    rw [hu] at he
    have h3 : (1 : ℚ) ≤ (1 + 1 / 2 ^ 50) * (1 - 1 / 2 ^ 53) := by norm_num
    nlinarith [he.1]
  rw [← fl_one (p := 53) (by norm_num)]
  apply fl_mono_nonneg 53 (by norm_num) (by norm_num)
  rwa [le_div_iff₀ hR, one_mul]

/-! Parameters for the example of C89: 4 bins of 1 ns, final resolution 1/2 ns, a correlation that is off by 1/4. -/

/-- Circular correlation with an error of 1/4 in every bin. -/
def roughXcorr (A B : List Nat) : List ℚ := (List.range A.length).map fun k =>
  (((List.range A.length).map fun i => A.getD i 0 * B.getD ((i + k) % A.length) 0).sum : ℚ) + 1 / 4

def floatParams : TFParams :=
  { ats := [0, 10], numBins := 4, target := 1 / 2, threshold := 6, sep := 10, duration := 4,
    endTime := 14, rnd := fl 53, rndA := fl 64, xcorr := roughXcorr, signif := fun _ _ => .ok 10 }

theorem fl_between {p : ℕ} (hp : 1 ≤ p) {x a b : ℚ} (ha : fl p a = a) (hb : fl p b = b) (h0 : 0 ≤ a) (h1 : a ≤ x) (h2 : x ≤ b) :
    a ≤ fl p x ∧ fl p x ≤ b := by
  constructor
  · rw [← ha]; exact fl_mono_nonneg p hp h0 h1
  · rw [← hb]; exact fl_mono_nonneg p hp (h0.trans h1) h2

theorem floatParams_dur (r : ℚ) (h1 : 1 / 2 ≤ r) (h2 : r ≤ 1) : 0 < acqDurationFl 4 r 4 14 ∧ acqDurationFl 4 r 4 14 ≤ 10 := by
  unfold acqDurationFl
  obtain ⟨a1, a2⟩ := fl_between (p := 53) (by norm_num) (x := r * ((4 : Nat) : ℚ)) (a := 2) (b := 4) (by decide +kernel) (by decide +kernel)
    (by norm_num) (by push_cast; linarith) (by push_cast; linarith)
  generalize fl 53 (r * ((4 : Nat) : ℚ)) = q at *
  have hq : 0 < q := by linarith
  obtain ⟨b1, b2⟩ := fl_between (p := 53) (by norm_num) (x := 4 / q) (a := 1) (b := 2) (by decide +kernel) (by decide +kernel)
    (by norm_num) (by rw [le_div_iff₀ hq]; linarith) (by rw [div_le_iff₀ hq]; linarith)
  obtain ⟨c1, -⟩ := fl_between (p := 64) (by norm_num) (x := 14 / q) (a := 3) (b := 7) (by decide +kernel) (by decide +kernel)
    (by norm_num) (by rw [le_div_iff₀ hq]; linarith) (by rw [div_le_iff₀ hq]; linarith)
  have hw1 : (1 : ℤ) ≤ rne (fl 53 (4 / q)) := le_rne_int (by exact_mod_cast b1)
  have hw2 : rne (fl 53 (4 / q)) ≤ (2 : ℤ) := rne_le_int (by exact_mod_cast b2)
  have hf : (3 : ℤ) ≤ ⌊fl 64 (14 / q)⌋ := Int.le_floor.mpr (by exact_mod_cast c1)
  simp only [if_neg (show ¬ ⌊fl 64 (14 / q)⌋ < rne (fl 53 (4 / q)) by omega)]
  have hw1' : (1 : ℚ) ≤ (rne (fl 53 (4 / q)) : ℚ) := by exact_mod_cast hw1
  have hw2' : (rne (fl 53 (4 / q)) : ℚ) ≤ 2 := by exact_mod_cast hw2
  generalize (rne (fl 53 (4 / q)) : ℚ) = w at *
  obtain ⟨d1, d2⟩ := fl_between (p := 53) (by norm_num) (x := w * r) (a := 1 / 2) (b := 2) (by decide +kernel) (by decide +kernel)
    (by norm_num) (by nlinarith) (by nlinarith)
  obtain ⟨e1, e2⟩ := fl_between (p := 53) (by norm_num) (x := fl 53 (w * r) * ((4 : Nat) : ℚ)) (a := 2) (b := 8) (by decide +kernel)
    (by decide +kernel) (by norm_num) (by push_cast; linarith) (by push_cast; linarith)
  constructor <;> linarith

theorem floatParams_window (d start : ℚ) (h1 : 0 < d) (h2 : d ≤ 10) (hs : start = 0 ∨ start = 10) :
    inWindow start d [0, 10] = [0] := by
  rcases hs with rfl | rfl
  · have : ¬ (10 : ℚ) < d := not_lt.mpr h2
    simp [inWindow, h1, this]
  · simp [inWindow, h1]

theorem single_peak (r : ℚ) : Peak [0] [0] (2 * 2) r 0 ∧ XcorrAccurate roughXcorr [0] [0] (2 * 2) r := by
  have hh : histogram [0] (2 * 2) r = [1, 0, 0, 0] := by
    simp [histogram, inBin, List.range_succ, List.countP_cons]
    decide
  constructor
  · intro j hj
    have : ¬ (0 : ℤ) ≡ j [ZMOD ((2 * 2 : Nat) : ℤ)] := fun h => hj h.symm
    simp [pairsAt, List.countP_cons]
    exact_mod_cast this
  · unfold XcorrAccurate
    rw [hh]
    have hx : roughXcorr [1, 0, 0, 0] [1, 0, 0, 0] = [5 / 4, 1 / 4, 1 / 4, 1 / 4] := by decide +kernel
    rw [hx]
    refine ⟨rfl, ?_⟩
    intro k x hk
    have hp : pairsAt [0] [0] (2 * 2) r k = if (0 : ℤ) ≡ k [ZMOD ((2 * 2 : Nat) : ℤ)] then 1 else 0 := by
      simp [pairsAt, List.countP_cons]
    rw [hp]
    match k, hk with
    | 0, hk => simp at hk; subst hk; norm_num
    | 1, hk => simp at hk; subst hk; rw [if_neg (by decide)]; norm_num
    | 2, hk => simp at hk; subst hk; rw [if_neg (by decide)]; norm_num
    | 3, hk => simp at hk; subst hk; rw [if_neg (by decide)]; norm_num
    | k + 4, hk => simp at hk

end Fp
