import Verif.Props.Significance
import Verif.Props.FpInputRun
import Verif.Spec.SignificantRun

/-! # C127: peaks over few high bins, and runs whose first peak is accepted -/
namespace Fp
open Spec

/-- Heights from 0 to `x`, at most `M` except for `k` of them: bounds of mean and variance. -/
theorem mostly_le {l : List ℝ} {M x m : ℝ} (hM : 0 ≤ M) (h : ∀ y ∈ l, 0 ≤ y ∧ y ≤ x) :
    l.sum ≤ l.length * M + (l.countP fun y => decide (M < y)) * x ∧
    (l.map fun y => (y - m) ^ 2).sum ≤ (M - 2 * m) * l.sum + (l.countP fun y => decide (M < y)) * x ^ 2 + l.length * m ^ 2 := by
  induction l with
  | nil => simp
  | cons b l ih =>
    have h1 := ih fun y hy => h y (by simp [hy])
    have h2 := h b (by simp)
    rw [List.map_cons, List.sum_cons, List.sum_cons, List.length_cons, List.countP_cons]
    by_cases hb : M < b
    · simp only [hb, decide_true, if_true]
      push_cast
      refine ⟨by nlinarith [h1.1], ?_⟩
      have h3 : b ^ 2 ≤ x ^ 2 := pow_le_pow_left₀ h2.1 h2.2 2
      have h4 : 0 ≤ M * b := mul_nonneg hM h2.1
      nlinarith [h1.2]
    · simp only [hb, decide_false]
      push_cast
      have hb' := not_lt.mp hb
      refine ⟨by simp; nlinarith [h1.1], ?_⟩
      have h4 : 0 ≤ b * (M - b) := mul_nonneg h2.1 (by linarith)
      simp
      nlinarith [h1.2]

/-- **C127** A peak of height `x` over a background of heights up to `x` that, not all equal, are at most `M` except for a fraction of
`r²`, has a significance of at least θ (up to rounding) if (1 + θ/2) M ≤ (1 - r² - θ r) x. -/
theorem C127_few_high (s : PeakStatistics ℝ) (x M θ r y z : ℝ) (hx : x ∈ s.signal) (hmax : ∀ w ∈ s.signal, w ≤ x)
    (hb : ∀ w ∈ s.background, 0 ≤ w ∧ w ≤ x) (hM : 0 ≤ M) (hr : 0 ≤ r) (hθ : 0 ≤ θ)
    (hk : ((s.background.countP fun w => decide (M < w) : Nat) : ℝ) ≤ r ^ 2 * s.background.length)
    (hy : y ∈ s.background) (hz : z ∈ s.background) (hyz : y ≠ z)
    (h : (1 + θ / 2) * M ≤ (1 - r ^ 2 - θ * r) * x) :
    ∃ v, s.significance = .ok v ∧ θ - 1 / 2000 ≤ v ∧ ((∃ k : ℤ, θ = k / 1000) → θ ≤ v) := by
  have hne := List.ne_nil_of_mem hy
  have hl : (0 : ℝ) < s.background.length := by exact_mod_cast List.length_pos_of_ne_nil hne
  obtain ⟨m, hm⟩ : ∃ m, m = meanR s.background := ⟨_, rfl⟩
  have hml : m * s.background.length = s.background.sum := by
    rw [hm]; unfold meanR; field_simp
  have hx0 : 0 ≤ x := (hb y hy).1.trans (hb y hy).2
  obtain ⟨hs1, hs2⟩ := mostly_le (m := m) hM hb
  have hσ := std_pos hy hz hyz
  have hσ2 : stdR s.background ^ 2 * s.background.length = (s.background.map fun w => (w - m) ^ 2).sum := by
    have hnn : (0 : ℝ) ≤ (s.background.map fun w => (w - meanR s.background) ^ 2).sum / s.background.length := by
      apply div_nonneg _ hl.le
      apply List.sum_nonneg
      intro w hw
      obtain ⟨v, -, rfl⟩ := List.mem_map.mp hw
      positivity
    unfold stdR
    rw [Real.sq_sqrt hnn, div_mul_cancel₀ _ hl.ne', hm]
  obtain ⟨⟨k, h1, h2, -⟩, -⟩ := C72_values s x m (stdR s.background) hx hmax hne hml hσ hσ2
  generalize stdR s.background = σ at *
  generalize ((s.background.countP fun w => decide (M < w) : Nat) : ℝ) = c at *
  have hmle : m ≤ M + r ^ 2 * x := by
    have : m * s.background.length ≤ (M + r ^ 2 * x) * s.background.length := by
      have := mul_le_mul_of_nonneg_right hk hx0
      nlinarith
    exact le_of_mul_le_mul_right this hl
  have hvar : σ ^ 2 ≤ M ^ 2 / 4 + r ^ 2 * x ^ 2 := by
    have a1 : σ ^ 2 * s.background.length ≤ (M ^ 2 / 4 + r ^ 2 * x ^ 2) * s.background.length := by
      rw [hσ2]
      refine hs2.trans ?_
      rw [← hml]
      have a2 := mul_le_mul_of_nonneg_right hk (sq_nonneg x)
      have a3 : 0 ≤ (m - M / 2) ^ 2 * s.background.length := by positivity
      nlinarith
    exact le_of_mul_le_mul_right a1 hl
  have hσle : σ ≤ M / 2 + r * x := by
    apply abs_le_of_sq_le_sq' _ (by positivity) |>.2
    have : 0 ≤ M * (r * x) := by positivity
    nlinarith
  have hge : θ ≤ (x - m) / σ := by
    rw [le_div_iff₀ hσ]
    have := mul_le_mul_of_nonneg_left hσle hθ
    nlinarith
  have h2' := (abs_le.mp h2).1
  refine ⟨_, h1, by linarith, ?_⟩
  rintro ⟨k0, rfl⟩
  have hk : k0 ≤ k := by
    have : (k0 : ℝ) < k + 1 := by linarith
    have : k0 < k + 1 := by exact_mod_cast this
    omega
  have : (k0 : ℝ) ≤ k := by exact_mod_cast hk
  linarith

/-- **C127** for histograms: if some bin has the height `x`, at most `s` + 1 bins are higher than `M` < `x`, `s` is at most r² times half
of the bins, and (1 + θ/2) M ≤ (1 - r² - θ r) x, then the significance of the histogram is at least θ - 1/2000. -/
theorem C127_histogram (hist : List ℝ) (res : ℚ) (hres : 0 < res) (x M θ r : ℝ) (s : Nat) (hpos : ∀ y ∈ hist, 0 ≤ y) (hx : x ∈ hist)
    (hfew : (hist.countP fun y => decide (M < y)) ≤ s + 1) (hs : (s : ℝ) ≤ r ^ 2 * (hist.length / 2 : Nat)) (hM : 0 ≤ M) (hMx : M < x)
    (hr : 0 ≤ r) (hθ : 0 ≤ θ) (hc : 0 ≤ 1 - r ^ 2 - θ * r) (h : (1 + θ / 2) * M ≤ (1 - r ^ 2 - θ * r) * x)
    (hflat : ∀ p, FirstMax hist p → ¬ FlatBackground hist p) :
    ∃ stats v, getStatistics hist (some res) none 0 = .ok stats ∧ stats.significance = .ok v ∧ θ - 1 / 2000 ≤ v := by
  have hne : hist ≠ [] := List.ne_nil_of_mem hx
  obtain ⟨p, X, stats, hp, hX, hst, hsig, hback, hlen, hsub⟩ := peak_parts hist hne res hres
  have hXmax : ∀ y ∈ hist, y ≤ X := by
    obtain ⟨X', h1, h2, -⟩ := hp
    rw [hX] at h1
    obtain rfl := Option.some.inj h1
    exact h2
  have hplt := (List.getElem?_eq_some_iff.mp hX).1
  have hxX := hXmax x hx
  have hcount : (stats.background.countP fun y => decide (M < y)) ≤ s := by
    have h1 := hsub.countP_le (p := fun y => decide (M < y))
    have h2 : hist.countP (fun y => decide (M < y)) = (X :: hist.take p ++ hist.drop (p + 1)).countP fun y => decide (M < y) := by
      conv_lhs => rw [← List.take_append_drop p hist, List.drop_eq_getElem_cons hplt, (List.getElem?_eq_some_iff.mp hX).2]
      simp only [List.countP_append, List.countP_cons, List.cons_append]
      omega
    rw [← h2, List.countP_cons_of_pos (by simpa using lt_of_lt_of_le hMx hxX)] at h1
    omega
  have hin : ∀ i, InBackground hist.length p i → ∃ y, hist[i]? = some y := by
    rintro i (⟨a, b⟩ | ⟨a, b, c⟩)
    · exact ⟨_, List.getElem?_eq_getElem (by omega)⟩
    · exact ⟨_, List.getElem?_eq_getElem c⟩
  have hf := hflat p hp
  unfold FlatBackground at hf
  push Not at hf
  obtain ⟨i, j, hi, hj, hij⟩ := hf
  obtain ⟨y, hy⟩ := hin i hi
  obtain ⟨z, hz⟩ := hin j hj
  have hk : ((stats.background.countP fun w => decide (M < w) : Nat) : ℝ) ≤ r ^ 2 * stats.background.length := by
    have h1 : ((stats.background.countP fun w => decide (M < w) : Nat) : ℝ) ≤ s := by exact_mod_cast hcount
    have h2 : ((hist.length / 2 : Nat) : ℝ) ≤ stats.background.length := by exact_mod_cast hlen
    exact h1.trans (hs.trans (mul_le_mul_of_nonneg_left h2 (by positivity)))
  obtain ⟨v, h1, h2, -⟩ := C127_few_high stats X M θ r y z (by simp [hsig]) (by simp [hsig])
    (fun w hw => by
      obtain ⟨k, -, hkw⟩ := (hback w).mp hw
      exact ⟨hpos w (List.mem_of_getElem? hkw), hXmax w (List.mem_of_getElem? hkw)⟩)
    hM hr hθ hk ((hback y).mpr ⟨i, hi, hy⟩) ((hback z).mpr ⟨j, hj, hz⟩) (by rintro rfl; exact hij (hy.trans hz.symm))
    (h.trans (mul_le_mul_of_nonneg_left hxX hc))
  exact ⟨stats, v, hst, h1, h2⟩

/-- Without a window the statistics do not depend on the resolution. -/
theorem statistics_resolution {α : Type} [LinearOrder α] (hist : List α) (res : ℚ) :
    getStatistics hist (some res) none 0 = getStatistics hist (some 1) none 0 := by
  unfold getStatistics
  simp

/-- **C127**: the significance of a correlation of at least two bins is defined. -/
theorem C127_defined (signif : List ℚ → ℚ → Except PyErr ℚ) (tol : ℚ) (hS : SignificanceOf signif tol) (ys : List ℚ) (res : ℚ)
    (h2 : 2 ≤ ys.length) : ∃ sig, signif ys res = .ok sig := by
  obtain ⟨zs, hzs⟩ : ∃ zs, zs = ys.map fun q : ℚ => (q : ℝ) := ⟨_, rfl⟩
  have hlen : zs.length = ys.length := by rw [hzs, List.length_map]
  obtain ⟨p, X, stats, hp, hX, hst, hsig, hback, hl, -⟩ := peak_parts zs (by rintro rfl; simp at hlen; omega) 1 (by norm_num)
  obtain ⟨v, hv⟩ : ∃ v, stats.significance = .ok v := by
    have hb : stats.background ≠ [] := by
      intro hb
      rw [hb, List.length_nil] at hl
      omega
    obtain ⟨v, hv, -⟩ := (C31_significance zs (by rintro rfl; simp at hlen; omega) 1 0 (by norm_num) le_rfl stats hst).1 hb
    exact ⟨v, hv⟩
  obtain ⟨sig, hs, -⟩ := hS ys res stats v (by rw [← hzs, statistics_resolution]; exact hst) hv
  exact ⟨sig, hs⟩

/-- **C127** in numbers of pairs of events. -/
theorem C127_pairs (P : TFParams) (tol : ℚ) (hP : SignificanceOf P.signif tol) (htol : 0 ≤ tol) (hth : 0 < P.threshold)
    (a b : List ℚ) (res : ℚ) (hr : 0 < res) (j N K s : Nat) (r : ℚ) (hacc : MergedAccurate P.xcorr a b P.numBins res j)
    (hpos : ∀ y ∈ P.xcorr (histogram a P.numBins res) (histogram b P.numBins res), 0 ≤ y)
    (h : CountedPeak a b P.numBins res j (P.threshold + tol + 1 / 2000) r N K s) :
    Accepted P (P.xcorr (histogram a P.numBins res) (histogram b P.numBins res)) res j := by
  obtain ⟨hlen, hacc⟩ := hacc
  obtain ⟨⟨p0, hp0, hN⟩, hfew, hNK, ⟨hr0, hs, hc⟩, henough, hbg⟩ := h
  generalize P.xcorr (histogram a P.numBins res) (histogram b P.numBins res) = ys at *
  obtain ⟨θ, hθ⟩ : ∃ θ, θ = P.threshold + tol + 1 / 2000 := ⟨_, rfl⟩
  rw [← hθ] at hc henough
  have hθ0 : 0 ≤ θ := by rw [hθ]; positivity
  have hget : ∀ i, i < P.numBins / 2 ^ j → (merged ys j)[i]? = some (blockSum ys j i) := by
    intro i hi
    unfold merged
    rw [List.getElem?_map, hlen, List.getElem?_range hi]
    rfl
  have hmlen : (merged ys j).length = P.numBins / 2 ^ j := by
    unfold merged
    rw [List.length_map, List.length_range, hlen]
  obtain ⟨zs, hzs⟩ : ∃ zs, zs = (merged ys j).map fun q : ℚ => (q : ℝ) := ⟨_, rfl⟩
  have hzlen : zs.length = P.numBins / 2 ^ j := by rw [hzs, List.length_map, hmlen]
  have hzget : ∀ i, i < P.numBins / 2 ^ j → zs[i]? = some ((blockSum ys j i : ℚ) : ℝ) := by
    intro i hi
    rw [hzs, List.getElem?_map, hget i hi]
    rfl
  have hx0 := (abs_lt.mp (hacc p0 hp0)).1
  have hN' : (N : ℚ) ≤ (pairsInBlock a b P.numBins res j p0 : Nat) := by exact_mod_cast hN
  have hNK' : (K : ℚ) + 1 ≤ N := by exact_mod_cast hNK
  have hK0 : (0 : ℚ) ≤ K := by positivity
  obtain ⟨stats, v, h1, h3, h4⟩ := C127_histogram zs (2 ^ j * res) (by positivity) ((blockSum ys j p0 : ℚ) : ℝ) ((K + 1 / 2 : ℚ) : ℝ)
    ((θ : ℚ) : ℝ) ((r : ℚ) : ℝ) s
    (by
      intro y hy
      rw [hzs] at hy
      obtain ⟨q, hq, rfl⟩ := List.mem_map.mp hy
      unfold merged at hq
      obtain ⟨k, -, rfl⟩ := List.mem_map.mp hq
      have : 0 ≤ blockSum ys j k := by
        unfold blockSum
        exact List.sum_nonneg fun w hw => hpos w (List.mem_of_mem_drop (List.mem_of_mem_take hw))
      exact_mod_cast this)
    (List.mem_of_getElem? (hzget p0 hp0))
    (by
      refine le_trans ?_ hfew
      rw [hzs]
      unfold merged
      rw [hlen, List.map_map, List.countP_map]
      apply List.countP_mono_left
      intro k hk hk2
      have hk' := List.mem_range.mp hk
      simp only [Function.comp, decide_eq_true_eq] at hk2 ⊢
      have hk2' : K + 1 / 2 < blockSum ys j k := by exact_mod_cast hk2
      have := (abs_lt.mp (hacc k hk')).2
      have : (K : ℚ) < (pairsInBlock a b P.numBins res j k : Nat) := by linarith
      exact_mod_cast this)
    (by rw [hzlen]; exact_mod_cast hs)
    (by exact_mod_cast (by linarith : (0 : ℚ) ≤ K + 1 / 2))
    (by exact_mod_cast (by linarith : (K : ℚ) + 1 / 2 < blockSum ys j p0))
    (by exact_mod_cast hr0) (by exact_mod_cast hθ0)
    (by exact_mod_cast hc)
    (by
      have : (1 + θ / 2) * (K + 1 / 2 : ℚ) ≤ (1 - r ^ 2 - θ * r) * blockSum ys j p0 :=
        henough.trans (mul_le_mul_of_nonneg_left (by linarith) hc)
      exact_mod_cast this)
    (by
      intro p hp hflat
      obtain ⟨x, hx, hmax, -⟩ := hp
      have hplt : p < P.numBins / 2 ^ j := by
        rw [← hzlen]
        exact (List.getElem?_eq_some_iff.mp hx).1
      have hxp := hzget p hplt
      rw [hx] at hxp
      obtain rfl := Option.some.inj hxp
      have hm : blockSum ys j p0 ≤ blockSum ys j p := by
        have := hmax _ (List.mem_of_getElem? (hzget p0 hp0))
        exact_mod_cast this
      have hKp : K < pairsInBlock a b P.numBins res j p := by
        have := (abs_lt.mp (hacc p hplt)).2
        have : (K : ℚ) < (pairsInBlock a b P.numBins res j p : Nat) := by linarith
        exact_mod_cast this
      obtain ⟨i, k, hi, hk, hne⟩ := hbg p hplt hKp
      have hlt : ∀ i, InBackground (P.numBins / 2 ^ j) p i → i < P.numBins / 2 ^ j := by
        rintro i (⟨-, c⟩ | ⟨-, -, c⟩)
        · exact c.trans hplt
        · exact c
      have heq := hflat i k (by rw [hzlen]; exact hi) (by rw [hzlen]; exact hk)
      rw [hzget i (hlt i hi), hzget k (hlt k hk)] at heq
      have heq' : blockSum ys j i = blockSum ys j k := by
        have := Option.some.inj heq
        exact_mod_cast this
      apply hne
      have a1 := abs_lt.mp (hacc i (hlt i hi))
      have a2 := abs_lt.mp (hacc k (hlt k hk))
      rw [heq'] at a1
      have b1 : ((pairsInBlock a b P.numBins res j i : Nat) : ℚ) < (pairsInBlock a b P.numBins res j k : Nat) + 1 := by linarith [a1.1, a1.2, a2.1, a2.2]
      have b2 : ((pairsInBlock a b P.numBins res j k : Nat) : ℚ) < (pairsInBlock a b P.numBins res j i : Nat) + 1 := by linarith [a1.1, a1.2, a2.1, a2.2]
      have c1 : pairsInBlock a b P.numBins res j i < pairsInBlock a b P.numBins res j k + 1 := by exact_mod_cast b1
      have c2 : pairsInBlock a b P.numBins res j k < pairsInBlock a b P.numBins res j i + 1 := by exact_mod_cast b2
      omega)
  obtain ⟨sg, hsg, hsv⟩ := hP (merged ys j) (2 ^ j * res) stats v (by rw [← hzs]; exact h1) h3
  have hge : P.threshold ≤ sg := by
    have a := (abs_le.mp hsv).1
    rw [hθ] at h4
    push_cast at h4
    have : (P.threshold : ℝ) ≤ sg := by linarith
    exact_mod_cast this
  exact ⟨sg, hsg, by linarith [hge, hth] |> fun h : 0 < sg => h.ne', hge⟩

/-- **C127** With enough coincidences in one bin the first peak is accepted as it is, and the significance of all correlations is
defined. -/
theorem C127_accepted (P : TFParams) (bts : List ℚ) (res φ τ B E0 E1 : ℚ) (δ : Nat → ℚ) (w : Nat → Nat) (L : Nat) (tol r : ℚ) (N K s : Nat)
    (hth : 0 < P.threshold) (C : RunCore P bts res 0 φ τ B E0 E1 δ w L) (hN : Numerics P tol)
    (hc : FirstCounted P bts res 0 tol r N K s) : RunBase P bts res 0 φ τ B E0 E1 δ w L := by
  refine { C with significance := ?_, significant := ?_ }
  · intro b r ys d _ hlen
    refine C127_defined P.signif tol hN.signif ys r ?_
    obtain ⟨p, hp, hNp⟩ := hc.high
    obtain ⟨i, k, hi, hk, -⟩ := hc.background p hp (lt_of_lt_of_le hc.more hNp)
    rw [hlen]
    rw [pow_zero, Nat.div_one] at hp hi
    rcases hi with ⟨a, b⟩ | ⟨a, b, c⟩ <;> omega
  · intro ys d h
    refine ⟨?_, fun i hi => absurd hi (by omega)⟩
    obtain ⟨k1, k2, k3, k4⟩ := C.clearEarly
    have hM := k2.2.1
    rw [duration_float P C.rnd C.rndA res] at h
    obtain ⟨v, -, hv⟩ := correlate_windows P C.rndA P.numBins C.bins.2 rfl C.bins.1 bts res 0 _ C.resolution.1
      (window_bins C.resolution.1 k1 _) (window_bins C.resolution.1 k1 _)
      (by intro hc; rw [hc] at hM; simp [pairsNear] at hM) (by intro hc; rw [hc] at hM; simp [pairsNear] at hM) _ rfl k3.1
    rw [hv] at h
    simp only [Except.ok.injEq, Prod.mk.injEq] at h
    rw [← h.1]
    exact C127_pairs P tol hN.signif hN.tolerance hth _ _ res C.resolution.1 0 N K s r k3
      (hN.nonneg _ _ (by simp [histogram]) (by simp [histogram])) hc

/-- **C127** (the program): if the recordings have enough coincidences, fpfind prints the right correction. -/
theorem C127_printed (env : NumEnv) (henv : env.rnd = fl 53) (args : FpMainArgs) (hfull : args.precompFullscan = false)
    (hout : args.output = 0) (a b : List ℚ) (hin : Input env args a b) (pre post : List ℚ) (d : ℚ)
    (hp : precs env args = pre ++ d :: post) (hd : |fl 53 (1 + d) - 1| ≤ 1 / 2 ^ 9)
    (hpre : ∀ d' ∈ pre, Search env args a (precompensated env d' b) (.error .valueError))
    (φ τ φ' τ' B E0 E1 η : ℚ) (δ : Nat → ℚ) (w : Nat → Nat) (L : Nat)
    (hφ : 1 + φ = (1 + φ') * fl 53 (1 + d)) (hτ : τ = τ' * fl 53 (1 + d)) (P : TFParams)
    (hP : P = searchParams env args a (precompensated env d b)) (hth : 0 < P.threshold)
    (C : RunCore P (precompensated env d b) args.initialRes 0 φ' τ' B E0 E1 δ w L)
    (C' : InputClear P (precompensated env d b) args.initialRes 0 φ' τ' B η δ w L)
    (tol r : ℚ) (N K s : Nat) (hN : Numerics P tol) (hc : FirstCounted P (precompensated env d b) args.initialRes 0 tol r N K s) :
    ∃ line x n k, Returns (fun fuel => fpMain env fuel args) (.ok (some line)) ∧ Printed ⟨.inl x, some n⟩ line ∧ k ≤ L ∧
      ∀ ε R, ε = args.finalRes + δ k + 2 ^ args.bufferOrder * args.finalRes / 2 ^ 50 →
      R = (k + 1) * (B + (k + 1) * (101 * 10 ^ 6)) / 2 ^ 49 → ∀ t, 0 ≤ t → |targetClock φ' τ' t| ≤ B →
        |corrected n x (targetClock φ τ t) - t| ≤
          (ε + R + 2 * (ε + R) * (t / P.sep)) * (1 + 1 / 2 ^ 10) + 4 * R + (1 / 2 + 1 / 2 ^ 8) := by
  subst hP
  exact C120_printed env henv args hfull hout a b hin pre post d hp hd hpre 0 φ τ φ' τ' B E0 E1 η δ w L hφ hτ
    ⟨C127_accepted _ _ _ _ _ _ _ _ _ _ _ tol r N K s hth C hN hc, C'⟩

/-- For the threshold 6 and two more high bins among at least 8192, a peak of five times the other bins and four pairs is enough. -/
theorem C127_enough (tol : ℚ) (htol : 0 ≤ tol) (htol' : tol ≤ 1 / 2000) (n N K : Nat) (hn : 8192 ≤ n) (h : 5 * K + 4 ≤ N) :
    (0 : ℚ) ≤ 1 / 45 ∧ ((2 : Nat) : ℚ) ≤ (1 / 45) ^ 2 * (n / 2 ^ 0 / 2 : Nat) ∧ 0 ≤ 1 - (1 / 45 : ℚ) ^ 2 - (6 + tol + 1 / 2000) * (1 / 45) ∧
    (1 + (6 + tol + 1 / 2000) / 2) * (K + 1 / 2 : ℚ) ≤ (1 - (1 / 45 : ℚ) ^ 2 - (6 + tol + 1 / 2000) * (1 / 45)) * (N - 1 / 2 : ℚ) := by
  have h1 : 4096 ≤ n / 2 ^ 0 / 2 := by
    rw [pow_zero, Nat.div_one]
    omega
  have h2 : (4096 : ℚ) ≤ (n / 2 ^ 0 / 2 : Nat) := by exact_mod_cast h1
  have h3 : (5 : ℚ) * K + 4 ≤ N := by exact_mod_cast h
  have hK : (0 : ℚ) ≤ K := by positivity
  refine ⟨by norm_num, ?_, by linarith, ?_⟩
  · push_cast
    linarith
  · have a1 : (1 + (6 + tol + 1 / 2000) / 2) * (K + 1 / 2 : ℚ) ≤ (4 + 1 / 2000) * (K + 1 / 2 : ℚ) :=
      mul_le_mul_of_nonneg_right (by linarith) (by linarith)
    have a2 : (865 / 1000 : ℚ) * (N - 1 / 2 : ℚ) ≤ (1 - (1 / 45 : ℚ) ^ 2 - (6 + tol + 1 / 2000) * (1 / 45)) * (N - 1 / 2 : ℚ) :=
      mul_le_mul_of_nonneg_right (by linarith) (by linarith)
    linarith

/-! ## Instance: seven coincidences at the beginning and at the end, with the default threshold -/

noncomputable def countedParams : TFParams :=
  { ats := [8, 10, 16, 28, 44, 54, 58, 1000008, 1000010, 1000016, 1000028, 1000044, 1000054, 1000058], numBins := 256, target := 1 / 2,
    threshold := 6, sep := 1000000, duration := 256, endTime := 1000058, rnd := fl 53, rndA := fl 64, xcorr := convXcorr,
    signif := roundedSignif }

/-- The clock runs faster by 10^-5 and is 3 ns ahead; one event is late by 1/8 ns. -/
def countedTarget : List ℚ := [11, 105 / 8, 19, 31, 47, 57, 61, 1000021, 1000023, 1000029, 1000041, 1000057, 1000067, 1000071]

def countedAts : List ℚ := [8, 10, 16, 28, 44, 54, 58, 1000008, 1000010, 1000016, 1000028, 1000044, 1000054, 1000058]

theorem convXcorr_nonneg (a b : List Nat) : ∀ y ∈ convXcorr a b, 0 ≤ y := by
  intro y hy
  unfold convXcorr roughXcorr at hy
  rw [List.map_map] at hy
  obtain ⟨k, -, rfl⟩ := List.mem_map.mp hy
  simp only [Function.comp]
  have : (0 : ℚ) ≤ (((List.range a.length).map fun i => a.getD i 0 * b.getD ((i + k) % a.length) 0).sum : Nat) := by positivity
  linarith

theorem counted_numerics : Numerics countedParams (1 / 2000) :=
  ⟨roundedSignif_spec, by norm_num, fun a b _ _ => convXcorr_nonneg a b⟩

theorem counted_early_a : inWindowR (fl 64) 0 (acqDurationFl 256 1 256 1000058) countedAts = [8, 10, 16, 28, 44, 54, 58] := by
  decide +kernel

theorem counted_early_b : inWindowR (fl 64) 0 (acqDurationFl 256 1 256 1000058) countedTarget = [11, 105 / 8, 19, 31, 47, 57, 61] := by
  decide +kernel

theorem counted_first : FirstCounted countedParams countedTarget 1 0 (1 / 2000) 0 7 1 0 := by
  unfold FirstCounted
  show CountedPeak (inWindowR (fl 64) 0 (acqDurationFl 256 1 256 1000058) countedAts)
    (inWindowR (fl 64) 0 (acqDurationFl 256 1 256 1000058) countedTarget) 256 1 0 (6 + 1 / 2000 + 1 / 2000) 0 7 1 0
  rw [counted_early_a, counted_early_b]
  have hq : ∀ p < 256, 1 < pairsInBlock [8, 10, 16, 28, 44, 54, 58] [11, 105 / 8, 19, 31, 47, 57, 61] 256 1 0 (p : Nat) → p = 3 := by
    decide +kernel
  refine ⟨⟨3, by norm_num, by decide +kernel⟩, by decide +kernel, by norm_num, ⟨le_rfl, by norm_num, by norm_num⟩, by norm_num, ?_⟩
  intro p hp h
  obtain rfl := hq p (by simpa using hp) h
  exact ⟨4, 5, Or.inr (by norm_num), Or.inr (by norm_num), by decide +kernel⟩

theorem counted_resolution : resolutionAt countedParams 1 0 1 = 1 / 2 := by
  simp only [resolutionAt, countedParams]
  decide +kernel

theorem counted_resolution_first : resolutionAt countedParams 1 0 0 = 1 := by
  simp only [resolutionAt, countedParams]
  decide +kernel

theorem counted_length : lengthAt countedParams 1 0 1 = 256 := by
  unfold lengthAt
  rw [counted_resolution]
  show acqDurationFl 256 (1 / 2) 256 1000058 = 256
  decide +kernel

/-- The margin in the second iteration. -/
def countedMargin : ℚ := 4 * (1 + 1 / 5 + 256 / 2 ^ 50 + 2 * (2 * (2 * 10 ^ 6 + 2 * (101 * 10 ^ 6)) / 2 ^ 49))

theorem counted_margin : marginAt countedParams 1 0 (fun _ => 1 / 5) (2 * 10 ^ 6) 1 1 = countedMargin := by
  unfold marginAt errorAt roundingOf countedMargin
  rw [counted_resolution_first]
  norm_num [countedParams]

theorem accurate_unmerged {xc : List Nat → List Nat → List ℚ} {a b : List ℚ} {n : Nat} {res : ℚ} (h : XcorrAccurate xc a b n res) :
    MergedAccurate xc a b n res 0 := by
  refine ⟨h.1, fun k hk => ?_⟩
  rw [pow_zero, Nat.div_one] at hk
  have hlt : k < (xc (histogram a n res) (histogram b n res)).length := by rw [h.1]; exact hk
  have e1 : pairsInBlock a b n res 0 k = pairsAt a b n res k := by simp [pairsInBlock]
  have e2 : blockSum (xc (histogram a n res) (histogram b n res)) 0 k = (xc (histogram a n res) (histogram b n res))[k] := by
    unfold blockSum
    rw [pow_zero, Nat.mul_one, List.drop_eq_getElem_cons hlt]
    exact List.sum_singleton
  rw [e1, e2]
  exact h.2 k _ (List.getElem?_eq_getElem hlt)

theorem counted_clear_early : ClearMerged countedParams countedTarget 1 0 3 (1 / 5) 3 := by
  unfold ClearMerged
  show acqDurationFl 256 1 256 1000058 ≤ 1 * 2 ^ 58 ∧
    StandsOutMerged (inWindowR (fl 64) 0 (acqDurationFl 256 1 256 1000058) countedAts)
      (inWindowR (fl 64) 0 (acqDurationFl 256 1 256 1000058) countedTarget) 256 1 0 3 (1 / 5) 3 ∧
    MergedAccurate convXcorr (inWindowR (fl 64) 0 (acqDurationFl 256 1 256 1000058) countedAts)
      (inWindowR (fl 64) 0 (acqDurationFl 256 1 256 1000058) countedTarget) 256 1 0 ∧
    |(3 : ℚ)| + (2 ^ 0 * 1 + 1 / 5) ≤ ((256 : Nat) : ℚ) * 1 / 2
  rw [counted_early_a, counted_early_b]
  exact ⟨by decide +kernel, standsOutMerged_check [2, 3, 4] (by norm_num) (by decide +kernel) (by decide +kernel) (by decide +kernel),
    accurate_unmerged (convXcorr_accurate _ _ (by decide +kernel) (by decide +kernel) 128 (by norm_num) 1), by norm_num [abs_of_pos]⟩

theorem counted_clear_late : ClearIn countedParams countedTarget (acqDurationFl 256 1 256 1000058) 1 1000000 13 (1 / 5) 3 := by
  have hd : acqDurationFl 256 1 256 1000058 = 256 := by decide +kernel
  rw [hd]
  unfold ClearIn
  show (256 : ℚ) ≤ 1 * 2 ^ 58 ∧
    StandsOut (inWindowR (fl 64) 1000000 256 countedAts) (inWindowR (fl 64) 1000000 256 countedTarget) 256 1 13 (1 / 5) 3 ∧
    XcorrAccurate convXcorr (inWindowR (fl 64) 1000000 256 countedAts) (inWindowR (fl 64) 1000000 256 countedTarget) 256 1 ∧
    |(13 : ℚ)| + (1 + 1 / 5) ≤ ((256 : Nat) : ℚ) * 1 / 2
  exact ⟨by norm_num, standsOut_check [12, 13, 14] (by norm_num) (by decide +kernel) (by decide +kernel) (by decide +kernel),
    convXcorr_accurate _ _ (by decide +kernel) (by decide +kernel) 128 (by norm_num) 1, by norm_num [abs_of_pos]⟩

theorem counted_prominent (start : ℚ) (hs : start = 0 ∨ start = 1000000) :
    Prominent countedAts countedTarget (1 / 100000) 3 256 (1 / 2) start 256 countedMargin (13 / 100) (1 / 5) 3 := by
  rcases hs with rfl | rfl
  · have hc : coincidences countedAts countedTarget (1 / 100000) 3 (0 + countedMargin + 13 / 100) (0 + 256 - countedMargin - 13 / 100) (13 / 100) = 7 := by
      decide +kernel
    refine ⟨by norm_num, by rw [hc]; norm_num, fun κ _ => ?_⟩
    rw [hc]
    have := pairsAround_one countedAts countedTarget (1 / 100000) 3 (0 - countedMargin) (0 + 256 + countedMargin) (13 / 100)
      ((256 : Nat) * (1 / 2)) (1 / 2 + 1 / 5) (by norm_num) (by decide +kernel) κ
    omega
  · have hc : coincidences countedAts countedTarget (1 / 100000) 3 (1000000 + countedMargin + 13 / 100)
        (1000000 + 256 - countedMargin - 13 / 100) (13 / 100) = 7 := by
      decide +kernel
    refine ⟨by norm_num, by rw [hc]; norm_num, fun κ _ => ?_⟩
    rw [hc]
    have := pairsAround_one countedAts countedTarget (1 / 100000) 3 (1000000 - countedMargin) (1000000 + 256 + countedMargin) (13 / 100)
      ((256 : Nat) * (1 / 2)) (1 / 2 + 1 / 5) (by norm_num) (by decide +kernel) κ
    omega

theorem counted_core : RunCore countedParams countedTarget 1 0 (1 / 100000) 3 (2 * 10 ^ 6) (13 / 10) (3 / 4) (fun _ => 1 / 5) (fun _ => 3) 1 where
  rnd := rfl
  rndA := rfl
  bins := by norm_num [countedParams]
  target := by norm_num [countedParams]
  duration := by norm_num [countedParams]
  separation := by norm_num [countedParams, resRefineFactor]
  resolution := ⟨by norm_num, by show fl 53 1 = 1; decide +kernel⟩
  merging := ⟨⟨256, by norm_num [countedParams]⟩, Or.inl rfl⟩
  last := counted_resolution
  few := by norm_num
  clearEarly := counted_clear_early
  clearLate := by
    have hD : targetClock (1 / 100000) 3 countedParams.sep - countedParams.sep = 13 := by norm_num [targetClock, countedParams]
    have h1 : (2 : ℚ) ^ 0 * 1 = 1 := by norm_num
    rw [hD, h1]
    exact counted_clear_late
  times := by norm_num [countedParams, targetClock, abs_of_pos]
  errorFirst := by
    unfold errorAt
    rw [counted_resolution_first]
    norm_num [countedParams]
  errorLater := by
    intro k h0 h1
    obtain rfl : k = 1 := by omega
    unfold errorAt
    rw [counted_resolution]
    norm_num [countedParams]
  errors := by norm_num
  rounding := by norm_num
  offset := by norm_num [abs_of_pos]
  frequency := by norm_num [countedParams, abs_of_pos]
  guardDelay := Or.inl (by norm_num [abs_of_pos])
  guardFrequency := Or.inl (by norm_num [countedParams, abs_of_pos])

theorem counted_input : InputClear countedParams countedTarget 1 0 (1 / 100000) 3 (2 * 10 ^ 6) (13 / 100) (fun _ => 1 / 5) (fun _ => 3) 1 where
  bound := by decide +kernel
  accurate := by
    intro k _ _ a b ha hb _ _
    exact convXcorr_accurate a b ha hb 128 (by norm_num) _
  spread := by
    intro k h0 h1
    obtain rfl : k = 1 := by omega
    rw [counted_margin, counted_length]
    unfold errorAt roundingOf countedMargin
    rw [counted_resolution_first]
    norm_num [countedParams]
  range := by
    intro k h0 h1
    obtain rfl : k = 1 := by omega
    rw [counted_length, counted_resolution]
    unfold errorAt roundingOf
    rw [counted_resolution_first]
    norm_num [countedParams]
  prominent := by
    intro k h0 h1 start hs
    obtain rfl : k = 1 := by omega
    rw [counted_length, counted_resolution, counted_margin]
    exact counted_prominent start hs

/-- Instance of C127: with the significance as the code computes it, the run with these events ends with a correction. -/
example : ∃ dt df trace, Returns (fun fuel => timeFreq countedParams fuel countedTarget 1) (.ok (dt, df, trace)) := by
  have hb := C127_accepted _ _ _ _ _ _ _ _ _ _ _ _ _ _ _ _ (by show (0 : ℚ) < 6; norm_num) counted_core counted_numerics counted_first
  obtain ⟨dt, df, trace, k, h1, -⟩ := C120_converges _ _ _ _ _ _ _ _ _ _ _ _ _ ⟨hb, counted_input⟩
  exact ⟨dt, df, trace, h1⟩

end Fp
