import Verif.Props.SignificantRun
import Verif.Spec.Quiet

/-! # C129: recordings without a significant peak -/
namespace Fp
open Spec

theorem sum_shift {ι : Type} (I : List ι) (c : ι → ℝ) (m μ : ℝ) :
    (I.map fun i => (c i - m) ^ 2).sum =
      (I.map fun i => (c i - μ) ^ 2).sum + 2 * (μ - m) * ((I.map c).sum - I.length * μ) + I.length * (μ - m) ^ 2 := by
  induction I with
  | nil => simp
  | cons i I ih =>
    simp only [List.map_cons, List.sum_cons, List.length_cons]
    rw [ih]
    push_cast
    ring

theorem sum_near {ι : Type} (I : List ι) (y c : ι → ℝ) (m t : ℝ) (h : ∀ i ∈ I, |y i - c i| ≤ 1 / 2) (ht : 0 < t) (ht1 : t ≤ 1) :
    (1 - t) * (I.map fun i => (c i - m) ^ 2).sum - (1 / t - 1) * (I.length / 4) ≤ (I.map fun i => (y i - m) ^ 2).sum ∧
    |(I.map y).sum - (I.map c).sum| ≤ I.length / 2 := by
  induction I with
  | nil => simp
  | cons i I ih =>
    obtain ⟨h1, h2⟩ := ih fun k hk => h k (by simp [hk])
    have h3 := h i (by simp)
    simp only [List.map_cons, List.sum_cons, List.length_cons]
    push_cast
    constructor
    · obtain ⟨e, he⟩ : ∃ e, e = y i - c i := ⟨_, rfl⟩
      have hy : y i = c i + e := by rw [he]; ring
      rw [← he] at h3
      have he2 : e ^ 2 ≤ 1 / 4 := by
        have := sq_le_sq' (by linarith [(abs_le.mp h3).1]) (abs_le.mp h3).2
        linarith
      have ht' : 0 ≤ 1 / t - 1 := by
        rw [sub_nonneg, le_div_iff₀ ht]
        linarith
      have key : (1 - t) * (c i - m) ^ 2 - (1 / t - 1) * e ^ 2 ≤ (y i - m) ^ 2 := by
        have : (y i - m) ^ 2 - ((1 - t) * (c i - m) ^ 2 - (1 / t - 1) * e ^ 2) = (t * (c i - m) + e) ^ 2 / t := by
          rw [hy]
          field_simp
          ring
        have h5 : 0 ≤ (t * (c i - m) + e) ^ 2 / t := by positivity
        linarith
      have := mul_le_mul_of_nonneg_left he2 ht'
      nlinarith
    · have e : y i + (I.map y).sum - (c i + (I.map c).sum) = (y i - c i) + ((I.map y).sum - (I.map c).sum) := by ring
      rw [e]
      refine (abs_add_le _ _).trans ?_
      linarith

/-- The standard deviation of numbers that are off by at most 1/2 is less by at most 1/2. -/
theorem spread_near {ι : Type} (I : List ι) (y c : ι → ℝ) (m μ S : ℝ) (h : ∀ i ∈ I, |y i - c i| ≤ 1 / 2) (hμ : μ * I.length = (I.map c).sum)
    (hS : 1 / 2 < S) (hv : S ^ 2 * I.length ≤ (I.map fun i => (c i - μ) ^ 2).sum) :
    (S - 1 / 2) ^ 2 * I.length ≤ (I.map fun i => (y i - m) ^ 2).sum := by
  have hS0 : 0 < S := by linarith
  have ht : 1 / (2 * S) ≤ 1 := by
    rw [div_le_one (by linarith)]
    linarith
  obtain ⟨h1, -⟩ := sum_near I y c m (1 / (2 * S)) h (by positivity) ht
  have h2 := sum_shift I c m μ
  have h3 : 0 ≤ (I.length : ℝ) * (μ - m) ^ 2 := by positivity
  have h4 : S ^ 2 * I.length ≤ (I.map fun i => (c i - m) ^ 2).sum := by
    rw [h2, ← hμ]
    nlinarith
  have h5 := mul_le_mul_of_nonneg_left h4 (sub_nonneg.mpr ht)
  have e : (S - 1 / 2) ^ 2 * I.length = (1 - 1 / (2 * S)) * (S ^ 2 * I.length) - (1 / (1 / (2 * S)) - 1) * (I.length / 4) := by
    field_simp
    ring
  linarith

/-- **C129** (bound): if the heights differ from numbers `c` by at most 1/2, the highest one is at most `N` + 1/2, and `N` is above the
mean of the background by at most θ (σ - 1/2) - 1, the significance is at most θ, up to rounding. -/
theorem C129_bound {ι : Type} (s : PeakStatistics ℝ) (x : ℝ) (hx : s.signal = [x]) (I : List ι) (y c : ι → ℝ) (hy : s.background = I.map y)
    (hI : I ≠ []) (h : ∀ i ∈ I, |y i - c i| ≤ 1 / 2) (N μ σ θ : ℝ) (hN : x ≤ N + 1 / 2) (hμ : μ * I.length = (I.map c).sum)
    (hσ : 1 / 2 < σ) (hv : σ ^ 2 * I.length ≤ (I.map fun i => (c i - μ) ^ 2).sum) (hθ : N - μ + 1 < θ * (σ - 1 / 2))
    (hmean : μ ≤ N + 1) : ∃ v, s.significance = .ok v ∧ v < θ + 1 / 2000 := by
  have hl : (0 : ℝ) < I.length := by exact_mod_cast List.length_pos_of_ne_nil hI
  have hbl : s.background.length = I.length := by rw [hy, List.length_map]
  have hb : s.background ≠ [] := by
    intro hc
    rw [hc] at hbl
    simp at hbl
    exact hI (List.length_eq_zero_iff.mp hbl.symm)
  obtain ⟨m, hm⟩ : ∃ m, m = meanR s.background := ⟨_, rfl⟩
  have hml : m * s.background.length = s.background.sum := by
    rw [hm]
    unfold meanR
    rw [hbl]
    field_simp
  have hnn : (0 : ℝ) ≤ (s.background.map fun w => (w - meanR s.background) ^ 2).sum / s.background.length := by
    apply div_nonneg _ (by positivity)
    apply List.sum_nonneg
    intro w hw
    obtain ⟨v, -, rfl⟩ := List.mem_map.mp hw
    positivity
  have hσ2 : stdR s.background ^ 2 * s.background.length = (s.background.map fun w => (w - m) ^ 2).sum := by
    unfold stdR
    rw [Real.sq_sqrt hnn, div_mul_cancel₀ _ (by rw [hbl]; exact hl.ne'), hm]
  have hlow : (σ - 1 / 2) ^ 2 * I.length ≤ stdR s.background ^ 2 * I.length := by
    rw [← hbl, hσ2, hy, List.map_map]
    rw [List.length_map]
    exact spread_near I y c m μ σ h hμ hσ hv
  have hsd : σ - 1 / 2 ≤ stdR s.background :=
    abs_le_of_sq_le_sq' (le_of_mul_le_mul_right hlow hl) (Real.sqrt_nonneg _) |>.2
  have hpos : 0 < stdR s.background := by linarith
  obtain ⟨⟨k, h1, h2, -⟩, -⟩ := C72_values s x m _ (by rw [hx]; simp) (by rw [hx]; simp) hb hml hpos hσ2
  refine ⟨_, h1, ?_⟩
  have hmμ : μ - 1 / 2 ≤ m := by
    have h3 := (abs_le.mp (sum_near I y c m 1 h one_pos le_rfl).2).1
    rw [← hμ, ← hy, ← hml, hbl] at h3
    have : (μ - 1 / 2) * I.length ≤ m * I.length := by linarith
    exact le_of_mul_le_mul_right this hl
  have hlt : (x - m) / stdR s.background < θ := by
    rw [div_lt_iff₀ hpos]
    have hθ0 : 0 < θ := by
      by_contra hc
      have := mul_le_mul_of_nonneg_right (not_lt.mp hc) (by linarith : 0 ≤ σ - 1 / 2)
      linarith
    have := mul_le_mul_of_nonneg_left hsd hθ0.le
    linarith
  have := (abs_le.mp h2).2
  linarith

theorem slice_map {α : Type} [Inhabited α] (l : List α) (lo hi : Nat) (h : hi ≤ l.length) :
    (l.take hi).drop lo = (List.range' lo (hi - lo)).map fun i => l.getD i default := by
  apply List.ext_getElem
  · simp [h]
  · intro i h1 h2
    simp only [List.length_drop, List.length_take] at h1
    have hlt : lo + i < l.length := by omega
    simp [hlt]

/-- The background of the highest bin as a list. -/
theorem peak_background (hist : List ℝ) (hne : hist ≠ []) (r : ℚ) (hr : 0 < r) :
    ∃ p x stats, FirstMax hist p ∧ hist[p]? = some x ∧ getStatistics hist (some r) none 0 = .ok stats ∧ stats.signal = [x] ∧
      stats.background = (backgroundBins hist.length p).map fun i => hist.getD i default := by
  obtain ⟨p, x, stats, h1, h2, h3, h4, -⟩ := peak_parts hist hne r hr
  refine ⟨p, x, stats, h1, h2, h3, h4, ?_⟩
  obtain ⟨p', stats', hp', hs', lo, hi, blo, bhi, k1, k2, k3, k4, -, -, k5, k6, k7, k8, k9, k10, -, hback⟩ :=
    C31_windows_partial hist hne r 0 hr le_rfl
  obtain rfl := firstMax_eq h1 hp'
  rw [h3] at hs'
  obtain rfl := Except.ok.inj hs'
  have hlo : lo = p := by
    have : (p - lo : ℚ) < 1 := by
      by_contra hc
      have := mul_le_mul_of_nonneg_right (not_lt.mp hc) hr.le
      linarith
    have : (p : ℚ) < lo + 1 := by linarith
    have : p < lo + 1 := by exact_mod_cast this
    omega
  have hhi : hi = p := by
    have : (hi - p : ℚ) < 1 := by
      by_contra hc
      have := mul_le_mul_of_nonneg_right (not_lt.mp hc) hr.le
      linarith
    have : (hi : ℚ) < p + 1 := by linarith
    have : hi < p + 1 := by exact_mod_cast this
    omega
  subst hlo hhi
  have hlt : hi < hist.length := (List.getElem?_eq_some_iff.mp h2).1
  rw [hback]
  unfold backgroundBins
  rw [List.map_append]
  congr 1
  · rw [slice_map _ _ _ (by omega), show blo = hi / 2 by omega]
  · rw [← List.take_length (l := hist.take bhi), List.length_take, List.take_take, Nat.min_eq_left (Nat.min_le_left _ _),
      slice_map _ _ _ (Nat.min_le_right _ _), show bhi = (hist.length + hi) / 2 + 1 by omega]

theorem background_mem {n p i : Nat} (hp : p < n) (hi : i ∈ backgroundBins n p) : i < n := by
  unfold backgroundBins at hi
  rw [List.mem_append, List.mem_range'_1, List.mem_range'_1] at hi
  omega

theorem background_ne {n p : Nat} (hp : p < n) (h2 : 2 ≤ n) : backgroundBins n p ≠ [] := by
  intro hc
  have := congrArg List.length hc
  unfold backgroundBins at this
  simp only [List.length_append, List.length_range', List.length_nil] at this
  omega

/-- **C129** (pairs): the highest block of an unremarkable correlation is not accepted. -/
theorem C129_refused (P : TFParams) (tol : ℚ) (hP : SignificanceOf P.signif tol) (a b : List ℚ) (res : ℚ) (hr : 0 < res) (j : Nat)
    (h2 : 2 ≤ P.numBins / 2 ^ j) (hacc : MergedAccurate P.xcorr a b P.numBins res j)
    (h : Unremarkable a b P.numBins res j (P.threshold - tol - 1 / 2000)) :
    ¬ Accepted P (P.xcorr (histogram a P.numBins res) (histogram b P.numBins res)) res j := by
  obtain ⟨hlen, hacc⟩ := hacc
  generalize P.xcorr (histogram a P.numBins res) (histogram b P.numBins res) = ys at *
  obtain ⟨n, hn⟩ : ∃ n, n = P.numBins / 2 ^ j := ⟨_, rfl⟩
  rintro ⟨sig, hsig, -, hge⟩
  obtain ⟨zs, hzs⟩ : ∃ zs, zs = (merged ys j).map fun q : ℚ => (q : ℝ) := ⟨_, rfl⟩
  have hzlen : zs.length = n := by
    rw [hzs, List.length_map, hn]
    unfold merged
    rw [List.length_map, List.length_range, hlen]
  have hzget : ∀ i, i < n → zs[i]? = some ((blockSum ys j i : ℚ) : ℝ) := by
    intro i hi
    rw [hzs]
    unfold merged
    rw [List.getElem?_map, List.getElem?_map, hlen, ← hn, List.getElem?_range hi]
    rfl
  obtain ⟨p, x, stats, hp, hx, hst, hs, hback⟩ :=
    peak_background zs (by rintro rfl; simp at hzlen; omega) (2 ^ j * res) (by positivity)
  have hplt : p < n := by
    rw [← hzlen]
    exact (List.getElem?_eq_some_iff.mp hx).1
  have hxp := hzget p hplt
  rw [hx] at hxp
  obtain rfl := Option.some.inj hxp
  have hmaxp : ∀ q : Nat, q < P.numBins / 2 ^ j → pairsInBlock a b P.numBins res j q ≤ pairsInBlock a b P.numBins res j p := by
    intro q hq
    obtain ⟨x', hx', hm, -⟩ := hp
    rw [hx] at hx'
    obtain rfl := Option.some.inj hx'
    have h1 : blockSum ys j q ≤ blockSum ys j p := by exact_mod_cast hm _ (List.mem_of_getElem? (hzget q (hn ▸ hq)))
    have h3 := (abs_lt.mp (hacc q hq)).1
    have h4 := (abs_lt.mp (hacc p (hn ▸ hplt))).2
    have : ((pairsInBlock a b P.numBins res j q : Nat) : ℚ) < (pairsInBlock a b P.numBins res j p : Nat) + 1 := by linarith
    have : pairsInBlock a b P.numBins res j q < pairsInBlock a b P.numBins res j p + 1 := by exact_mod_cast this
    omega
  obtain ⟨μ, σ, hμ, hσ, hv, hlt⟩ := h p (hn ▸ hplt) hmaxp
  obtain ⟨I, hI⟩ : ∃ I, I = backgroundBins n p := ⟨_, rfl⟩
  have hIne : I ≠ [] := hI ▸ background_ne hplt (hn ▸ h2)
  have hIlt : ∀ i ∈ I, i < n := fun i hi => background_mem hplt (hI ▸ hi)
  unfold backgroundPairs at hμ hv
  rw [← hn, ← hI, List.length_map] at hμ hv
  rw [List.map_map] at hv
  obtain ⟨c, hc⟩ : ∃ c : Nat → ℚ, c = fun i : Nat => ((pairsInBlock a b P.numBins res j i : Nat) : ℚ) := ⟨_, rfl⟩
  have hcp : ((pairsInBlock a b P.numBins res j p : Nat) : ℚ) = c p := by rw [hc]
  rw [← hc] at hμ
  have hv' : σ ^ 2 * I.length ≤ (I.map fun i => (c i - μ) ^ 2).sum := by
    rw [hc]
    exact hv
  rw [hcp] at hlt
  have hcast : ∀ f : Nat → ℚ, (((I.map f).sum : ℚ) : ℝ) = (I.map fun i => ((f i : ℚ) : ℝ)).sum := by
    intro f
    clear hI hIne hIlt hback hμ hv hv'
    induction I with
    | nil => simp
    | cons i I ih => simp [ih]
  have hmean : μ ≤ c p := by
    have hl : (0 : ℚ) < I.length := by exact_mod_cast List.length_pos_of_ne_nil hIne
    have hle : (I.map c).sum ≤ c p * I.length := by
      have : ∀ i ∈ I, c i ≤ c p := by
        intro i hi
        simp only [hc]
        exact_mod_cast hmaxp i (hn ▸ hIlt i hi)
      clear hI hIne hIlt hback hμ hv hv' hl hcast
      induction I with
      | nil => simp
      | cons i I ih =>
        have h1 := ih fun k hk => this k (by simp [hk])
        have h2 := this i (by simp)
        simp only [List.map_cons, List.sum_cons, List.length_cons]
        push_cast
        linarith
    rw [← hμ] at hle
    exact le_of_mul_le_mul_right hle hl
  obtain ⟨v, hv1, hv2⟩ := C129_bound stats ((blockSum ys j p : ℚ) : ℝ) hs I (fun i => zs.getD i default) (fun i => ((c i : ℚ) : ℝ))
    (by rw [hback, hzlen, hI]) hIne
    (by
      intro i hi
      have h1 := hacc i (hn ▸ hIlt i hi)
      have e : zs.getD i default = ((blockSum ys j i : ℚ) : ℝ) := by
        rw [List.getD_eq_getElem?_getD, hzget i (hIlt i hi)]
        rfl
      have h3 := (Rat.cast_le (K := ℝ)).mpr h1.le
      simp only [e, hc]
      push_cast at h3 ⊢
      exact h3)
    ((c p : ℚ) : ℝ) ((μ : ℚ) : ℝ) ((σ : ℚ) : ℝ) ((P.threshold - tol - 1 / 2000 : ℚ) : ℝ)
    (by
      have h1 := (abs_lt.mp (hacc p (hn ▸ hplt))).2
      rw [hcp] at h1
      have h3 := (Rat.cast_le (K := ℝ)).mpr (by linarith : blockSum ys j p ≤ c p + 1 / 2)
      push_cast at h3
      exact h3)
    (by rw [← hcast]; exact_mod_cast hμ)
    (by have h3 := (Rat.cast_lt (K := ℝ)).mpr hσ; push_cast at h3; exact h3)
    (by
      have h3 := (Rat.cast_le (K := ℝ)).mpr hv'
      rw [hcast] at h3
      push_cast at h3
      exact h3)
    (by have h3 := (Rat.cast_lt (K := ℝ)).mpr hlt; push_cast at h3 ⊢; exact h3)
    (by exact_mod_cast (by linarith : μ ≤ c p + 1))
  obtain ⟨sg, hsg, hsv⟩ := hP (merged ys j) (2 ^ j * res) stats v (by rw [← hzs]; exact hst) hv1
  rw [hsig] at hsg
  obtain rfl := Except.ok.inj hsg
  have h5 := (abs_le.mp hsv).2
  push_cast at hv2
  have : (sig : ℝ) < P.threshold := by linarith
  have : sig < P.threshold := by exact_mod_cast this
  linarith

/-- **C129** (search): a search in quiet recordings fails. -/
theorem C129_fails (P : TFParams) (hr : P.rnd = fl 53) (hra : P.rndA = fl 64) (hb : 0 < P.numBins) (hb64 : P.numBins < 2 ^ 64) (tol : ℚ)
    (hN : Numerics P tol) (bts : List ℚ) (res : ℚ) (hpos : 0 < res) (hres : fl 53 res = res) (a b : List ℚ) (h : Quiet P bts res tol a b) :
    Returns (fun fuel => timeFreq P fuel bts res) (.error .valueError) := by
  obtain ⟨ha, hbt, hw, ⟨hea, heb⟩, hblocks⟩ := h
  have h0 := (hblocks 0 (by simp) (Or.inl rfl)).2.1
  have hd := duration_float P hr hra res
  obtain ⟨v, -, hv⟩ := correlate_windows P hra P.numBins hb64 rfl hb bts res 0 (tfDuration P res) hpos
    (by rw [hd]; exact window_bins hpos hw _) (by rw [hd]; exact window_bins hpos hw _)
    (by rw [hd, ← ha]; exact hea) (by rw [hd, ← hbt]; exact heb) _ rfl (by rw [hd, ← ha, ← hbt]; exact h0.1)
  rw [hd, ← ha, ← hbt, ← hd] at hv
  have hlen := h0.1
  refine C93_fail P (by rw [hr]; exact C93_doubles.2.1) bts res (by rw [hr]; exact hres) hpos.le _ v.1
    (by rintro hc; rw [hc] at hlen; simp at hlen; omega) hv ?_ ?_
  · intro j hj hj2
    rw [hlen] at hj
    refine C127_defined P.signif tol hN.signif _ _ ?_
    have := (hblocks j hj hj2).1
    unfold merged
    rw [List.length_map, List.length_range, hlen]
    exact this
  · intro j hj hj2
    rw [hlen] at hj
    obtain ⟨k1, k2, k3⟩ := hblocks j hj hj2
    exact C129_refused P tol hN.signif a b res hpos j k1 k2 k3

theorem search_quiet (env : NumEnv) (henv : env.rnd = fl 53) (henvA : env.rndA = fl 64) (args : FpMainArgs) (a b : List ℚ)
    (hq : args.bufferOrder < 64) (hr : 0 < args.initialRes) (hr53 : args.initialRes < 2 ^ 53) (tol : ℚ)
    (hN : Numerics (searchParams env args a b) tol)
    (h : ∃ wa wb, Quiet (searchParams env args a b) b args.initialRes tol wa wb) : Search env args a b (.error .valueError) := by
  obtain ⟨wa, wb, h⟩ := h
  exact C129_fails _ henv henvA (Nat.two_pow_pos _) (Nat.pow_lt_pow_right (by norm_num) hq) tol hN b _ (by exact_mod_cast hr)
    (fl_nat 53 _ hr53) wa wb h

/-- **C129** (the program): if no precompensation brings up a remarkable peak, fpfind ends without a result. -/
theorem C129_nothing (env : NumEnv) (henv : env.rnd = fl 53) (henvA : env.rndA = fl 64) (args : FpMainArgs) (a b : List ℚ)
    (hin : Input env args a b) (hq : args.bufferOrder < 64) (hr : 0 < args.initialRes) (hr53 : args.initialRes < 2 ^ 53) (tol : ℚ)
    (hN : ∀ d ∈ precs env args, Numerics (searchParams env args a (precompensated env d b)) tol)
    (h : ∀ d ∈ precs env args, ∃ wa wb,
      Quiet (searchParams env args a (precompensated env d b)) (precompensated env d b) args.initialRes tol wa wb) :
    Returns (fun fuel => fpMain env fuel args) (.error .valueError) := by
  refine C88_no_peak env args a b hin fun d hd => ?_
  exact search_quiet env henv henvA args a _ hq hr hr53 tol (hN d hd) (h d hd)

/-- **C129** (scan): if the searches before the right precompensation meet quiet recordings, and the recordings after it have enough
coincidences, fpfind prints the right correction. -/
theorem C129_scan (env : NumEnv) (henv : env.rnd = fl 53) (henvA : env.rndA = fl 64) (args : FpMainArgs)
    (hfull : args.precompFullscan = false) (hout : args.output = 0) (a b : List ℚ) (hin : Input env args a b) (hq : args.bufferOrder < 64)
    (hr : 0 < args.initialRes) (hr53 : args.initialRes < 2 ^ 53) (pre post : List ℚ) (d : ℚ)
    (hp : precs env args = pre ++ d :: post) (hd : |fl 53 (1 + d) - 1| ≤ 1 / 2 ^ 9) (tol : ℚ)
    (hN : ∀ d' ∈ pre ++ [d], Numerics (searchParams env args a (precompensated env d' b)) tol)
    (hpre : ∀ d' ∈ pre, ∃ wa wb,
      Quiet (searchParams env args a (precompensated env d' b)) (precompensated env d' b) args.initialRes tol wa wb)
    (φ τ φ' τ' B E0 E1 η : ℚ) (δ : Nat → ℚ) (w : Nat → Nat) (L : Nat)
    (hφ : 1 + φ = (1 + φ') * fl 53 (1 + d)) (hτ : τ = τ' * fl 53 (1 + d)) (P : TFParams)
    (hP : P = searchParams env args a (precompensated env d b)) (hth : 0 < P.threshold)
    (C : RunCore P (precompensated env d b) args.initialRes 0 φ' τ' B E0 E1 δ w L)
    (C' : InputClear P (precompensated env d b) args.initialRes 0 φ' τ' B η δ w L)
    (r : ℚ) (N K s : Nat) (hc : FirstCounted P (precompensated env d b) args.initialRes 0 tol r N K s) :
    ∃ line x n k, Returns (fun fuel => fpMain env fuel args) (.ok (some line)) ∧ Printed ⟨.inl x, some n⟩ line ∧ k ≤ L ∧
      ∀ ε R, ε = args.finalRes + δ k + 2 ^ args.bufferOrder * args.finalRes / 2 ^ 50 →
      R = (k + 1) * (B + (k + 1) * (101 * 10 ^ 6)) / 2 ^ 49 → ∀ t, 0 ≤ t → |targetClock φ' τ' t| ≤ B →
        |corrected n x (targetClock φ τ t) - t| ≤
          (ε + R + 2 * (ε + R) * (t / P.sep)) * (1 + 1 / 2 ^ 10) + 4 * R + (1 / 2 + 1 / 2 ^ 8) := by
  refine C127_printed env henv args hfull hout a b hin pre post d hp hd (fun d' hd' => ?_) φ τ φ' τ' B E0 E1 η δ w L hφ hτ P hP hth C C'
    tol r N K s (hP ▸ hN d (by simp)) hc
  exact search_quiet env henv henvA args a _ hq hr hr53 tol (hN d' (by simp [hd'])) (hpre d' hd')

/-- **C129** (few pairs): the threshold alone does not tell accidental pairs from coincidences.  A correlation of two pairs of events with
different delays, the second one in the background of the first one, has a significance of at least 39. -/
theorem C129_few_pairs (n i k : Nat) (hn : 8192 ≤ n) (hik : i < k) (hk : InBackground n i k) (res : ℚ) (hres : 0 < res) :
    ∃ stats v, getStatistics ((List.range n).map fun x => if x = i ∨ x = k then (1 : ℝ) else 0) (some res) none 0 = .ok stats ∧
      stats.significance = .ok v ∧ 39 ≤ v := by
  obtain ⟨hist, hh⟩ : ∃ hist, hist = (List.range n).map fun x => if x = i ∨ x = k then (1 : ℝ) else 0 := ⟨_, rfl⟩
  have hlen : hist.length = n := by rw [hh]; simp
  have hkn : k < n := by
    rcases hk with ⟨_, h⟩ | ⟨_, _, h⟩
    · omega
    · exact h
  have hget : ∀ x, x < n → hist[x]? = some (if x = i ∨ x = k then (1 : ℝ) else 0) := by
    intro x hx
    rw [hh, List.getElem?_map, List.getElem?_range hx]
    rfl
  have hone : (1 : ℝ) ∈ hist := List.mem_of_getElem? (by rw [hget i (by omega)]; simp)
  rw [← hh]
  obtain ⟨stats, v, h1, h2, h3⟩ := C127_histogram hist res hres 1 0 40 (1 / 45) 1
    (by
      intro y hy
      rw [hh] at hy
      obtain ⟨x, -, rfl⟩ := List.mem_map.mp hy
      split_ifs <;> norm_num)
    hone
    (by
      rw [hh, List.countP_map]
      have e : (List.range n).countP ((fun y : ℝ => decide (0 < y)) ∘ fun x => if x = i ∨ x = k then (1 : ℝ) else 0) =
          (List.range n).countP fun x => decide (x ∈ [i, k]) := by
        apply List.countP_congr
        intro x _
        simp only [Function.comp, decide_eq_true_eq, List.mem_cons, List.not_mem_nil, or_false]
        split_ifs with h <;> simp [h]
      rw [e, List.countP_eq_length_filter]
      have hsub : List.filter (fun x => decide (x ∈ [i, k])) (List.range n) ⊆ [i, k] := fun x hx => by
        simpa using (List.mem_filter.mp hx).2
      exact (List.subperm_of_subset (List.nodup_range.filter _) hsub).length_le)
    (by
      rw [hlen]
      have : 4096 ≤ n / 2 := by omega
      have : (4096 : ℝ) ≤ (n / 2 : Nat) := by exact_mod_cast this
      norm_num
      linarith)
    le_rfl one_pos (by norm_num) (by norm_num) (by norm_num) (by norm_num)
    (by
      intro p hp hf
      obtain rfl : p = i := by
        obtain ⟨y, hy, hm, hfirst⟩ := hp
        have hpn : p < n := by rw [← hlen]; exact (List.getElem?_eq_some_iff.mp hy).1
        rw [hget p hpn] at hy
        have hy1 : (1 : ℝ) ≤ y := hm 1 hone
        rw [← Option.some.inj hy] at hy1
        split_ifs at hy1 with h
        · rcases h with h | h
          · exact h
          · exfalso
            subst h
            have := hfirst i hik 1 (by rw [hget i (by omega)]; simp)
            rw [← Option.some.inj hy] at this
            simp at this
        · norm_num at hy1
      unfold FlatBackground at hf
      rw [hlen] at hf
      obtain ⟨z, hz, hzp, hzk⟩ : ∃ z, InBackground n p z ∧ z ≠ p ∧ z ≠ k := by
        by_cases h : k = p + 1
        · rcases Nat.lt_or_ge p 2 with h' | h'
          · exact ⟨p + 2, Or.inr ⟨by omega, by omega, by omega⟩, by omega, by omega⟩
          · exact ⟨p - 1, Or.inl ⟨by omega, by omega⟩, by omega, by omega⟩
        · exact ⟨p + 1, Or.inr ⟨by omega, by omega, by omega⟩, by omega, by omega⟩
      have hzn : z < n := by
        rcases hz with ⟨_, h⟩ | ⟨_, _, h⟩ <;> omega
      have := hf k z hk hz
      rw [hget k hkn, hget z hzn] at this
      simp [hzp, hzk] at this)
  exact ⟨stats, v, h1, h2, by norm_num at h3 ⊢; linarith⟩

/-- Instance: pairs in the bins 10 and 1000. -/
example : ∃ stats v, getStatistics ((List.range 8192).map fun x => if x = 10 ∨ x = 1000 then (1 : ℝ) else 0) (some 16) none 0 = .ok stats ∧
    stats.significance = .ok v ∧ 39 ≤ v :=
  C129_few_pairs 8192 10 1000 le_rfl (by norm_num) (Or.inr ⟨by norm_num, by norm_num, by norm_num⟩) 16 (by norm_num)

/-! ## Instance: pairs with many delays, none of which stands out -/

noncomputable def quietParams : TFParams :=
  { ats := [100, 70000], numBins := 8, target := 1, threshold := 6, sep := 64000, duration := 64000, endTime := 70000, rnd := fl 53,
    rndA := fl 64, xcorr := convXcorr, signif := roundedSignif }

/-- Four events in every second bin. -/
def quietTarget : List ℚ := [200, 400, 600, 800, 16200, 16400, 16600, 16800, 32200, 32400, 32600, 32800, 48200, 48400, 48600, 48800, 70000]

def quietWindow : List ℚ := [200, 400, 600, 800, 16200, 16400, 16600, 16800, 32200, 32400, 32600, 32800, 48200, 48400, 48600, 48800]

theorem quiet_pairs : ∀ p < 8, pairsInBlock [100] quietWindow 8 8000 0 (p : Nat) = if p % 2 = 0 then 4 else 0 := by decide +kernel

theorem quiet_unremarkable : Unremarkable [100] quietWindow 8 8000 0 (6 - 1 / 2000 - 1 / 2000) := by
  intro p hp hmax
  rw [pow_zero, Nat.div_one] at hp
  have h0 := hmax 0 (by norm_num)
  rw [quiet_pairs p hp, quiet_pairs 0 (by norm_num)] at h0
  have hbg : ∀ p < 8, backgroundPairs [100] quietWindow 8 8000 0 p =
      (backgroundBins 8 p).map fun i : Nat => if i % 2 = 0 then (4 : ℚ) else 0 := by decide +kernel
  rw [hbg p hp, quiet_pairs p hp]
  have hp4 : p = 0 ∨ p = 2 ∨ p = 4 ∨ p = 6 := by
    have : p % 2 = 0 := by
      by_contra hc
      simp [hc] at h0
    omega
  rcases hp4 with rfl | rfl | rfl | rfl
  · exact ⟨2, 2, by decide +kernel, by norm_num, by decide +kernel, by norm_num⟩
  · exact ⟨1, 3 / 2, by decide +kernel, by norm_num, by decide +kernel, by norm_num⟩
  · exact ⟨2, 2, by decide +kernel, by norm_num, by decide +kernel, by norm_num⟩
  · exact ⟨1, 3 / 2, by decide +kernel, by norm_num, by decide +kernel, by norm_num⟩

theorem quiet_run : Quiet quietParams quietTarget 8000 (1 / 2000) [100] quietWindow where
  reference := by
    show [100] = inWindowR (fl 64) 0 (acqDurationFl 8 8000 64000 70000) [100, 70000]
    decide +kernel
  target := by
    show quietWindow = inWindowR (fl 64) 0 (acqDurationFl 8 8000 64000 70000) quietTarget
    decide +kernel
  window := by
    show acqDurationFl 8 8000 64000 70000 ≤ 8000 * 2 ^ 58
    decide +kernel
  events := ⟨by simp, by simp [quietWindow]⟩
  blocks := by
    intro j _ hj
    obtain rfl : j = 0 := by
      rcases hj with hj | hj
      · exact hj
      · by_contra hc
        have : (2 : ℚ) ^ 1 ≤ 2 ^ j := pow_le_pow_right₀ (by norm_num) (by omega)
        linarith
    exact ⟨by norm_num [quietParams], accurate_unmerged (convXcorr_accurate _ _ (by decide +kernel) (by decide +kernel) 4 (by norm_num) 8000),
      quiet_unremarkable⟩

/-- Instance of C129_fails. -/
example : Returns (fun fuel => timeFreq quietParams fuel quietTarget 8000) (.error .valueError) :=
  C129_fails quietParams rfl rfl (by norm_num [quietParams]) (by norm_num [quietParams]) (1 / 2000)
    ⟨roundedSignif_spec, by norm_num, fun a b _ _ => convXcorr_nonneg a b⟩ quietTarget 8000 (by norm_num) (by decide +kernel) _ _ quiet_run

end Fp
