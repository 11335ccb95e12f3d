import Verif.Props.UtilsMore
import Verif.Props.FpThreshold
import Verif.Props.FpWindows
import Verif.Spec.Significance
import Verif.Spec.FpConverge

/-! # C126: which peaks are significant -/
namespace Fp
open Spec

/-- Heights between 0 and `M` with the mean `m` have a variance of at most `m (M - m)`. -/
theorem variance_le {l : List ℝ} {M m : ℝ} (h : ∀ y ∈ l, 0 ≤ y ∧ y ≤ M) (hm : m * l.length = l.sum) :
    (l.map fun y => (y - m) ^ 2).sum ≤ l.length * (m * (M - m)) := by
  have key : ∀ l : List ℝ, (∀ y ∈ l, 0 ≤ y ∧ y ≤ M) → (l.map fun y => (y - m) ^ 2).sum ≤ (M - 2 * m) * l.sum + l.length * m ^ 2 := by
    intro l
    induction l with
    | nil => intro _; simp
    | cons b l ih =>
      intro h
      have h1 := ih fun y hy => h y (by simp [hy])
      have h2 := h b (by simp)
      rw [List.map_cons, List.sum_cons, List.sum_cons, List.length_cons]
      push_cast
      nlinarith [mul_nonneg h2.1 (sub_nonneg.mpr h2.2)]
  refine (key l h).trans (le_of_eq ?_)
  rw [← hm]
  ring

/-- The worst mean for a peak of height `x` above heights up to `M`. -/
theorem worst_mean {x M m θ : ℝ} (hM : 0 < M) (hm : 0 ≤ m) (hmM : m ≤ M) (h : θ ^ 2 * M ^ 2 ≤ 4 * x * (x - M)) :
    θ ^ 2 * (m * (M - m)) ≤ (x - m) ^ 2 := by
  have h1 : θ ^ 2 * M ^ 2 * (m * (M - m)) ≤ 4 * x * (x - M) * (m * (M - m)) :=
    mul_le_mul_of_nonneg_right h (mul_nonneg hm (by linarith))
  have h2 : (x - m) ^ 2 * M ^ 2 - 4 * x * (x - M) * (m * (M - m)) = ((2 * x - M) * m - x * M) ^ 2 := by ring
  have h3 := sq_nonneg ((2 * x - M) * m - x * M)
  have h4 : (θ ^ 2 * (m * (M - m))) * M ^ 2 ≤ (x - m) ^ 2 * M ^ 2 := by linarith
  exact le_of_mul_le_mul_right h4 (by positivity)

theorem std_pos {l : List ℝ} {y z : ℝ} (hy : y ∈ l) (hz : z ∈ l) (hne : y ≠ z) : 0 < stdR l := by
  unfold stdR
  apply Real.sqrt_pos.mpr
  have hl : (0 : ℝ) < l.length := by exact_mod_cast List.length_pos_of_ne_nil (List.ne_nil_of_mem hy)
  refine div_pos ?_ hl
  have hnn : ∀ w ∈ l.map fun x => (x - meanR l) ^ 2, (0 : ℝ) ≤ w := by
    intro w hw
    obtain ⟨v, -, rfl⟩ := List.mem_map.mp hw
    positivity
  by_contra hcon
  have h0 : (l.map fun x => (x - meanR l) ^ 2).sum = 0 := le_antisymm (not_lt.mp hcon) (List.sum_nonneg hnn)
  have hz0 : ∀ w ∈ l, (w - meanR l) ^ 2 = 0 := by
    intro w hw
    have hmem : (w - meanR l) ^ 2 ∈ l.map fun x => (x - meanR l) ^ 2 := List.mem_map.mpr ⟨w, hw, rfl⟩
    have := List.single_le_sum hnn _ hmem
    exact le_antisymm (by rw [h0] at this; exact this) (by positivity)
  have e1 := pow_eq_zero_iff (two_ne_zero) |>.mp (hz0 y hy)
  have e2 := pow_eq_zero_iff (two_ne_zero) |>.mp (hz0 z hz)
  exact hne (by linarith)

/-- **C126** A peak of height `x` over a background of heights up to `M`, not all equal, with θ² M² ≤ 4 x (x - M) has a significance
of at least θ, up to the rounding to three decimals, which does not matter for a θ with three decimals.  For θ = 6 it is enough
that `x` is 3.55 times `M`. -/
theorem C126_clear (s : PeakStatistics ℝ) (x M θ y z : ℝ) (hx : x ∈ s.signal) (hmax : ∀ w ∈ s.signal, w ≤ x)
    (hb : ∀ w ∈ s.background, 0 ≤ w ∧ w ≤ M) (hy : y ∈ s.background) (hz : z ∈ s.background) (hyz : y ≠ z) (hM : M ≤ x) (hθ : 0 ≤ θ)
    (h : θ ^ 2 * M ^ 2 ≤ 4 * x * (x - M)) :
    ∃ v, s.significance = .ok v ∧ θ - 1 / 2000 ≤ v ∧ ((∃ k : ℤ, θ = k / 1000) → θ ≤ v) := by
  have hne := List.ne_nil_of_mem hy
  have hl : (0 : ℝ) < s.background.length := by exact_mod_cast List.length_pos_of_ne_nil hne
  obtain ⟨m, hm⟩ : ∃ m, m = meanR s.background := ⟨_, rfl⟩
  have hml : m * s.background.length = s.background.sum := by
    rw [hm]; unfold meanR; field_simp
  have hM0 : 0 < M := by
    rcases lt_or_ge 0 M with h' | h'
    · exact h'
    · have a1 := hb y hy
      have a2 := hb z hz
      exact absurd (show y = z by linarith) hyz
  have hsum : 0 ≤ s.background.sum ∧ s.background.sum ≤ s.background.length * M := by
    refine ⟨List.sum_nonneg fun w hw => (hb w hw).1, ?_⟩
    have := List.sum_le_card_nsmul s.background M fun w hw => (hb w hw).2
    rwa [nsmul_eq_mul] at this
  have hm0 : 0 ≤ m := by
    by_contra hc
    have := mul_neg_of_neg_of_pos (not_le.mp hc) hl
    linarith [hsum.1]
  have hmM : m ≤ M := by
    have : m * s.background.length ≤ M * s.background.length := by linarith [hsum.2]
    exact le_of_mul_le_mul_right this hl
  have hσ := std_pos hy hz hyz
  have hσ2 : stdR s.background ^ 2 * s.background.length = (s.background.map fun w => (w - m) ^ 2).sum := by
    have hnn : (0 : ℝ) ≤ (s.background.map fun w => (w - meanR s.background) ^ 2).sum / s.background.length := by
      apply div_nonneg _ hl.le
      apply List.sum_nonneg
      intro w hw
      obtain ⟨v, -, rfl⟩ := List.mem_map.mp hw
      positivity
    unfold stdR
    rw [Real.sq_sqrt hnn, div_mul_cancel₀ _ hl.ne', hm]
  obtain ⟨⟨k, h1, h2, -⟩, -⟩ := C72_values s x m (stdR s.background) hx hmax hne hml hσ hσ2
  generalize stdR s.background = σ at *
  have hvar : σ ^ 2 ≤ m * (M - m) := by
    have := variance_le hb hml
    rw [← hσ2, mul_comm] at this
    exact le_of_mul_le_mul_left this hl
  have hge : θ ≤ (x - m) / σ := by
    rw [le_div_iff₀ hσ]
    apply abs_le_of_sq_le_sq' _ (by linarith) |>.2
    calc (θ * σ) ^ 2 = θ ^ 2 * σ ^ 2 := by ring
      _ ≤ θ ^ 2 * (m * (M - m)) := mul_le_mul_of_nonneg_left hvar (by positivity)
      _ ≤ (x - m) ^ 2 := worst_mean hM0 hm0 hmM h
  have h2' := (abs_le.mp h2).1
  refine ⟨_, h1, by linarith, ?_⟩
  rintro ⟨k0, rfl⟩
  have : (k0 : ℝ) - 1 < k := by linarith
  have hk : k0 ≤ k := by
    have : (k0 : ℝ) < k + 1 := by linarith
    have : k0 < k + 1 := by exact_mod_cast this
    omega
  have : (k0 : ℝ) ≤ k := by exact_mod_cast hk
  linarith

/-- The factor cannot be smaller: a peak of 7/2 over heights of 0 and 1 may have a significance below 6. -/
theorem C126_sharp : ∃ s : PeakStatistics ℝ, s.signal = [7 / 2] ∧ (∀ w ∈ s.background, w = 0 ∨ w = 1) ∧
    ∃ v, s.significance = .ok v ∧ v < 6 := by
  refine ⟨⟨[7 / 2], [0, 0, 0, 0, 0, 1, 1, 1, 1, 1, 1, 1]⟩, rfl, by simp, ?_⟩
  have hs : Real.sqrt 35 ^ 2 = 35 := Real.sq_sqrt (by norm_num)
  have hs0 : 0 < Real.sqrt 35 := Real.sqrt_pos.mpr (by norm_num)
  obtain ⟨⟨k, h1, h2, -⟩, -⟩ := C72_values ⟨[7 / 2], [0, 0, 0, 0, 0, 1, 1, 1, 1, 1, 1, 1]⟩ (7 / 2) (7 / 12) (Real.sqrt 35 / 12) (by simp) (by simp)
    (by simp) (by norm_num) (by positivity) (by
      simp only [List.map_cons, List.map_nil, List.sum_cons, List.sum_nil, List.length_cons, List.length_nil]
      rw [div_pow, hs]
      norm_num)
  refine ⟨_, h1, ?_⟩
  have e : ((7 / 2 - 7 / 12 : ℝ) / (Real.sqrt 35 / 12)) = Real.sqrt 35 := by
    field_simp
    rw [hs]
    norm_num
  rw [e] at h2
  have h3 := (abs_le.mp h2).2
  have h4 : Real.sqrt 35 < 593 / 100 := by
    rw [Real.sqrt_lt' (by norm_num)]
    norm_num
  linarith

/-- **C126**: over a flat background the significance is 0, however high the peak is. -/
theorem C126_flat (s : PeakStatistics ℝ) (c : ℝ) (hb : s.background ≠ []) (h : ∀ w ∈ s.background, w = c) :
    s.significance = .ok 0 := by
  have hr : s.background = List.replicate s.background.length c := List.eq_replicate_iff.mpr ⟨rfl, h⟩
  have hl : (0 : ℝ) < s.background.length := by exact_mod_cast List.length_pos_of_ne_nil hb
  have hm : meanR s.background = c := by
    unfold meanR
    rw [div_eq_iff hl.ne']
    conv_lhs => rw [hr]
    simp [mul_comm]
  have hs : stdR s.background = 0 := by
    unfold stdR
    rw [hm]
    have : (s.background.map fun x => (x - c) ^ 2).sum = 0 := by
      apply List.sum_eq_zero
      intro w hw
      obtain ⟨v, hv, rfl⟩ := List.mem_map.mp hw
      rw [h v hv]
      ring
    rw [this, zero_div, Real.sqrt_zero]
  unfold PeakStatistics.significance
  rw [if_neg hb, if_pos hs]

/-- **C126** A high significance does not mean that the peak is the only one: with one peak of the same height in a background of
`n + 1` bins that is empty otherwise, the significance is at least θ if θ² ≤ n. -/
theorem C126_second_peak (x : ℝ) (hx : 0 < x) (n : ℕ) (θ : ℝ) (hn : θ ^ 2 ≤ n) (hn0 : 0 < n) :
    ∃ v, (⟨[x], x :: List.replicate n 0⟩ : PeakStatistics ℝ).significance = .ok v ∧ θ - 1 / 2000 ≤ v := by
  have hn' : (0 : ℝ) < n := by exact_mod_cast hn0
  have hs : Real.sqrt n ^ 2 = n := Real.sq_sqrt hn'.le
  have hs0 : 0 < Real.sqrt n := Real.sqrt_pos.mpr hn'
  obtain ⟨⟨k, h1, h2, -⟩, -⟩ := C72_values ⟨[x], x :: List.replicate n 0⟩ x (x / (n + 1)) (x * Real.sqrt n / (n + 1)) (by simp) (by simp)
    (by simp) (by
      simp
      field_simp) (by positivity) (by
      simp only [List.map_cons, List.map_replicate, List.sum_cons, List.sum_replicate, List.length_cons, List.length_replicate,
        nsmul_eq_mul]
      push_cast
      rw [div_pow, mul_pow, hs]
      field_simp
      ring)
  refine ⟨_, h1, ?_⟩
  have e : (x - x / (n + 1)) / (x * Real.sqrt n / (n + 1)) = Real.sqrt n := by
    rw [div_eq_iff (by positivity)]
    field_simp
    rw [hs]
    ring
  rw [e] at h2
  have h3 := (abs_le.mp h2).1
  have h4 : θ ≤ Real.sqrt n := Real.le_sqrt_of_sq_le hn
  linarith

theorem mem_take_drop {α : Type} (l : List α) (i j : Nat) (w : α) : w ∈ (l.take j).drop i ↔ ∃ k, i ≤ k ∧ k < j ∧ l[k]? = some w := by
  rw [List.mem_iff_getElem?]
  constructor
  · rintro ⟨k, hk⟩
    rw [List.getElem?_drop, List.getElem?_take] at hk
    split_ifs at hk with h
    exact ⟨i + k, by omega, h, hk⟩
  · rintro ⟨k, h1, h2, h3⟩
    refine ⟨k - i, ?_⟩
    rw [List.getElem?_drop, Nat.add_sub_cancel' h1, List.getElem?_take_of_lt h2, h3]

/-- Without a window the signal is the highest bin and the background is half of the bins on each side. -/
theorem peak_parts {α : Type} [LinearOrder α] (hist : List α) (hne : hist ≠ []) (r : ℚ) (hr : 0 < r) :
    ∃ p x stats, FirstMax hist p ∧ hist[p]? = some x ∧ getStatistics hist (some r) none 0 = .ok stats ∧ stats.signal = [x] ∧
      (∀ w, w ∈ stats.background ↔ ∃ i, InBackground hist.length p i ∧ hist[i]? = some w) ∧
      hist.length / 2 ≤ stats.background.length ∧ List.Sublist (x :: stats.background) (x :: hist.take p ++ hist.drop (p + 1)) := by
  obtain ⟨p, stats, hp, hs, lo, hi, blo, bhi, h1, h2, h3, h4, -, -, h5, h6, h7, h8, h9, h10, hsig, hback⟩ :=
    C31_windows_partial hist hne r 0 hr le_rfl
  have hlo : lo = p := by
    have : (p - lo : ℚ) < 1 := by
      by_contra hc
      have := mul_le_mul_of_nonneg_right (not_lt.mp hc) hr.le
      linarith
    have : (p : ℚ) < lo + 1 := by linarith
    have : p < lo + 1 := by exact_mod_cast this
    omega
  have hhi : hi = p := by
    have : (hi - p : ℚ) < 1 := by
      by_contra hc
      have := mul_le_mul_of_nonneg_right (not_lt.mp hc) hr.le
      linarith
    have : (hi : ℚ) < p + 1 := by linarith
    have : hi < p + 1 := by exact_mod_cast this
    omega
  subst hlo hhi
  obtain ⟨x, hx, hx2⟩ := id hp
  have hlt : hi < hist.length := (List.getElem?_eq_some_iff.mp hx).1
  refine ⟨hi, x, stats, hp, hx, hs, ?_, ?_, ?_, ?_⟩
  · rw [hsig, List.drop_take]
    have : hi + 1 - hi = 1 := by omega
    rw [this, List.drop_eq_getElem_cons hlt]
    simp [(List.getElem?_eq_some_iff.mp hx).2]
  · intro w
    rw [hback, List.mem_append, mem_take_drop, mem_take_drop]
    constructor
    · rintro (⟨k, a1, a2, a3⟩ | ⟨k, a1, a2, a3⟩)
      · exact ⟨k, Or.inl ⟨by omega, a2⟩, a3⟩
      · exact ⟨k, Or.inr ⟨by omega, by omega, (List.getElem?_eq_some_iff.mp a3).1⟩, a3⟩
    · rintro ⟨k, (⟨a1, a2⟩ | ⟨a1, a2, -⟩), a3⟩
      · exact Or.inl ⟨k, by omega, a2, a3⟩
      · exact Or.inr ⟨k, by omega, by omega, a3⟩
  · rw [hback, List.length_append, List.length_drop, List.length_drop, List.length_take, List.length_take]
    omega
  · rw [hback, List.cons_append, List.drop_take]
    refine List.Sublist.cons_cons _ (List.Sublist.append ?_ ?_)
    · rw [← List.drop_take]
      exact List.drop_sublist _ _
    · rw [List.drop_take]
      exact List.take_sublist _ _

theorem peak_statistics {α : Type} [LinearOrder α] (hist : List α) (hne : hist ≠ []) (r : ℚ) (hr : 0 < r) :
    ∃ p x stats, FirstMax hist p ∧ hist[p]? = some x ∧ getStatistics hist (some r) none 0 = .ok stats ∧ stats.signal = [x] ∧
      ∀ w, w ∈ stats.background ↔ ∃ i, InBackground hist.length p i ∧ hist[i]? = some w := by
  obtain ⟨p, x, stats, h1, h2, h3, h4, h5, -⟩ := peak_parts hist hne r hr
  exact ⟨p, x, stats, h1, h2, h3, h4, h5⟩

theorem firstMax_of_lt {l : List ℝ} {p : Nat} {x : ℝ} (hx : l[p]? = some x) (h : ∀ i y, i ≠ p → l[i]? = some y → y < x) {q : Nat}
    (hq : FirstMax l q) : q = p := by
  obtain ⟨y, hy, hmax, -⟩ := hq
  by_contra hne
  have h1 := h q y hne hy
  have h2 := hmax x (List.mem_of_getElem? hx)
  linarith

/-- **C126** for histograms: if bin `p` has the height `x`, all others have heights from 0 to `M` < `x`, the background is not flat
and θ² M² ≤ 4 x (x - M), then the significance of the histogram is at least θ - 1/2000. -/
theorem C126_histogram (hist : List ℝ) (r : ℚ) (hr : 0 < r) (p : Nat) (x M θ : ℝ) (hx : hist[p]? = some x)
    (hM : ∀ i y, i ≠ p → hist[i]? = some y → 0 ≤ y ∧ y ≤ M) (hxM : M < x) (hflat : ¬ FlatBackground hist p) (hθ : 0 ≤ θ)
    (h : θ ^ 2 * M ^ 2 ≤ 4 * x * (x - M)) :
    ∃ stats v, getStatistics hist (some r) none 0 = .ok stats ∧ stats.signal = [x] ∧ stats.significance = .ok v ∧
      θ - 1 / 2000 ≤ v ∧ ((∃ k : ℤ, θ = k / 1000) → θ ≤ v) := by
  have hne : hist ≠ [] := List.ne_nil_of_mem (List.mem_of_getElem? hx)
  obtain ⟨q, x', stats, hq, hx', hs, hsig, hback⟩ := peak_statistics hist hne r hr
  obtain rfl := firstMax_of_lt hx (fun i y hi hy => lt_of_le_of_lt (hM i y hi hy).2 hxM) hq
  obtain rfl : x = x' := by rw [hx] at hx'; exact Option.some.inj hx'
  have hin : ∀ i, InBackground hist.length q i → ∃ y, hist[i]? = some y ∧ i ≠ q := by
    have hlt : q < hist.length := (List.getElem?_eq_some_iff.mp hx).1
    rintro i (⟨a, b⟩ | ⟨a, b, c⟩)
    · exact ⟨_, List.getElem?_eq_getElem (by omega), by omega⟩
    · exact ⟨_, List.getElem?_eq_getElem c, by omega⟩
  unfold FlatBackground at hflat
  push Not at hflat
  obtain ⟨i, j, hi, hj, hij⟩ := hflat
  obtain ⟨y, hy, -⟩ := hin i hi
  obtain ⟨z, hz, -⟩ := hin j hj
  obtain ⟨v, h1, h2, h3⟩ := C126_clear stats x M θ y z (by simp [hsig]) (by simp [hsig])
    (fun w hw => by
      obtain ⟨k, hk, hkw⟩ := (hback w).mp hw
      obtain ⟨_, -, hkq⟩ := hin k hk
      exact hM k w hkq hkw)
    ((hback y).mpr ⟨i, hi, hy⟩) ((hback z).mpr ⟨j, hj, hz⟩) (by rintro rfl; exact hij (hy.trans hz.symm)) hxM.le hθ h
  exact ⟨stats, v, hs, hsig, h1, h2, h3⟩

/-- **C126** for the search: a bin of the merged correlation that is clearly higher than all others is accepted, unless the
background is flat. -/
theorem C126_accepted (P : TFParams) (tol : ℚ) (hP : SignificanceOf P.signif tol) (htol : 0 ≤ tol) (hth : 0 < P.threshold) (ys : List ℚ) (res : ℚ) (hr : 0 < res) (j p : Nat) (x M : ℚ)
    (hx : (merged ys j)[p]? = some x) (hM : ∀ i y, i ≠ p → (merged ys j)[i]? = some y → 0 ≤ y ∧ y ≤ M) (hxM : M < x)
    (h : (P.threshold + tol + 1 / 2000) ^ 2 * M ^ 2 ≤ 4 * x * (x - M)) (hflat : ¬ FlatBackground (merged ys j) p) :
    Accepted P ys res j := by
  obtain ⟨stats, v, h1, -, h3, h4, -⟩ := C126_histogram ((merged ys j).map fun q : ℚ => (q : ℝ)) (2 ^ j * res) (by positivity) p x M
    ((P.threshold + tol + 1 / 2000 : ℚ) : ℝ) (by rw [List.getElem?_map, hx]; rfl)
    (by
      intro i y hi hy
      rw [List.getElem?_map, Option.map_eq_some_iff] at hy
      obtain ⟨y', hy', rfl⟩ := hy
      have := hM i y' hi hy'
      exact ⟨by exact_mod_cast this.1, by exact_mod_cast this.2⟩)
    (by exact_mod_cast hxM)
    (by
      intro hf
      apply hflat
      intro i k hi hk
      have := hf i k (by rwa [List.length_map]) (by rwa [List.length_map])
      rw [List.getElem?_map, List.getElem?_map] at this
      exact Option.map_injective Rat.cast_injective this)
    (by exact_mod_cast (by positivity : 0 ≤ P.threshold + tol + 1 / 2000)) (by exact_mod_cast h)
  obtain ⟨s, hs, hsv⟩ := hP (merged ys j) (2 ^ j * res) stats v h1 h3
  have hge : P.threshold ≤ s := by
    have a := (abs_le.mp hsv).1
    push_cast at h4
    have : (P.threshold : ℝ) ≤ s := by linarith
    exact_mod_cast this
  exact ⟨s, hs, by linarith [hge, hth] |> fun h : 0 < s => h.ne', hge⟩

theorem firstMax_eq {α : Type} [LinearOrder α] {l : List α} {p q : Nat} (hp : FirstMax l p) (hq : FirstMax l q) : p = q := by
  obtain ⟨x, hx, hx1, hx2⟩ := hp
  obtain ⟨y, hy, hy1, hy2⟩ := hq
  have hxy : x = y := le_antisymm (hy1 x (List.mem_of_getElem? hx)) (hx1 y (List.mem_of_getElem? hy))
  subst hxy
  rcases lt_trichotomy p q with h | h | h
  · exact absurd (hy2 p h x hx) (lt_irrefl _)
  · exact h
  · exact absurd (hx2 q h x hy) (lt_irrefl _)

theorem firstMax_cast {l : List ℚ} {p : Nat} (h : FirstMax l p) : FirstMax (l.map fun q : ℚ => (q : ℝ)) p := by
  obtain ⟨x, hx, h1, h2⟩ := h
  refine ⟨x, by rw [List.getElem?_map, hx]; rfl, ?_, ?_⟩
  · intro y hy
    obtain ⟨z, hz, rfl⟩ := List.mem_map.mp hy
    exact_mod_cast h1 z hz
  · intro i hi y hy
    rw [List.getElem?_map, Option.map_eq_some_iff] at hy
    obtain ⟨z, hz, rfl⟩ := hy
    exact_mod_cast h2 i hi z hz

/-- **C126**: over a flat background no peak is accepted, however high it is. -/
theorem C126_flat_refused (P : TFParams) (tol : ℚ) (hP : SignificanceOf P.signif tol) (hth : tol < P.threshold) (ys : List ℚ)
    (res : ℚ) (hr : 0 < res) (j p : Nat) (hp : FirstMax (merged ys j) p) (h2 : 2 ≤ (merged ys j).length)
    (hflat : FlatBackground (merged ys j) p) : ¬ Accepted P ys res j := by
  rintro ⟨s, hs, -, hge⟩
  obtain ⟨zs, hzs⟩ : ∃ zs, zs = (merged ys j).map fun q : ℚ => (q : ℝ) := ⟨_, rfl⟩
  have hlen : zs.length = (merged ys j).length := by rw [hzs, List.length_map]
  have hpz := firstMax_cast hp
  rw [← hzs] at hpz
  have hplt : p < zs.length := by
    obtain ⟨x, hx, -⟩ := hpz
    exact (List.getElem?_eq_some_iff.mp hx).1
  obtain ⟨q, x, stats, hq, hx, hst, hsig, hback⟩ := peak_statistics zs (by rintro rfl; simp at hplt) (2 ^ j * res) (by positivity)
  obtain rfl := firstMax_eq hpz hq
  obtain ⟨i, hi⟩ : ∃ i, InBackground zs.length p i := by
    rcases Nat.eq_zero_or_pos p with h0 | h0
    · exact ⟨1, Or.inr ⟨by omega, by omega, by omega⟩⟩
    · exact ⟨p - 1, Or.inl ⟨by omega, by omega⟩⟩
  have hilt : i < zs.length := by
    rcases hi with ⟨-, a⟩ | ⟨-, -, a⟩ <;> omega
  obtain ⟨c, hc⟩ : ∃ c, zs[i]? = some c := ⟨_, List.getElem?_eq_getElem hilt⟩
  have hv := C126_flat stats c (List.ne_nil_of_mem ((hback c).mpr ⟨i, hi, hc⟩)) (by
    intro w hw
    obtain ⟨k, hk, hkw⟩ := (hback w).mp hw
    have := hflat k i (by rwa [← hlen]) (by rwa [← hlen])
    have h3 : zs[k]? = zs[i]? := by rw [hzs, List.getElem?_map, List.getElem?_map, this]
    rw [hkw, hc] at h3
    exact Option.some.inj h3)
  obtain ⟨s', hs', hsv⟩ := hP (merged ys j) (2 ^ j * res) stats 0 (by rw [← hzs]; exact hst) hv
  obtain rfl : s = s' := by rw [hs] at hs'; exact Except.ok.inj hs'
  have a := (abs_le.mp hsv).2
  have : (s : ℝ) ≤ tol := by linarith
  have : s ≤ tol := by exact_mod_cast this
  linarith

/-- **C126** in numbers of pairs of events: one block of bins has `N` pairs of events, every other at most `K`. -/
theorem C126_pairs (P : TFParams) (tol : ℚ) (hP : SignificanceOf P.signif tol) (htol : 0 ≤ tol) (hth : 0 < P.threshold)
    (a b : List ℚ) (res : ℚ) (hr : 0 < res) (j p N K : Nat) (hp : p < P.numBins / 2 ^ j)
    (hacc : MergedAccurate P.xcorr a b P.numBins res j)
    (hpos : ∀ y ∈ P.xcorr (histogram a P.numBins res) (histogram b P.numBins res), 0 ≤ y)
    (hN : pairsInBlock a b P.numBins res j p = N)
    (hK : ∀ i : Nat, i < P.numBins / 2 ^ j → i ≠ p → pairsInBlock a b P.numBins res j i ≤ K) (hNK : K + 1 ≤ N)
    (h : (P.threshold + tol + 1 / 2000) ^ 2 * (K + 1 / 2 : ℚ) ^ 2 ≤ 4 * (N - 1 / 2 : ℚ) * (N - K - 1))
    (hflat : ¬ FlatBackground (merged (P.xcorr (histogram a P.numBins res) (histogram b P.numBins res)) j) p) :
    Accepted P (P.xcorr (histogram a P.numBins res) (histogram b P.numBins res)) res j := by
  obtain ⟨hlen, hacc⟩ := hacc
  generalize P.xcorr (histogram a P.numBins res) (histogram b P.numBins res) = ys at *
  have hget : ∀ i y, (merged ys j)[i]? = some y → i < P.numBins / 2 ^ j ∧ y = blockSum ys j i := by
    intro i y hy
    unfold merged at hy
    rw [List.getElem?_map, Option.map_eq_some_iff] at hy
    obtain ⟨k, hk, rfl⟩ := hy
    rw [hlen] at hk
    obtain ⟨hk1, hk2⟩ := List.getElem?_eq_some_iff.mp hk
    rw [List.getElem_range] at hk2
    subst hk2
    exact ⟨by simpa using hk1, rfl⟩
  have hx : (merged ys j)[p]? = some (blockSum ys j p) := by
    unfold merged
    rw [List.getElem?_map, hlen, List.getElem?_range hp]
    rfl
  have hxN := (abs_lt.mp (hacc p hp)).1
  rw [hN] at hxN
  have hNK' : (K : ℚ) + 1 ≤ N := by exact_mod_cast hNK
  have hK0 : (0 : ℚ) ≤ K := by positivity
  refine C126_accepted P tol hP htol hth ys res hr j p (blockSum ys j p) (K + 1 / 2) hx ?_ (by linarith) (h.trans ?_) hflat
  · intro i y hi hy
    obtain ⟨h1, rfl⟩ := hget i y hy
    refine ⟨?_, ?_⟩
    · unfold blockSum
      exact List.sum_nonneg fun w hw => hpos w (List.mem_of_mem_drop (List.mem_of_mem_take hw))
    · have h2 := (abs_lt.mp (hacc i h1)).2
      have h3 : ((pairsInBlock a b P.numBins res j i : Nat) : ℚ) ≤ K := by exact_mod_cast hK i h1 hi
      linarith
  · have a1 : (0 : ℚ) ≤ N - K - 1 := by linarith
    have a2 : (N : ℚ) - K - 1 ≤ blockSum ys j p - (K + 1 / 2) := by linarith
    have a3 : 4 * (N - 1 / 2 : ℚ) ≤ 4 * blockSum ys j p := by linarith
    exact mul_le_mul a3 a2 a1 (by linarith)

/-- For the threshold 6 it is enough that there are 3.6 times as many pairs as in any other block, and three more. -/
theorem C126_pairs_six (tol : ℚ) (htol : 0 ≤ tol) (htol' : tol ≤ 1 / 2000) (N K : Nat) (h : 18 * K + 15 ≤ 5 * N) :
    ((6 : ℚ) + tol + 1 / 2000) ^ 2 * (K + 1 / 2 : ℚ) ^ 2 ≤ 4 * (N - 1 / 2 : ℚ) * (N - K - 1) := by
  have h' : (18 : ℚ) * K + 15 ≤ 5 * N := by exact_mod_cast h
  have hK0 : (0 : ℚ) ≤ K := by positivity
  have a1 : ((6 : ℚ) + tol + 1 / 2000) ^ 2 ≤ (6001 / 1000) ^ 2 := by
    apply pow_le_pow_left₀ (by linarith)
    linarith
  have a2 : (18 / 5 * K + 5 / 2 : ℚ) ≤ N - 1 / 2 := by linarith
  have a3 : (13 / 5 * K + 2 : ℚ) ≤ N - K - 1 := by linarith
  calc ((6 : ℚ) + tol + 1 / 2000) ^ 2 * (K + 1 / 2 : ℚ) ^ 2 ≤ (6001 / 1000) ^ 2 * (K + 1 / 2 : ℚ) ^ 2 :=
        mul_le_mul_of_nonneg_right a1 (by positivity)
    _ ≤ 4 * (18 / 5 * K + 5 / 2 : ℚ) * (13 / 5 * K + 2) := by nlinarith
    _ ≤ 4 * (N - 1 / 2 : ℚ) * (N - K - 1) := by
        apply mul_le_mul (by linarith) a3 (by positivity) (by linarith)

/-- The significance, rounded to three decimals. -/
noncomputable def roundedSignif (ys : List ℚ) (r : ℚ) : Except PyErr ℚ :=
  match getStatistics (ys.map fun q : ℚ => (q : ℝ)) (some r) none 0 with
  | .ok stats =>
    match stats.significance with
    | .ok v => .ok ((rneR (v * 1000) : ℚ) / 1000)
    | .error e => .error e
  | .error e => .error e

theorem roundedSignif_spec : SignificanceOf roundedSignif (1 / 2000) := by
  intro ys r stats v h1 h2
  refine ⟨(rneR (v * 1000) : ℚ) / 1000, ?_, ?_⟩
  · unfold roundedSignif
    rw [h1]
    dsimp only
    rw [h2]
  · have := abs_le.mp (rneR_nearest (v * 1000)).1
    push_cast
    rw [abs_le]
    constructor <;> linarith [this.1, this.2]

/-- 64 bins of 1 ns with the default threshold. -/
noncomputable def clearParams : TFParams :=
  { ats := [], numBins := 64, target := 1, threshold := 6, sep := 1000000, duration := 64,
    endTime := 1000010, rnd := fl 53, rndA := fl 64, xcorr := circularXcorr, signif := roundedSignif }

/-- Seven events at different distances, and the same 5 ns later. -/
def clearA : List ℚ := [0, 1, 4, 10, 18, 23, 25]

def clearB : List ℚ := [5, 6, 9, 15, 23, 28, 30]

/-- Instance of C126: seven pairs of events in the bin of the true delay of 5 ns and at most one in any other are significant. -/
example : Accepted clearParams (circularXcorr (histogram clearA 64 1) (histogram clearB 64 1)) 1 0 := by
  have hys : circularXcorr (histogram clearA 64 1) (histogram clearB 64 1) =
      (List.range 64).map fun k : Nat => ((pairsAt clearA clearB 64 1 k : Nat) : ℚ) := by decide +kernel
  have hb : ∀ k < 64, blockSum (circularXcorr (histogram clearA 64 1) (histogram clearB 64 1)) 0 k = (pairsInBlock clearA clearB 64 1 0 k : Nat) := by
    rw [hys]
    decide +kernel
  refine C126_pairs clearParams (1 / 2000) roundedSignif_spec (by norm_num) (by show (0 : ℚ) < 6; norm_num) clearA clearB 1 (by norm_num) 0 5 7 1
    (by show 5 < 64 / 2 ^ 0; norm_num) ⟨by show (circularXcorr (histogram clearA 64 1) (histogram clearB 64 1)).length = 64; rw [hys]; simp, ?_⟩ ?_
    (by show pairsInBlock clearA clearB 64 1 0 5 = 7; decide +kernel) ?_ (by norm_num)
    (C126_pairs_six (1 / 2000) (by norm_num) le_rfl 7 1 (by norm_num)) ?_
  · intro k hk
    have : k < 64 := by
      have h' : k < 64 / 2 ^ 0 := hk
      simpa using h'
    show |blockSum (circularXcorr (histogram clearA 64 1) (histogram clearB 64 1)) 0 k - (pairsInBlock clearA clearB 64 1 0 k : Nat)| < 1 / 2
    rw [hb k this]
    norm_num
  · intro y hy
    have hy' : y ∈ circularXcorr (histogram clearA 64 1) (histogram clearB 64 1) := hy
    rw [hys] at hy'
    obtain ⟨k, -, rfl⟩ := List.mem_map.mp hy'
    positivity
  · have : ∀ i : Nat, i < 64 → i ≠ 5 → pairsInBlock clearA clearB 64 1 0 i ≤ 1 := by decide +kernel
    intro i hi
    have h' : i < 64 / 2 ^ 0 := hi
    exact this i (by simpa using h')
  · intro hf
    have h1 := hf 6 16 (Or.inr ⟨by norm_num, ?_, ?_⟩) (Or.inr ⟨by norm_num, ?_, ?_⟩)
    · revert h1
      show (merged (circularXcorr (histogram clearA 64 1) (histogram clearB 64 1)) 0)[6]? ≠ (merged (circularXcorr (histogram clearA 64 1) (histogram clearB 64 1)) 0)[16]?
      rw [hys]
      decide +kernel
    all_goals
      have : (merged (clearParams.xcorr (histogram clearA clearParams.numBins 1) (histogram clearB clearParams.numBins 1)) 0).length = 64 := by
        show (merged (circularXcorr (histogram clearA 64 1) (histogram clearB 64 1)) 0).length = 64
        rw [hys]
        decide +kernel
      rw [this]
      norm_num

/-- Instance of C126_flat_refused: a thousand pairs in one of four bins and none elsewhere. -/
example : ¬ Accepted clearParams [0, 1000, 0, 0] 1 0 := by
  have hm : merged [0, 1000, 0, 0] 0 = [0, 1000, 0, 0] := by decide +kernel
  refine C126_flat_refused clearParams (1 / 2000) roundedSignif_spec (by show (1 / 2000 : ℚ) < 6; norm_num) [0, 1000, 0, 0] 1 (by norm_num)
    0 1 ?_ (by rw [hm]; simp) ?_
  · rw [hm]
    refine ⟨1000, rfl, by simp, ?_⟩
    intro i hi y hy
    obtain rfl : i = 0 := by omega
    have : y = 0 := by simpa using hy.symm
    rw [this]
    norm_num
  · rw [hm]
    have : ∀ i, InBackground 4 1 i → ([0, 1000, 0, 0] : List ℚ)[i]? = some 0 := by
      rintro i (⟨-, a⟩ | ⟨a, b, -⟩)
      · obtain rfl : i = 0 := by omega
        rfl
      · obtain rfl : i = 2 := by omega
        rfl
    intro i j hi hj
    rw [this i hi, this j hj]

/-- Instance of C126_second_peak: two equal peaks in 39 bins, significance 6. -/
example : ∃ v, (⟨[5], 5 :: List.replicate 37 0⟩ : PeakStatistics ℝ).significance = .ok v ∧ 6 ≤ v := by
  obtain ⟨v, h1, h2⟩ := C126_second_peak 5 (by norm_num) 37 (6001 / 1000) (by norm_num) (by norm_num)
  exact ⟨v, h1, by linarith⟩

end Fp
