import Verif.Lemmas.UtilsMore

/-! # C71, C72, C73: largest peaks, further statistics, `histogram_fft` -/
namespace Fp
open Spec

/-! ## C71 -/

/-- **C71**, for two peaks or more: the `k` largest values, largest first, each with its two delays. -/
theorem C71_topk_partial {α : Type} [LinearOrder α] (S : Sorter α) (hS : SorterOk S) (hist : List α) (k : Nat) (h2 : 2 ≤ k)
    (hk : k ≤ hist.length) (res : ℚ) (hr : 0 < res) :
    ∃ ps out, Largest hist k ps ∧ getTopKDelaysFft S hist (uniformBins hist.length res) k = .ok out ∧ out.length = k ∧
      ∀ i p : Nat, ps[i]? = some p → ∃ u d1 d2, hist[p]? = some u ∧ out[i]? = some (some u, d1, d2) ∧
        DelaysOf hist.length res p d1 d2 := by
  obtain ⟨hp1, hp2⟩ := hS.1 hist (hist.length - k) (by omega)
  generalize hidx : S.part hist (hist.length - k) = idx at hp1 hp2
  have hil : idx.length = hist.length := by simpa using hp1.length_eq
  set xs := idx.drop (hist.length - k) with hxs
  have hxl : xs.length = k := by rw [hxs, List.length_drop, hil]; omega
  have hxm : ∀ x ∈ xs, x < hist.length := fun x hx => List.mem_range.mp (hp1.mem_iff.mp (List.mem_of_mem_drop hx))
  have hyl : (pick hist xs).length = k := by rw [pick_length _ _ hxm, hxl]
  obtain ⟨hs1, hs2⟩ := hS.2 (pick hist xs)
  generalize hsrt : S.sort (pick hist xs) = srt at hs1 hs2
  rw [hyl] at hs1
  have hom : ∀ i ∈ srt.reverse, i < k := fun i hi => List.mem_range.mp (hs1.mem_iff.mp (List.mem_reverse.mp hi))
  have hom1 : ∀ i ∈ srt.reverse, i < xs.length := by rw [hxl]; exact hom
  have hom2 : ∀ i ∈ srt.reverse, i < (pick hist xs).length := by rw [hyl]; exact hom
  have hol : srt.reverse.length = k := by rw [List.length_reverse]; simpa using hs1.length_eq
  have hperm : (pick xs srt.reverse).Perm xs := by
    have h := ((List.reverse_perm srt).trans hs1).filterMap (xs[·]?)
    have e : (List.range k).filterMap (xs[·]?) = xs := by rw [← hxl]; exact pick_range xs
    rw [e] at h
    exact h
  refine ⟨pick xs srt.reverse, (List.zip (pick xs srt.reverse) (pick (pick hist xs) srt.reverse)).map
    (fun xy => (some xy.2, candidates hist.length xy.1 res)), ⟨?_, ?_, ?_, ?_, ?_⟩, ?_, ?_, ?_⟩
  · rw [pick_length _ _ hom1, hol]
  · rw [hperm.nodup_iff]
    exact List.Sublist.nodup (List.drop_sublist _ _) (hp1.nodup_iff.mpr List.nodup_range)
  · intro p hp
    exact hxm p (hperm.mem_iff.mp hp)
  · unfold pick
    rw [List.pairwise_filterMap, List.pairwise_reverse]
    refine hs2.imp ?_
    intro a b hab p hp q hq u v hu hv
    apply hab
    · rw [pick_get _ _ hxm, hq]; exact hv
    · rw [pick_get _ _ hxm, hp]; exact hu
  · intro p hp q hq hn u v hu hv
    have hp' := hperm.mem_iff.mp hp
    obtain ⟨b, hb⟩ := List.mem_iff_getElem?.mp hp'
    rw [hxs, List.getElem?_drop] at hb
    have hq' : q ∈ idx := hp1.mem_iff.mpr (List.mem_range.mpr hq)
    obtain ⟨a, ha⟩ := List.mem_iff_getElem?.mp hq'
    have hlt : a < hist.length - k := by
      by_contra hc
      apply hn
      rw [hperm.mem_iff, hxs]
      apply List.mem_of_getElem? (i := a - (hist.length - k))
      rw [List.getElem?_drop, Nat.add_sub_cancel' (by omega)]
      exact ha
    exact hp2 a _ hlt (by omega) q p ha hb v u hv hu
  · unfold getTopKDelaysFft
    rw [if_neg (by omega), if_neg (by omega), if_neg (by omega)]
    simp only [hidx, ← hxs, hsrt]
    apply mapM_ok
    rintro ⟨x, y⟩ hxy
    have := hxm x (hperm.mem_iff.mp (List.of_mem_zip hxy).1)
    simp only [delay_at _ _ _ this]
    rfl
  · rw [List.length_map, List.length_zip, pick_length _ _ hom1, pick_length _ _ hom2, hol, Nat.min_self]
  · intro i p hp
    rw [pick_get _ _ hom1] at hp
    cases ho : srt.reverse[i]? with
    | none => rw [ho] at hp; simp at hp
    | some o =>
      rw [ho] at hp
      have hpl : p < hist.length := hxm p (List.mem_of_getElem? hp)
      refine ⟨hist[p], _, _, List.getElem?_eq_getElem hpl, ?_, candidates_spec hist.length p res hr hpl⟩
      rw [List.getElem?_map, List.getElem?_zip_eq_some (z := (p, hist[p])) |>.mpr ⟨?_, ?_⟩]
      · rfl
      · rw [pick_get _ _ hom1, ho]; exact hp
      · rw [pick_get _ _ hom2, ho, Option.bind_some, pick_get _ _ hxm]
        have hp : xs[o]? = some p := hp
        rw [hp, Option.bind_some, List.getElem?_eq_getElem hpl]

/-- **C71**, for one peak: the two delays of the first maximum. -/
theorem C71_one_partial {α : Type} [LinearOrder α] (S : Sorter α) (hist : List α) (hne : hist ≠ []) (res : ℚ) (hr : 0 < res) :
    ∃ p d1 d2, FirstMax hist p ∧ getTopKDelaysFft S hist (uniformBins hist.length res) 1 = .ok [(none, d1, d2)] ∧
      DelaysOf hist.length res p d1 d2 := by
  obtain ⟨p, h1, h2⟩ := argmax_spec hist hne
  have hp := firstMax_lt hist p h2
  refine ⟨p, _, _, h2, ?_, candidates_spec hist.length p res hr hp⟩
  unfold getTopKDelaysFft
  rw [if_neg (by omega), if_pos rfl, h1]
  simp only [delay_at _ _ _ hp]
  rfl

/-- **C71** fails for `k = 1`: whatever the histogram, the height of the peak is missing from the answer. -/
theorem C71_violated {α : Type} [LinearOrder α] (S : Sorter α) (hist : List α) (bins : List ℚ) (out : List (Option α × ℚ × ℚ))
    (h : getTopKDelaysFft S hist bins 1 = .ok out) : ∀ x ∈ out, x.1 = none := by
  unfold getTopKDelaysFft at h
  rw [if_neg (by omega), if_pos rfl] at h
  cases ha : argmax hist with
  | none => rw [ha] at h; simp at h
  | some p =>
    rw [ha] at h
    simp only at h
    cases hd : getDelayAtIndexFft bins p with
    | error e => rw [hd] at h; exact absurd h (by simp [bind, Except.bind])
    | ok d =>
      rw [hd] at h
      simp only [bind, Except.bind, pure, Except.pure, Except.ok.injEq] at h
      subst h
      simp

/-- **C71**: asking for none, or for more than there are, is refused. -/
theorem C71_refused {α : Type} [LinearOrder α] (S : Sorter α) (hist : List α) (bins : List ℚ) (k : Nat) :
    (k = 0 → getTopKDelaysFft S hist bins k = .error .assertionError) ∧
    (0 < k → hist.length < k → getTopKDelaysFft S hist bins k = .error .valueError) := by
  constructor
  · rintro rfl
    rfl
  · intro h1 h2
    unfold getTopKDelaysFft
    rw [if_neg (by omega)]
    split_ifs with h
    · have : hist = [] := List.length_eq_zero_iff.mp (by omega)
      subst this
      rfl
    · rfl

/-- An implementation as assumed by C71 exists: sort for both. -/
theorem C71_satisfiable (α : Type) [LinearOrder α] [Inhabited α] : ∃ S : Sorter α, SorterOk S := by
  let f : List α → List Nat := fun l => (List.range l.length).mergeSort fun x y => decide (l.getD x default ≤ l.getD y default)
  have key : ∀ l : List α, IsArgsort l (f l) := by
    intro l
    refine ⟨List.mergeSort_perm _ _, ?_⟩
    refine (List.pairwise_mergeSort ?_ ?_ _).imp ?_
    · intro a b c h1 h2
      simp only [decide_eq_true_eq] at *
      exact h1.trans h2
    · intro a b
      simp only [Bool.or_eq_true, decide_eq_true_eq]
      exact le_total _ _
    · intro x y hxy u v hu hv
      simp only [decide_eq_true_eq, List.getD_eq_getElem?_getD, hu, hv, Option.getD_some] at hxy
      exact hxy
  refine ⟨⟨fun l _ => f l, f⟩, fun l j hj => ⟨(key l).1, ?_⟩, key⟩
  intro a b ha hb x y hx hy u v hu hv
  obtain ⟨ha', rfl⟩ := List.getElem?_eq_some_iff.mp hx
  obtain ⟨hb', rfl⟩ := List.getElem?_eq_some_iff.mp hy
  exact List.pairwise_iff_getElem.mp (key l).2 a b ha' hb' (by omega) u v hu hv

/-- Instance of C71: the two largest of five values. -/
example : getTopKDelaysFft ⟨fun _ _ => [2, 0, 4, 1, 3], fun _ => [1, 0]⟩ [1, 9, 0, 7, (3 : Nat)] (uniformBins 5 2) 2 =
    .ok [(some 9, 2, -8), (some 7, -4, 6)] := by decide +kernel

/-! ## C72 -/

/-- **C72**: the significance does not depend on the scale of the histogram or on a constant background, and the same windows
are used. -/
theorem C72_significance_rescaled (hist : List ℝ) (a b : ℝ) (ha : 0 < a) (res : Option ℚ) (center : Option (ℚ × Bool)) (window : ℚ)
    (stats : PeakStatistics ℝ) (h : getStatistics hist res center window = .ok stats) :
    ∃ stats', getStatistics (rescale a b hist) res center window = .ok stats' ∧
      stats'.signal = rescale a b stats.signal ∧ stats'.background = rescale a b stats.background ∧
      stats'.significance = stats.significance ∧ stats'.significance2 = stats.significance2 ∧
      stats'.total = stats.total.map (Option.map (a * ·)) := by
  have hmono : StrictMono fun x : ℝ => a * x + b := fun x y hxy => by
    have := mul_lt_mul_of_pos_left hxy ha
    simp only
    linarith
  refine ⟨{ signal := rescale a b stats.signal, background := rescale a b stats.background }, ?_, rfl, rfl, ?_, ?_, ?_⟩
  · have := statistics_map _ hmono hist res center window
    rw [h] at this
    exact this
  · unfold PeakStatistics.significance
    simp only [rescale_nil, std_rescale a b ha, mul_eq_zero, ha.ne', false_or]
    by_cases hb : stats.background = []
    · rw [if_pos hb, if_pos hb]
    by_cases hs : stdR stats.background = 0
    · rw [if_neg hb, if_neg hb, if_pos hs, if_pos hs]
    rw [if_neg hb, if_neg hb, if_neg hs, if_neg hs]
    cases hsig : stats.signal with
    | nil => rfl
    | cons x xs =>
      have e : rescale a b (x :: xs) = (a * x + b) :: rescale a b xs := rfl
      simp only [e]
      rw [max_rescale a b ha, mean_rescale a b _ hb]
      congr 4
      rw [show a * xs.foldl max x + b - (a * meanR stats.background + b) = a * (xs.foldl max x - meanR stats.background) by ring,
        mul_div_mul_left _ _ ha.ne']
  · unfold PeakStatistics.significance2 PeakStatistics.total
    simp only [rescale_nil, std_rescale a b ha, mul_eq_zero, ha.ne', false_or, length_rescale, ne_eq]
    by_cases h1 : ¬ stats.background = [] ∧ stdR stats.background = 0
    · rw [if_pos h1, if_pos h1]
    rw [if_neg h1, if_neg h1]
    by_cases h2 : stats.signal.length = 0
    · rw [if_pos h2, if_pos h2]
    rw [if_neg h2, if_neg h2]
    set n := stats.signal.length with hn
    set m := stats.background.length / n * n with hm
    by_cases h3 : stats.background.length / n = 0 ∨ n = 0
    · rw [if_pos h3, if_pos h3]
    rw [if_neg h3, if_neg h3]
    have hml : m ≤ stats.background.length := Nat.div_mul_le_self _ _
    have e1 : (rescale a b stats.background).take m = rescale a b (stats.background.take m) := by simp [rescale, List.map_take]
    have hrow : m / n * n ≤ (stats.background.take m).length := by
      rw [List.length_take, min_eq_left hml]
      exact Nat.div_mul_le_self _ _
    rw [e1, rowSums_rescale a b n _ _ hrow, std_rescale a _ ha]
    simp only [mul_eq_zero, ha.ne', false_or]
    split_ifs with h4 h5 h6
    · rfl
    · rfl
    · rfl
    · simp only [Except.bind]
      rw [sum_rescale, mean_rescale a b _ h6, ← hn]
      congr 5
      rw [show a * stats.signal.sum + (n : ℝ) * b - n * (a * meanR stats.background + b) =
        a * (stats.signal.sum - n * meanR stats.background) by ring, mul_div_mul_left _ _ ha.ne']
  · unfold PeakStatistics.total
    simp only [rescale_nil, length_rescale]
    split_ifs with h1 h2
    · rfl
    · rfl
    · rw [sum_rescale, mean_rescale a b _ h2]
      simp only [Except.map, Option.map_some]
      congr 2
      ring

/-- **C72**: scaling the histogram leaves `g2` unchanged. -/
theorem C72_g2_rescaled (s : PeakStatistics ℝ) (a : ℝ) (ha : 0 < a) :
    (PeakStatistics.mk (rescale a 0 s.signal) (rescale a 0 s.background)).g2 = s.g2 := by
  unfold PeakStatistics.g2
  simp only [rescale_nil]
  by_cases hb : s.background = []
  · rw [if_pos hb, if_pos hb]
  rw [if_neg hb, if_neg hb, mean_rescale a 0 _ hb]
  simp only [add_zero, mul_eq_zero, ha.ne', false_or]
  split_ifs with h
  · rfl
  · cases hsig : s.signal with
    | nil => rfl
    | cons x xs =>
      have e : rescale a 0 (x :: xs) = (a * x + 0) :: rescale a 0 xs := rfl
      simp only [e]
      rw [max_rescale a 0 ha, add_zero, mul_div_mul_left _ _ ha.ne']

/-- **C72**: around the maximum of a histogram, with any background bin, the excess counts and `significance2` are computed
without error, and for a non-negative histogram `g2` is at least one unless the background is all zero. -/
theorem C72_defined (hist : List ℝ) (hne : hist ≠ []) (res window : ℚ) (hr : 0 < res) (hw : 0 ≤ window)
    (stats : PeakStatistics ℝ) (h : getStatistics hist (some res) none window = .ok stats) (hb : stats.background ≠ []) :
    stats.total = .ok (some (stats.signal.sum - stats.signal.length * meanR stats.background)) ∧
      (∃ r, stats.significance2 = .ok r) ∧
      ((∀ x ∈ hist, 0 ≤ x) → (∀ x ∈ stats.background, x = 0) ∧ stats.g2 = .ok none ∨ ∃ q, stats.g2 = .ok (some q) ∧ 1 ≤ q) := by
  obtain ⟨x, hx, hxmax⟩ := C31_signal_has_max hist hne res window hr hw stats h
  have hs : stats.signal ≠ [] := List.ne_nil_of_mem hx
  have ht : stats.total = .ok (some (stats.signal.sum - stats.signal.length * meanR stats.background)) := by
    unfold PeakStatistics.total
    rw [if_neg hs, if_neg hb]
  refine ⟨ht, ?_, ?_⟩
  · unfold PeakStatistics.significance2
    have hl : stats.signal.length ≠ 0 := by simpa using hs
    rw [ht, if_neg hl]
    simp only
    split_ifs
    · exact ⟨_, rfl⟩
    · exact ⟨_, rfl⟩
    · exact ⟨_, rfl⟩
    · exact ⟨_, rfl⟩
  · intro hpos
    obtain ⟨p, st, hp, hst, lo, hi, blo, bhi, -, hlo, hhi, -, -, -, -, -, -, -, -, -, hsig, hbg⟩ :=
      C31_windows_partial hist hne res window hr hw
    rw [h] at hst
    obtain rfl : stats = st := by simpa using hst
    have hsub : ∀ y ∈ stats.background, y ∈ hist := by
      rw [hbg]
      intro y hy
      rcases List.mem_append.mp hy with hy | hy
      · exact List.mem_of_mem_take (List.mem_of_mem_drop hy)
      · exact List.mem_of_mem_take (List.mem_of_mem_drop hy)
    have hmean : meanR stats.background ≤ x := mean_le _ hb x fun y hy => hxmax y (hsub y hy)
    have hlen : (0 : ℝ) < stats.background.length := by
      have := List.length_pos_of_ne_nil hb
      exact_mod_cast this
    have hmean0 : 0 ≤ meanR stats.background :=
      div_nonneg (List.sum_nonneg fun y hy => hpos y (hsub y hy)) hlen.le
    unfold PeakStatistics.g2
    rw [if_neg hb]
    by_cases h0 : meanR stats.background = 0
    · rw [if_pos h0]
      left
      refine ⟨?_, rfl⟩
      intro y hy
      have hsum : stats.background.sum = 0 := by
        unfold meanR at h0
        rcases div_eq_zero_iff.mp h0 with h | h
        · exact h
        · exact absurd h hlen.ne'
      have := List.single_le_sum (fun z hz => hpos z (hsub z hz)) y hy
      exact le_antisymm (this.trans hsum.le) (hpos y (hsub y hy))
    · rw [if_neg h0]
      right
      obtain ⟨z, zs, hz⟩ := List.exists_cons_of_ne_nil hs
      rw [hz]
      refine ⟨_, rfl, ?_⟩
      have hfold : ∀ (l : List ℝ) (a y : ℝ), y = a ∨ y ∈ l → y ≤ l.foldl max a := by
        intro l
        induction l with
        | nil => rintro a y (rfl | h); exacts [le_refl _, by simp at h]
        | cons b l ih =>
          rintro a y (rfl | h)
          · exact (le_max_left _ b).trans (ih _ _ (Or.inl rfl))
          · rcases List.mem_cons.mp h with rfl | h
            · exact (le_max_right a _).trans (ih _ _ (Or.inl rfl))
            · exact ih _ _ (Or.inr h)
      have hm : 0 < meanR stats.background := lt_of_le_of_ne hmean0 (Ne.symm h0)
      rw [le_div_iff₀ hm, one_mul]
      rw [hz] at hx
      exact hmean.trans (hfold zs z x (List.mem_cons.mp hx))

/-- **C72**: for a signal window of one bin `significance2` is the significance. -/
theorem C72_single_bin (s : PeakStatistics ℝ) (x : ℝ) (hx : s.signal = [x]) (hb : s.background ≠ []) (hstd : stdR s.background ≠ 0) :
    ∃ v, s.significance = .ok v ∧ s.significance2 = .ok (some v) := by
  have hl : s.background.length ≠ 0 := by simpa using hb
  refine ⟨_, by unfold PeakStatistics.significance; rw [if_neg hb, if_neg hstd, hx], ?_⟩
  unfold PeakStatistics.significance2 PeakStatistics.total
  rw [if_neg (by tauto), hx]
  simp only [List.length_singleton, Nat.div_one, Nat.mul_one, if_neg hl, List.take_length, rowSums_one, if_neg hstd, if_neg hb,
    Except.bind, one_ne_zero, if_false, List.cons_ne_nil, List.foldl_nil, List.sum_singleton, Nat.cast_one, one_mul]

theorem rneR_nearest (y : ℝ) : |(rneR y : ℝ) - y| ≤ 1 / 2 ∧ (|(rneR y : ℝ) - y| = 1 / 2 → Even (rneR y)) := by
  have h1 := Int.floor_le y
  have h2 := Int.lt_floor_add_one y
  unfold rneR
  split_ifs with c1 c2 c3
  · rw [abs_of_nonpos (by linarith)]
    exact ⟨by linarith, fun h => by linarith⟩
  · push_cast
    rw [abs_of_nonneg (by linarith)]
    exact ⟨by linarith, fun h => by linarith⟩
  · rw [abs_of_nonpos (by linarith)]
    exact ⟨by linarith, fun _ => Int.even_iff.mpr c3⟩
  · push_cast
    rw [abs_of_nonneg (by linarith)]
    refine ⟨by linarith, fun _ => ?_⟩
    rw [Int.even_iff]
    omega

/-- **C72** The values: if the highest signal bin is `x` and the background has the mean `m` and the standard deviation `σ`, the
significance is (x - m)/σ rounded to three decimals (ties to the even digit), the total is the sum of the signal above `m`, and g2 is
x/m. -/
theorem C72_values (s : PeakStatistics ℝ) (x m σ : ℝ) (hx : x ∈ s.signal) (hmax : ∀ y ∈ s.signal, y ≤ x) (hb : s.background ≠ [])
    (hm : m * s.background.length = s.background.sum) (hσ : 0 < σ)
    (hσ2 : σ ^ 2 * s.background.length = (s.background.map fun y => (y - m) ^ 2).sum) :
    (∃ k : ℤ, s.significance = .ok (k / 1000) ∧ |(k : ℝ) - 1000 * ((x - m) / σ)| ≤ 1 / 2 ∧
      (|(k : ℝ) - 1000 * ((x - m) / σ)| = 1 / 2 → Even k)) ∧
    s.total = .ok (some (s.signal.map fun y => y - m).sum) ∧ (m ≠ 0 → s.g2 = .ok (some (x / m))) := by
  have hl : (0 : ℝ) < s.background.length := by exact_mod_cast List.length_pos_of_ne_nil hb
  have hmean : meanR s.background = m := by
    unfold meanR
    rw [← hm]
    field_simp
  have hstd : stdR s.background = σ := by
    unfold stdR
    rw [hmean, ← hσ2, mul_div_assoc, div_self hl.ne', mul_one, Real.sqrt_sq hσ.le]
  obtain ⟨z, zs, hz⟩ := List.exists_cons_of_ne_nil (List.ne_nil_of_mem hx)
  have hfold : zs.foldl max z = x := by
    apply le_antisymm
    · have : ∀ (l : List ℝ) (a : ℝ), a ≤ x → (∀ y ∈ l, y ≤ x) → l.foldl max a ≤ x := by
        intro l
        induction l with
        | nil => exact fun a ha _ => ha
        | cons b l ih => exact fun a ha hy => ih _ (max_le ha (hy b (by simp))) fun y h => hy y (by simp [h])
      rw [hz] at hmax
      exact this zs z (hmax z (by simp)) fun y h => hmax y (by simp [h])
    · exact foldl_maxR_le zs z x (by rw [← hz]; exact hx)
  refine ⟨⟨rneR ((x - m) / σ * 1000), ?_, ?_⟩, ?_, fun h0 => ?_⟩
  · unfold PeakStatistics.significance
    rw [if_neg hb, hstd, if_neg hσ.ne', hz, hmean]
    simp only
    rw [hfold]
  · rw [mul_comm 1000]
    exact rneR_nearest _
  · unfold PeakStatistics.total
    rw [if_neg (List.ne_nil_of_mem hx), if_neg hb, hmean]
    congr 2
    have : ∀ l : List ℝ, l.sum - l.length * m = (l.map fun y => y - m).sum := by
      intro l
      induction l with
      | nil => simp
      | cons b l ih =>
        rw [List.sum_cons, List.length_cons, List.map_cons, List.sum_cons, ← ih]
        push_cast
        ring
    exact this _
  · unfold PeakStatistics.g2
    rw [if_neg hb, hmean, if_neg h0, hz]
    simp only
    rw [hfold]

/-- Instance of `C72_values`: signal 2, 9, 4 over a background of mean 2 and standard deviation 1. -/
example : ∃ k : ℤ, (⟨[2, 9, 4], [1, 3]⟩ : PeakStatistics ℝ).significance = .ok (k / 1000) ∧ |(k : ℝ) - 7000| ≤ 1 / 2 := by
  obtain ⟨⟨k, h1, h2, -⟩, -⟩ := C72_values ⟨[2, 9, 4], [1, 3]⟩ 9 2 1 (by simp) (by norm_num) (by simp) (by norm_num) (by norm_num) (by norm_num)
  refine ⟨k, h1, ?_⟩
  norm_num at h2 ⊢
  exact h2

theorem rowSums_groups (n : ℕ) : ∀ (groups : List (List ℝ)), (∀ g ∈ groups, g.length = n) → rowSums n groups.flatten groups.length = groups.map List.sum
  | [], _ => rfl
  | g :: gs, h => by
    rw [List.length_cons, rowSums, List.flatten_cons, List.take_left' (h g (by simp)), List.drop_left' (h g (by simp)),
      rowSums_groups n gs fun g' hg => h g' (by simp [hg])]
    rfl

/-- **C72** The value of `significance2`: cut the background, from its beginning, into groups of as many bins as the signal has and
forget the rest; the standard deviation `τ` of the sums of the groups is the unit for the total. -/
theorem C72_grouped (s : PeakStatistics ℝ) (groups : List (List ℝ)) (rest : List ℝ) (m σ μ τ : ℝ) (hsig : s.signal ≠ [])
    (hback : s.background = groups.flatten ++ rest) (hg : ∀ g ∈ groups, g.length = s.signal.length) (hrest : rest.length < s.signal.length)
    (hne : groups ≠ []) (hm : m * s.background.length = s.background.sum) (hσ : 0 < σ)
    (hσ2 : σ ^ 2 * s.background.length = (s.background.map fun y => (y - m) ^ 2).sum)
    (hμ : μ * groups.length = (groups.map List.sum).sum) (hτ : 0 < τ)
    (hτ2 : τ ^ 2 * groups.length = (groups.map fun g => (g.sum - μ) ^ 2).sum) :
    ∃ k : ℤ, s.significance2 = .ok (some (k / 1000)) ∧ |(k : ℝ) - 1000 * ((s.signal.map fun y => y - m).sum / τ)| ≤ 1 / 2 ∧
      (|(k : ℝ) - 1000 * ((s.signal.map fun y => y - m).sum / τ)| = 1 / 2 → Even k) := by
  have hn : 0 < s.signal.length := List.length_pos_of_ne_nil hsig
  have hgl : 0 < groups.length := List.length_pos_of_ne_nil hne
  have hflat : groups.flatten.length = groups.length * s.signal.length := by
    rw [List.length_flatten, List.map_congr_left hg, List.map_const', List.sum_replicate_nat]
  have hdiv : s.background.length / s.signal.length = groups.length := by
    rw [hback, List.length_append, hflat, Nat.add_comm, Nat.add_mul_div_right _ _ hn, Nat.div_eq_of_lt hrest, Nat.zero_add]
  have hb : s.background ≠ [] := by
    intro h
    rw [h] at hdiv
    simp at hdiv
    omega
  have hl : (0 : ℝ) < s.background.length := by exact_mod_cast List.length_pos_of_ne_nil hb
  have hl' : (0 : ℝ) < groups.length := by exact_mod_cast hgl
  have hmean : meanR s.background = m := by
    unfold meanR
    rw [← hm]
    field_simp
  have hstd : stdR s.background = σ := by
    unfold stdR
    rw [hmean, ← hσ2, mul_div_assoc, div_self hl.ne', mul_one, Real.sqrt_sq hσ.le]
  have hmean' : meanR (groups.map List.sum) = μ := by
    unfold meanR
    rw [List.length_map, ← hμ]
    field_simp
  have hstd' : stdR (groups.map List.sum) = τ := by
    unfold stdR
    rw [hmean', List.map_map, List.length_map]
    show Real.sqrt ((groups.map fun g => (g.sum - μ) ^ 2).sum / _) = _
    rw [← hτ2, mul_div_assoc, div_self hl'.ne', mul_one, Real.sqrt_sq hτ.le]
  have htot : s.total = .ok (some (s.signal.map fun y => y - m).sum) := by
    obtain ⟨x, hx, hmax⟩ : ∃ x ∈ s.signal, ∀ y ∈ s.signal, y ≤ x := by
      obtain ⟨x, hx, h⟩ := Finset.exists_max_image s.signal.toFinset id ⟨s.signal.head hsig, List.mem_toFinset.2 (List.head_mem hsig)⟩
      exact ⟨x, List.mem_toFinset.1 hx, fun y hy => h y (List.mem_toFinset.2 hy)⟩
    exact (C72_values s x m σ hx hmax hb hm hσ hσ2).2.1
  refine ⟨rneR ((s.signal.map fun y => y - m).sum / τ * 1000), ?_, ?_⟩
  · unfold PeakStatistics.significance2
    rw [if_neg (by rw [hstd]; exact fun h => hσ.ne' h.2), if_neg hn.ne']
    simp only [hdiv]
    rw [if_neg (Nat.mul_pos hgl hn).ne', Nat.mul_div_cancel _ hn, hback, List.take_left' hflat, rowSums_groups _ groups hg, hstd', if_neg hτ.ne', htot]
    rfl
  · rw [mul_comm 1000]
    exact rneR_nearest _

/-- Instance of `C72_grouped`: the groups (1, 3) and (2, 6) with the sums 4 and 8 have the standard deviation 2; the last bin 3 is left
over. -/
example : ∃ k : ℤ, (⟨[9, 4], [1, 3, 2, 6, 3]⟩ : PeakStatistics ℝ).significance2 = .ok (some (k / 1000)) ∧ |(k : ℝ) - 3500| ≤ 1 / 2 := by
  obtain ⟨k, h1, h2, -⟩ := C72_grouped ⟨[9, 4], [1, 3, 2, 6, 3]⟩ [[1, 3], [2, 6]] [3] 3 (Real.sqrt (14 / 5)) 6 2 (by simp) (by simp) (by simp) (by simp)
    (by simp) (by norm_num) (by positivity) (by rw [Real.sq_sqrt (by norm_num)]; norm_num) (by norm_num) (by norm_num) (by norm_num)
  refine ⟨k, h1, ?_⟩
  norm_num at h2 ⊢
  exact h2

/-- **C72** fails for `significance_raw`: it never returns a number. -/
theorem C72_raw_violated (s : PeakStatistics ℝ) : ∀ v, s.significanceRaw ≠ .ok (some v) := by
  intro v
  unfold PeakStatistics.significanceRaw
  split_ifs <;> simp

/-- Instance for C72: the windows of a short histogram. -/
example : (getStatistics [1, 2, 9, 4, 1, 3, (2 : ℚ)] (some 1) none 2).map (fun s => (s.signal, s.background)) =
    .ok ([2, 9, 4], [1, 1, 3]) := by decide +kernel

/-! ## C73 -/

/-- **C73** fails: no call returns a histogram. -/
theorem C73_violated (alice bob : List ℚ) (acq : Option ℚ) : ∀ r, (histogramFft alice bob acq).1 ≠ .ok r := by
  intro r
  unfold histogramFft
  split <;> simp

/-- **C73** fails: the caller's arrays are shifted, unless they already start at the common reference. -/
theorem C73_inputs_violated (a b : ℚ) (alice bob : List ℚ) (acq : Option ℚ) :
    (histogramFft (a :: alice) (b :: bob) acq).2 = (a :: alice, b :: bob) ↔ max a b + acq.getD 0 = 0 := by
  unfold histogramFft
  simp only [List.head?_cons, List.map_cons, Prod.mk.injEq, List.cons.injEq]
  constructor
  · rintro ⟨⟨h, -⟩, -⟩
    linarith
  · intro h
    simp [h]

/-- **C73**: both arrays are shifted by the same amount, so time differences between them are kept; the common reference
becomes the time zero. -/
theorem C73_shift_partial (a b : ℚ) (alice bob : List ℚ) (acq : ℚ) :
    ∃ shift alice' bob', (histogramFft (a :: alice) (b :: bob) (some acq)).2 = (alice', bob') ∧
      alice' = (a :: alice).map (· - shift) ∧ bob' = (b :: bob).map (· - shift) ∧ IsGreatest {x | x = a ∨ x = b} (shift - acq) := by
  refine ⟨max a b + acq, _, _, rfl, rfl, rfl, ?_, ?_⟩
  · simp only [Set.mem_setOf_eq, add_sub_cancel_right]
    exact max_choice a b
  · rintro x (rfl | rfl) <;> simp

/-- Instance for C73. -/
example : histogramFft [3, 5] [4, 9] none = (.error .typeError, [-1, 1], [0, 5]) := by decide +kernel

end Fp
