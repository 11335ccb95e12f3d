import Verif.Lemmas.UtilsFft
import Verif.Props.Utils

/-! # The correlation computed with Fourier transforms: C28, C30, C31 (significance) -/
namespace Fp
open Spec

/-! ## Cosine sums -/

/-! ## The correlation theorem -/

/-- **C28**. -/
theorem C28_correlation (a b : List ℚ) (ha : a ≠ []) (hb : b ≠ []) (h : Nat) (hh : 0 < h) (res : ℚ) :
    ∃ fa fb, generateFft a (2 * h) res = .ok fa ∧ generateFft b (2 * h) res = .ok fb ∧ (getXcorr fa fb).length = 2 * h ∧
      ∀ k < 2 * h, (getXcorr fa fb)[k]? = some ((pairsAt a b (2 * h) res k : Nat) : ℝ) := by
  have ga : generateFft a (2 * h) res = .ok (rfft ((bincount (a.map (binOf (2 * h) res)) (2 * h)).map (fun n : Nat => (n : ℝ)))) := by
    unfold generateFft generateBins
    rw [if_neg ha]; rfl
  have gb : generateFft b (2 * h) res = .ok (rfft ((bincount (b.map (binOf (2 * h) res)) (2 * h)).map (fun n : Nat => (n : ℝ)))) := by
    unfold generateFft generateBins
    rw [if_neg hb]; rfl
  exact ⟨_, _, ga, gb, xcorr_core a b h hh res _ _ ga gb⟩

/-- The transforms drop the last bin for an odd number of bins. -/
theorem C28_odd_length (a b : List ℚ) (ha : a ≠ []) (hb : b ≠ []) (h : Nat) (res : ℚ) :
    ∃ fa fb, generateFft a (2 * h + 1) res = .ok fa ∧ generateFft b (2 * h + 1) res = .ok fb ∧
      (getXcorr fa fb).length = 2 * h := by
  have hl : ∀ c : List ℚ, (bincount (c.map (binOf (2 * h + 1) res)) (2 * h + 1)).length = 2 * h + 1 := by
    intro c
    unfold bincount
    rw [foldl_max_bound]
    · simp
    · intro v hv
      obtain ⟨t, _, rfl⟩ := List.mem_map.mp hv
      exact binOf_lt (2 * h + 1) (by omega) res t
  refine ⟨_, _, by unfold generateFft generateBins; rw [if_neg ha]; rfl, by unfold generateFft generateBins; rw [if_neg hb]; rfl, ?_⟩
  unfold getXcorr irfft rfft
  simp only [List.length_map, List.length_range, List.length_zipWith, hl]
  omega

/-! ## C30 -/

/-- **C30**: the correlation of an array with its own copy delayed by `d` bins has its peak at exactly `d` bins, unless some
shifted copy of the binned data is the same. -/
theorem C30_pure_delay (a : List ℚ) (ha : a ≠ []) (h : Nat) (hh : 0 < h) (res : ℚ) (hr : 0 < res) (d : ℤ)
    (hdist : ∀ s, 0 < s → s < 2 * h → ∃ j < 2 * h, inBin a (2 * h) res j ≠ inBin a (2 * h) res ((j + s) % (2 * h))) :
    ∃ fa fb d1 d2, generateFft a (2 * h) res = .ok fa ∧ generateFft (a.map (· + d * res)) (2 * h) res = .ok fb ∧
      getTimingDelayFft (getXcorr fa fb) (uniformBins (2 * h) res) = .ok (d1, d2) ∧
      SameDelay ((2 * h : Nat) * res) d1 (d * res) ∧ (|d| < h → d1 = d * res) := by
  obtain ⟨fa, fb, ga, gb, hlen, hget⟩ := C28_correlation a (a.map (· + d * res)) ha (by simpa using ha) h hh res
  haveI : NeZero (2 * h) := ⟨by omega⟩
  have hne : getXcorr fa fb ≠ [] := by
    intro hc
    rw [hc] at hlen
    simp at hlen
    omega
  obtain ⟨p, hp, hmax⟩ := argmax_spec _ hne
  have hplt : p < 2 * h := by rw [← hlen]; exact firstMax_lt _ _ hmax
  -- the peak position is d modulo the number of bins
  have hpd : (p : ℤ) ≡ d [ZMOD ((2 * h : Nat) : ℤ)] := by
    by_contra hcon
    obtain ⟨k, hk⟩ : ∃ k : Nat, (k : ℤ) = d % ((2 * h : Nat) : ℤ) :=
      ⟨_, Int.toNat_of_nonneg (Int.emod_nonneg _ (by omega))⟩
    have hklt : k < 2 * h := by
      have := Int.emod_lt_of_pos d (show (0 : ℤ) < ((2 * h : Nat) : ℤ) by omega)
      omega
    have hkd : ((k : ℤ) : ZMod (2 * h)) = ((d : ℤ) : ZMod (2 * h)) := by
      rw [ZMod.intCast_eq_intCast_iff, hk]
      exact Int.mod_modEq _ _
    obtain ⟨x, hx, hle, -⟩ := hmax
    rw [hget p hplt] at hx
    have hx' : x = ((pairsAt a (a.map (· + d * res)) (2 * h) res p : Nat) : ℝ) := by simpa using hx.symm
    have hkle := hle _ (List.mem_of_getElem? (hget k hklt))
    rw [hx', Nat.cast_le] at hkle
    have hz : ((pairsAt a (a.map (· + d * res)) (2 * h) res k : Nat) : ℤ) ≤
        ((pairsAt a (a.map (· + d * res)) (2 * h) res p : Nat) : ℤ) := by exact_mod_cast hkle
    rw [pairs_shift (2 * h) a res hr d, pairs_shift (2 * h) a res hr d] at hz
    have e0 : (((k : ℤ) - d : ℤ) : ZMod (2 * h)) = 0 := by push_cast at hkd ⊢; rw [hkd]; ring
    rw [e0] at hz
    simp only [add_zero] at hz
    refine absurd hz (not_le.mpr (autocorr_lt (2 * h)
      (fun j => ((a.countP fun t => decide (((⌊t / res⌋ : ℤ) : ZMod (2 * h)) = j) : Nat) : ℤ)) _ ?_))
    -- the shift is not zero
    obtain ⟨s, hs⟩ : ∃ s : Nat, (s : ℤ) = ((p : ℤ) - d) % ((2 * h : Nat) : ℤ) :=
      ⟨_, Int.toNat_of_nonneg (Int.emod_nonneg _ (by omega))⟩
    have hslt : s < 2 * h := by
      have := Int.emod_lt_of_pos ((p : ℤ) - d) (show (0 : ℤ) < ((2 * h : Nat) : ℤ) by omega)
      omega
    have hs0 : 0 < s := by
      rcases Nat.eq_zero_or_pos s with h0 | h0
      · exfalso
        apply hcon
        rw [h0] at hs
        have := Int.dvd_of_emod_eq_zero hs.symm
        exact ((Int.modEq_iff_dvd).mpr this).symm
      · exact h0
    have hsz : (((p : ℤ) - d : ℤ) : ZMod (2 * h)) = ((s : Nat) : ZMod (2 * h)) := by
      rw [← Int.cast_natCast (R := ZMod (2 * h)) s, ZMod.intCast_eq_intCast_iff, hs]
      exact (Int.mod_modEq _ _).symm
    obtain ⟨j, hj, hjne⟩ := hdist s hs0 hslt
    refine ⟨((j : Nat) : ZMod (2 * h)), ?_⟩
    rw [hsz]
    have hcnt : ∀ i : Nat, inBin a (2 * h) res i = a.countP fun t => decide (((⌊t / res⌋ : ℤ) : ZMod (2 * h)) = ((i : Nat) : ZMod (2 * h))) := by
      intro i
      unfold inBin
      congr 1
      funext t
      rw [decide_eq_decide, ← ZMod.intCast_eq_intCast_iff, Int.cast_natCast]
    rw [hcnt, hcnt] at hjne
    have e1 : (((j + s) % (2 * h) : Nat) : ZMod (2 * h)) = ((j : Nat) : ZMod (2 * h)) + ((s : Nat) : ZMod (2 * h)) := by
      rw [ZMod.natCast_mod, Nat.cast_add]
    rw [e1] at hjne
    exact_mod_cast hjne
  have hc := candidates_spec (2 * h) p res hr hplt
  have hdelay : getTimingDelayFft (getXcorr fa fb) (uniformBins (2 * h) res) =
      .ok ((candidates (2 * h) p res).1, (candidates (2 * h) p res).2) := by
    unfold getTimingDelayFft candidates
    rw [hp, hlen]
    simp only
    rw [uniform_get _ _ _ hplt, uniform_get _ _ _ (by split_ifs <;> omega)]
  have hsame : SameDelay ((2 * h : Nat) * res) (candidates (2 * h) p res).1 (d * res) := by
    obtain ⟨c, hc1⟩ := hc.1
    obtain ⟨e, he⟩ := Int.modEq_iff_dvd.mp hpd.symm
    refine ⟨c + e, ?_⟩
    have : (p : ℚ) - d = ((2 * h : Nat) : ℚ) * e := by exact_mod_cast he
    rw [hc1]
    push_cast at this ⊢
    have hp' : (p : ℚ) = d + 2 * h * e := by linarith
    rw [hp']; ring
  refine ⟨fa, fb, _, _, ga, gb, hdelay, hsame, ?_⟩
  intro hd
  obtain ⟨c, hc1⟩ := hsame
  have hc4 := hc.2.2.2.1
  rw [hc1] at hc4 ⊢
  -- |d res + c (2 h res)| ≤ h res, |d| < h, so c = 0 or |c| = 1 at the boundary
  have hdq : |(d : ℚ)| < h := by exact_mod_cast hd
  obtain ⟨hd1, hd2⟩ := abs_lt.mp hdq
  obtain ⟨hu1, hu2⟩ := abs_le.mp hc4
  push_cast at hu1 hu2 ⊢
  have hu1' : -(h : ℚ) ≤ d + c * (2 * h) := by
    have : -(h : ℚ) * res ≤ (d + c * (2 * h)) * res := by linarith
    exact le_of_mul_le_mul_right this hr
  have hu2' : d + c * (2 * h) ≤ (h : ℚ) := by
    have : (d + c * (2 * h)) * res ≤ (h : ℚ) * res := by linarith
    exact le_of_mul_le_mul_right this hr
  have hc0 : c = 0 := by
    have hhq : (0 : ℚ) < h := by exact_mod_cast hh
    have l1 : (c : ℚ) < 1 := by
      by_contra hcon
      push Not at hcon
      nlinarith
    have l2 : (-1 : ℚ) < c := by
      by_contra hcon
      push Not at hcon
      nlinarith
    have l1' : c < 1 := by exact_mod_cast l1
    have l2' : -1 < c := by exact_mod_cast l2
    omega
  rw [hc0]
  simp

/-- Instance of the hypothesis of C30. -/
example : ∀ s, 0 < s → s < 2 * 2 → ∃ j < 2 * 2, inBin [0, 1, 1] (2 * 2) 1 j ≠ inBin [0, 1, 1] (2 * 2) 1 ((j + s) % (2 * 2)) := by
  intro s h1 h2
  refine ⟨1, by norm_num, ?_⟩
  have : s = 1 ∨ s = 2 ∨ s = 3 := by omega
  rcases this with rfl | rfl | rfl <;> decide +kernel

/-- Instance of C28: three pairs at bin difference 1, counted around the end of the period. -/
example : pairsAt [0, 1, 3] [1, 2, 4] (2 * 2) 1 1 = 3 := by decide +kernel

/-! ## C31: significance -/

/-- **C31**: with the maximum as centre, the significance is defined exactly if there is any background bin, and then it is
not negative. -/
theorem C31_significance (hist : List ℝ) (hne : hist ≠ []) (res window : ℚ) (hr : 0 < res) (hw : 0 ≤ window)
    (stats : PeakStatistics ℝ) (h : getStatistics hist (some res) none window = .ok stats) :
    (stats.background ≠ [] → ∃ s, stats.significance = .ok s ∧ 0 ≤ s) ∧
    (stats.background = [] → stats.significance = .error .typeError) := by
  obtain ⟨p, st, hp, hs, lo, hi, blo, bhi, -, hlo, hhi, -, -, -, -, -, -, -, -, -, hsig, hbg⟩ :=
    C31_windows_partial hist hne res window hr hw
  obtain ⟨x, hx, hxmax⟩ := C31_signal_has_max hist hne res window hr hw stats h
  rw [h] at hs
  obtain rfl : stats = st := by simpa using hs
  refine ⟨?_, fun hb => by unfold PeakStatistics.significance; rw [if_pos hb]⟩
  intro hb
  unfold PeakStatistics.significance
  rw [if_neg hb]
  by_cases hstd : stdR stats.background = 0
  · rw [if_pos hstd]
    exact ⟨0, rfl, le_refl _⟩
  · rw [if_neg hstd]
    obtain ⟨y, ys, hy⟩ := List.exists_cons_of_ne_nil (List.ne_nil_of_mem hx)
    rw [hy]
    refine ⟨_, rfl, ?_⟩
    have hmax := foldl_maxR_le ys y x (by rw [← hy]; exact hx)
    have hmean : meanR stats.background ≤ x := by
      apply mean_le _ hb
      intro z hz
      apply hxmax
      rw [hbg] at hz
      rcases List.mem_append.mp hz with hz | hz
      · exact List.mem_of_mem_take (List.mem_of_mem_drop hz)
      · exact List.mem_of_mem_take (List.mem_of_mem_drop hz)
    have hs0 : 0 ≤ stdR stats.background := Real.sqrt_nonneg _
    have : 0 ≤ (ys.foldl max y - meanR stats.background) / stdR stats.background * 1000 :=
      mul_nonneg (div_nonneg (by linarith) hs0) (by norm_num)
    have := rneR_nonneg _ this
    have : (0 : ℝ) ≤ (rneR ((ys.foldl max y - meanR stats.background) / stdR stats.background * 1000) : ℝ) := by exact_mod_cast this
    linarith

end Fp
