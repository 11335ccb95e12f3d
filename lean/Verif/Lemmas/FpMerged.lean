import Verif.Spec.FpConverge
import Verif.Props.FpNoiseRun

/-! Helper lemmas for `Verif/Props/FpConverge.lean`: merged bins of the first correlation. -/
namespace Fp
open Spec

theorem pairsInBlock_sum (a b : List ℚ) (n : Nat) (res : ℚ) (j : Nat) (k : ℤ) :
    pairsInBlock a b n res j k = ∑ i ∈ Finset.range (2 ^ j), pairsAt a b n res (k * 2 ^ j + (i : ℤ)) := rfl

theorem pairsInBlock_congr (a b : List ℚ) {n : Nat} (res : ℚ) {j : Nat} (hd : 2 ^ j ∣ n) {k k' : ℤ}
    (h : k ≡ k' [ZMOD ((n / 2 ^ j : Nat) : ℤ)]) : pairsInBlock a b n res j k = pairsInBlock a b n res j k' := by
  rw [pairsInBlock_sum, pairsInBlock_sum]
  refine Finset.sum_congr rfl fun i _ => pairsAt_congr a b n res ?_
  apply Int.ModEq.add_right
  have := h.mul_right' (c := 2 ^ j)
  have e : ((n / 2 ^ j : Nat) : ℤ) * 2 ^ j = (n : ℤ) := by
    have := Nat.div_mul_cancel hd
    exact_mod_cast this
  rwa [e] at this

/-- The blocks in which a pair at distance `D` up to `δ` can be. -/
theorem near_block {x y res D δ : ℚ} {w j : Nat} (hr : 0 < res) (hw : 2 * δ + 2 * (2 ^ j * res) ≤ w * (2 ^ j * res))
    (h : |y - x - D| ≤ δ) :
    ∃ t < w, ∃ i : Nat, i < 2 ^ j ∧ ⌊y / res⌋ - ⌊x / res⌋ = (⌊(D - δ) / (2 ^ j * res)⌋ + (t : ℤ)) * 2 ^ j + (i : ℤ) ∧
      |((⌊(D - δ) / (2 ^ j * res)⌋ + (t : ℤ) : ℤ) : ℚ) * (2 ^ j * res) - D| < 2 ^ j * res + δ := by
  have y1 := Int.floor_le (y / res)
  have y2 := Int.lt_floor_add_one (y / res)
  have x1 := Int.floor_le (x / res)
  have x2 := Int.lt_floor_add_one (x / res)
  rw [le_div_iff₀ hr] at y1 x1
  rw [div_lt_iff₀ hr] at y2 x2
  rw [abs_le] at h
  obtain ⟨m, hm⟩ : ∃ m : ℤ, m = ⌊y / res⌋ - ⌊x / res⌋ := ⟨_, rfl⟩
  have hmq : (m : ℚ) = ⌊y / res⌋ - ⌊x / res⌋ := by rw [hm]; push_cast; ring
  have m1 : D - δ < (m + 1) * res := by rw [hmq]; nlinarith [h.1]
  have m2 : (m : ℚ) * res < D + δ + res := by rw [hmq]; nlinarith [h.2]
  have hp1 : (1 : ℚ) ≤ 2 ^ j := one_le_pow₀ (by norm_num)
  obtain ⟨r, hrd⟩ : ∃ r : ℚ, r = 2 ^ j * res := ⟨_, rfl⟩
  have hrr : res ≤ r := by rw [hrd]; nlinarith
  have hr0 : 0 < r := lt_of_lt_of_le hr hrr
  rw [← hrd] at hw ⊢
  have q1 := Int.floor_le ((D - δ) / r)
  have q2 := Int.lt_floor_add_one ((D - δ) / r)
  rw [le_div_iff₀ hr0] at q1
  rw [div_lt_iff₀ hr0] at q2
  set q := ⌊(D - δ) / r⌋
  obtain ⟨K, hK⟩ : ∃ K : ℤ, K = m / 2 ^ j := ⟨_, rfl⟩
  obtain ⟨i, hi⟩ : ∃ i : ℤ, i = m % 2 ^ j := ⟨_, rfl⟩
  have hpz : (0 : ℤ) < 2 ^ j := by positivity
  have hi0 : 0 ≤ i := by rw [hi]; exact Int.emod_nonneg _ hpz.ne'
  have hi1 : i < 2 ^ j := by rw [hi]; exact Int.emod_lt_of_pos _ hpz
  have hmKi : m = K * 2 ^ j + i := by
    rw [hK, hi]
    have := Int.mul_ediv_add_emod m (2 ^ j)
    linarith
  have hmKq : (m : ℚ) = K * 2 ^ j + i := by exact_mod_cast hmKi
  have hi0q : (0 : ℚ) ≤ i := by exact_mod_cast hi0
  have hi1q : (i : ℚ) + 1 ≤ 2 ^ j := by exact_mod_cast hi1
  have k1 : (K : ℚ) * r ≤ m * res := by
    have e : (m : ℚ) * res = K * r + i * res := by rw [hmKq, hrd]; ring
    have : 0 ≤ (i : ℚ) * res := by positivity
    linarith
  have k2 : (m + 1 : ℚ) * res ≤ (K + 1) * r := by
    have e : (m + 1 : ℚ) * res = K * r + (i + 1) * res := by rw [hmKq, hrd]; ring
    have : ((i : ℚ) + 1) * res ≤ 2 ^ j * res := mul_le_mul_of_nonneg_right hi1q hr.le
    rw [e]
    linarith
  have lo : q < K + 1 := by
    have : (q : ℚ) * r < (K + 1) * r := by linarith
    have := lt_of_mul_lt_mul_right this hr0.le
    exact_mod_cast this
  have hi' : K < q + w := by
    have : (K : ℚ) * r < (q + w) * r := by nlinarith
    have := lt_of_mul_lt_mul_right this hr0.le
    exact_mod_cast this
  have hKq : q + ((K - q).toNat : ℤ) = K := by omega
  refine ⟨(K - q).toNat, by omega, i.toNat, ?_, ?_, ?_⟩
  · have : ((i.toNat : ℤ)) < ((2 ^ j : Nat) : ℤ) := by
      rw [Int.toNat_of_nonneg hi0]
      exact_mod_cast hi1
    exact_mod_cast this
  · rw [hKq, Int.toNat_of_nonneg hi0, ← hm]
    exact hmKi
  · rw [hKq, abs_lt]
    constructor <;> linarith

theorem near_block_count (b : List ℚ) {x res D δ : ℚ} {w n j : Nat} (hr : 0 < res)
    (hw : 2 * δ + 2 * (2 ^ j * res) ≤ w * (2 ^ j * res)) :
    (b.countP fun y => decide (|y - x - D| ≤ δ)) ≤
      ∑ t ∈ (Finset.range w).filter (fun t : Nat => |((⌊(D - δ) / (2 ^ j * res)⌋ + (t : ℤ) : ℤ) : ℚ) * (2 ^ j * res) - D| < 2 ^ j * res + δ),
        ∑ i ∈ Finset.range (2 ^ j),
          b.countP fun y => decide (⌊y / res⌋ - ⌊x / res⌋ ≡ (⌊(D - δ) / (2 ^ j * res)⌋ + (t : ℤ)) * 2 ^ j + (i : ℤ) [ZMOD (n : ℤ)]) := by
  induction b with
  | nil => simp
  | cons y b ih =>
    simp only [List.countP_cons, Finset.sum_add_distrib]
    refine Nat.add_le_add ih ?_
    split_ifs with h
    · rw [decide_eq_true_eq] at h
      obtain ⟨t, ht, i, hi, he, hg⟩ := near_block hr hw h
      refine le_trans ?_ (Finset.single_le_sum (f := fun t : Nat => ∑ i ∈ Finset.range (2 ^ j),
          if decide (⌊y / res⌋ - ⌊x / res⌋ ≡ (⌊(D - δ) / (2 ^ j * res)⌋ + (t : ℤ)) * 2 ^ j + (i : ℤ) [ZMOD (n : ℤ)]) = true then 1 else 0)
        (fun _ _ => Nat.zero_le _) (a := t) (by
          rw [Finset.mem_filter, Finset.mem_range]
          exact ⟨ht, hg⟩))
      refine le_trans ?_ (Finset.single_le_sum (f := fun i : Nat =>
          if decide (⌊y / res⌋ - ⌊x / res⌋ ≡ (⌊(D - δ) / (2 ^ j * res)⌋ + (t : ℤ)) * 2 ^ j + (i : ℤ) [ZMOD (n : ℤ)]) = true then 1 else 0)
        (fun _ _ => Nat.zero_le _) (a := i) (Finset.mem_range.mpr hi))
      simp [he]
    · exact Nat.zero_le _

theorem near_block_pairs (a b : List ℚ) {res D δ : ℚ} {w n j : Nat} (hr : 0 < res)
    (hw : 2 * δ + 2 * (2 ^ j * res) ≤ w * (2 ^ j * res)) :
    pairsNear a b D δ ≤
      ∑ t ∈ (Finset.range w).filter (fun t : Nat => |((⌊(D - δ) / (2 ^ j * res)⌋ + (t : ℤ) : ℤ) : ℚ) * (2 ^ j * res) - D| < 2 ^ j * res + δ),
        pairsInBlock a b n res j (⌊(D - δ) / (2 ^ j * res)⌋ + (t : ℤ)) := by
  induction a with
  | nil => simp [pairsNear]
  | cons x a ih =>
    have e1 : pairsNear (x :: a) b D δ = (b.countP fun y => decide (|y - x - D| ≤ δ)) + pairsNear a b D δ := by
      simp [pairsNear]
    have e2 : ∀ k, pairsAt (x :: a) b n res k =
        (b.countP fun y => decide (⌊y / res⌋ - ⌊x / res⌋ ≡ k [ZMOD (n : ℤ)])) + pairsAt a b n res k := by
      intro k; simp [pairsAt]
    have e3 : ∀ k, pairsInBlock (x :: a) b n res j k =
        (∑ i ∈ Finset.range (2 ^ j), b.countP fun y => decide (⌊y / res⌋ - ⌊x / res⌋ ≡ k * 2 ^ j + (i : ℤ) [ZMOD (n : ℤ)])) +
          pairsInBlock a b n res j k := by
      intro k
      rw [pairsInBlock_sum, pairsInBlock_sum, ← Finset.sum_add_distrib]
      exact Finset.sum_congr rfl fun i _ => e2 _
    rw [e1]
    simp only [e3, Finset.sum_add_distrib]
    exact Nat.add_le_add (near_block_count b hr hw) ih

/-- One of the blocks near `D` has its share of the true coincidences. -/
theorem near_block_share (a b : List ℚ) {res D δ : ℚ} {w n j : Nat} (hr : 0 < res)
    (hw : 2 * δ + 2 * (2 ^ j * res) ≤ w * (2 ^ j * res)) (hM : 0 < pairsNear a b D δ) :
    ∃ k : ℤ, |(k : ℚ) * (2 ^ j * res) - D| < 2 ^ j * res + δ ∧ pairsNear a b D δ ≤ w * pairsInBlock a b n res j k := by
  by_contra hcon
  push Not at hcon
  have h1 := near_block_pairs a b (D := D) (n := n) hr hw
  set S := (Finset.range w).filter (fun t : Nat => |((⌊(D - δ) / (2 ^ j * res)⌋ + (t : ℤ) : ℤ) : ℚ) * (2 ^ j * res) - D| < 2 ^ j * res + δ) with hS
  have hcard : S.card ≤ w := by
    refine (Finset.card_filter_le (Finset.range w) _).trans ?_
    rw [Finset.card_range]
  have h2 : ∀ t ∈ S, w * pairsInBlock a b n res j (⌊(D - δ) / (2 ^ j * res)⌋ + (t : ℤ)) + 1 ≤ pairsNear a b D δ := by
    intro t ht
    rw [hS, Finset.mem_filter] at ht
    exact hcon _ ht.2
  have h3 := Finset.sum_le_sum h2
  rw [Finset.sum_add_distrib, ← Finset.mul_sum, Finset.sum_const, Finset.sum_const, smul_eq_mul, smul_eq_mul, mul_one] at h3
  have hSne : S.Nonempty := by
    by_contra hne
    rw [Finset.not_nonempty_iff_eq_empty] at hne
    rw [hne, Finset.sum_empty] at h1
    omega
  have hc : 0 < S.card := hSne.card_pos
  have h4 : w * pairsNear a b D δ ≤ w * ∑ t ∈ S, pairsInBlock a b n res j (⌊(D - δ) / (2 ^ j * res)⌋ + (t : ℤ)) := Nat.mul_le_mul_left w h1
  have h5 : S.card * pairsNear a b D δ ≤ w * pairsNear a b D δ := Nat.mul_le_mul_right _ hcard
  omega

/-- The position of the maximum of a merged correlation. -/
theorem merged_argmax (a b : List ℚ) (n : Nat) {res D δ : ℚ} {w j : Nat} (hd : 2 ^ j ∣ n) (hn : 0 < n) (hr : 0 < res)
    (hs : StandsOutMerged a b n res j D δ w) (zs : List ℚ) (hl : zs.length = n / 2 ^ j)
    (hy : ∀ (k : Nat) (x : ℚ), zs[k]? = some x → |x - (pairsInBlock a b n res j k : Nat)| < 1 / 2) (p : Nat) (h2 : FirstMax zs p) :
    NearBin (n / 2 ^ j) (2 ^ j * res) D (2 ^ j * res + δ) p := by
  obtain ⟨hw, hM, hbad⟩ := hs
  have hn' : 0 < n / 2 ^ j := Nat.div_pos (Nat.le_of_dvd hn hd) (by positivity)
  generalize hN : n / 2 ^ j = N at *
  have hplt : p < N := by rw [← hl]; exact firstMax_lt _ _ h2
  by_contra hcon
  have h3 := hbad p hplt hcon
  obtain ⟨i, hi1, hi2⟩ := near_block_share a b (n := n) hr hw hM
  have h4 : pairsInBlock a b n res j p < pairsInBlock a b n res j i := by
    have : w * pairsInBlock a b n res j p < w * pairsInBlock a b n res j i := lt_of_lt_of_le h3 hi2
    exact Nat.lt_of_mul_lt_mul_left this
  obtain ⟨m, hm⟩ : ∃ m : Nat, (m : ℤ) = i % (N : ℤ) := ⟨_, Int.toNat_of_nonneg (Int.emod_nonneg _ (by omega))⟩
  have hmlt : m < N := by
    have := Int.emod_lt_of_pos i (show (0 : ℤ) < (N : ℤ) by omega)
    omega
  have hmk : (m : ℤ) ≡ i [ZMOD (N : ℤ)] := by rw [hm]; exact Int.mod_modEq _ _
  have hcg : pairsInBlock a b n res j m = pairsInBlock a b n res j i := pairsInBlock_congr a b res hd (by rw [hN]; exact hmk)
  rw [← hcg] at h4
  obtain ⟨x, hx1, hx2, -⟩ := h2
  have hms : zs[m]? = some zs[m] := List.getElem?_eq_getElem (by omega)
  have e1 := abs_lt.mp (hy p x hx1)
  have e2 := abs_lt.mp (hy m _ hms)
  have e3 := hx2 _ (List.mem_of_getElem? hms)
  have e4 : ((pairsInBlock a b n res j p : Nat) : ℚ) + 1 ≤ ((pairsInBlock a b n res j m : Nat) : ℚ) := by exact_mod_cast h4
  linarith [e1.2, e2.1]

/-- The first early correlation of a run, and the delay of its merged peak. -/
theorem clear_merged (P : TFParams) (hr : P.rnd = fl 53) (hra : P.rndA = fl 64) (hn64 : P.numBins < 2 ^ 64) (hn : 0 < P.numBins)
    (bts : List ℚ) (res D δ : ℚ) (j w : Nat) (hr0 : 0 < res) (hdvd : 2 ^ j ∣ P.numBins) (h : ClearMerged P bts res j D δ w) :
    ∃ ys d0, tfCorrelate P bts res 0 (tfDuration P res) = .ok (ys, d0) ∧ ys.length = P.numBins ∧ PeakDelay P.rnd ys res d0 ∧
      ∀ d, PeakDelay P.rnd (merged ys j) (2 ^ j * res) d → |d - D| < 2 ^ j * res + δ + (|D| + (2 ^ j * res + δ)) / 2 ^ 53 := by
  obtain ⟨k1, k2, k3, k4⟩ := h
  obtain ⟨hl, hy⟩ := k3
  have hM := k2.2.1
  rw [duration_float P hr hra res]
  have hrel : RelErr P.rnd := by rw [hr]; exact C34_relErr.1
  have h0 : P.rnd 0 = 0 := by
    have := hrel 0
    simpa using this
  obtain ⟨v, hv, hc⟩ := correlate_windows P hra P.numBins hn64 rfl hn bts res 0 _ hr0 (window_bins hr0 k1 _) (window_bins hr0 k1 _)
    (by intro hc; rw [hc] at hM; simp [pairsNear] at hM) (by intro hc; rw [hc] at hM; simp [pairsNear] at hM) _ rfl hl
  refine ⟨_, v.1, hc, hl, peakDelay_iff P.rnd h0 _ res v (by rw [hl]; exact hv), fun d hd => ?_⟩
  have hml : (merged (P.xcorr (histogram (inWindowR P.rndA 0 (acqDurationFl P.numBins res P.duration P.endTime) P.ats) P.numBins res)
      (histogram (inWindowR P.rndA 0 (acqDurationFl P.numBins res P.duration P.endTime) bts) P.numBins res)) j).length =
      P.numBins / 2 ^ j := by
    unfold merged
    rw [List.length_map, List.length_range, hl]
  refine near_delay_rounded hrel _ hml (by positivity) hd (fun p hp => ?_) ?_
  · refine merged_argmax _ _ P.numBins hdvd hn hr0 k2 _ hml (fun k x hx => ?_) p hp
    have hk := (List.getElem?_eq_some_iff.mp hx).1
    rw [hml] at hk
    have := hy k hk
    unfold merged at hx
    rw [List.getElem?_map, List.getElem?_range (by rw [hl]; exact hk)] at hx
    simp only [Option.map_some, Option.some.injEq] at hx
    rw [← hx]
    exact this
  · have e : ((P.numBins / 2 ^ j : Nat) : ℚ) * (2 ^ j * res) = P.numBins * res := by
      have := Nat.div_mul_cancel hdvd
      have h2 : ((P.numBins / 2 ^ j : Nat) : ℚ) * 2 ^ j = P.numBins := by exact_mod_cast this
      rw [← mul_assoc, h2]
    rw [e]
    exact k4

end Fp
