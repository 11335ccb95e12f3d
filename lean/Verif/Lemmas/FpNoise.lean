import Verif.Spec.FpNoise
import Verif.Lemmas.FpFloat
import Verif.Props.FpThreshold

/-! Helper lemmas for `Verif/Props/FpNoise.lean`. -/
namespace Fp
open Spec

/-- The bins in which a pair at distance `D` up to `δ` can be. -/
theorem near_bin {x y res D δ : ℚ} {w : Nat} (hr : 0 < res) (hw : 2 * δ + 2 * res ≤ w * res) (h : |y - x - D| ≤ δ) :
    ∃ j < w, ⌊y / res⌋ - ⌊x / res⌋ = ⌊(D - δ) / res⌋ + (j : ℤ) ∧ |((⌊y / res⌋ - ⌊x / res⌋ : ℤ) : ℚ) * res - D| < res + δ := by
  have y1 := Int.floor_le (y / res)
  have y2 := Int.lt_floor_add_one (y / res)
  have x1 := Int.floor_le (x / res)
  have x2 := Int.lt_floor_add_one (x / res)
  rw [le_div_iff₀ hr] at y1 x1
  rw [div_lt_iff₀ hr] at y2 x2
  rw [abs_le] at h
  set i := ⌊y / res⌋
  set l := ⌊x / res⌋
  have q1 := Int.floor_le ((D - δ) / res)
  have q2 := Int.lt_floor_add_one ((D - δ) / res)
  rw [le_div_iff₀ hr] at q1
  rw [div_lt_iff₀ hr] at q2
  set q := ⌊(D - δ) / res⌋
  have lo : q < i - l + 1 := by
    have : (q : ℚ) * res < (i - l + 1 : ℚ) * res := by nlinarith [h.1]
    have := lt_of_mul_lt_mul_right this hr.le
    exact_mod_cast this
  have hi : i - l < q + w := by
    have : (i - l : ℚ) * res < (q + w : ℚ) * res := by nlinarith [h.2]
    have := lt_of_mul_lt_mul_right this hr.le
    exact_mod_cast this
  refine ⟨(i - l - q).toNat, by omega, by omega, ?_⟩
  rw [abs_lt]
  push_cast
  constructor <;> nlinarith [h.1, h.2]

theorem near_count (b : List ℚ) {x res D δ : ℚ} {w n : Nat} (hr : 0 < res) (hw : 2 * δ + 2 * res ≤ w * res) :
    (b.countP fun y => decide (|y - x - D| ≤ δ)) ≤ ∑ j ∈ (Finset.range w).filter (fun j : Nat => |((⌊(D - δ) / res⌋ + (j : ℤ) : ℤ) : ℚ) * res - D| < res + δ),
      b.countP fun y => decide (⌊y / res⌋ - ⌊x / res⌋ ≡ ⌊(D - δ) / res⌋ + (j : ℤ) [ZMOD (n : ℤ)]) := by
  induction b with
  | nil => simp
  | cons y b ih =>
    simp only [List.countP_cons, Finset.sum_add_distrib]
    refine Nat.add_le_add ih ?_
    split_ifs with h
    · rw [decide_eq_true_eq] at h
      obtain ⟨j, hj, he, hg⟩ := near_bin hr hw h
      refine le_trans ?_ (Finset.single_le_sum (f := fun j : Nat => if decide (⌊y / res⌋ - ⌊x / res⌋ ≡ ⌊(D - δ) / res⌋ + (j : ℤ) [ZMOD (n : ℤ)]) = true then 1 else 0)
        (fun _ _ => Nat.zero_le _) (a := j) (by
          rw [Finset.mem_filter, Finset.mem_range]
          refine ⟨hj, ?_⟩
          rw [← he]; exact hg))
      simp [he]
    · exact Nat.zero_le _

theorem near_pairs (a b : List ℚ) {res D δ : ℚ} {w n : Nat} (hr : 0 < res) (hw : 2 * δ + 2 * res ≤ w * res) :
    pairsNear a b D δ ≤ ∑ j ∈ (Finset.range w).filter (fun j : Nat => |((⌊(D - δ) / res⌋ + (j : ℤ) : ℤ) : ℚ) * res - D| < res + δ),
      pairsAt a b n res (⌊(D - δ) / res⌋ + (j : ℤ)) := by
  induction a with
  | nil => simp [pairsNear]
  | cons x a ih =>
    have e1 : pairsNear (x :: a) b D δ = (b.countP fun y => decide (|y - x - D| ≤ δ)) + pairsNear a b D δ := by
      simp [pairsNear]
    have e2 : ∀ k, pairsAt (x :: a) b n res k =
        (b.countP fun y => decide (⌊y / res⌋ - ⌊x / res⌋ ≡ k [ZMOD (n : ℤ)])) + pairsAt a b n res k := by
      intro k; simp [pairsAt]
    rw [e1]
    simp only [e2, Finset.sum_add_distrib]
    exact Nat.add_le_add (near_count b hr hw) ih

/-- One of the bins near `D` has its share of the true coincidences. -/
theorem near_share (a b : List ℚ) {res D δ : ℚ} {w n : Nat} (hr : 0 < res) (hw : 2 * δ + 2 * res ≤ w * res) (hM : 0 < pairsNear a b D δ) :
    ∃ i : ℤ, |(i : ℚ) * res - D| < res + δ ∧ pairsNear a b D δ ≤ w * pairsAt a b n res i := by
  by_contra hcon
  push Not at hcon
  have h1 := near_pairs a b (D := D) (n := n) hr hw
  set S := (Finset.range w).filter (fun j : Nat => |((⌊(D - δ) / res⌋ + (j : ℤ) : ℤ) : ℚ) * res - D| < res + δ) with hS
  have hcard : S.card ≤ w := by
    refine (Finset.card_filter_le (Finset.range w) _).trans ?_
    rw [Finset.card_range]
  have h2 : ∀ j ∈ S, w * pairsAt a b n res (⌊(D - δ) / res⌋ + (j : ℤ)) + 1 ≤ pairsNear a b D δ := by
    intro j hj
    rw [hS, Finset.mem_filter] at hj
    exact hcon _ hj.2
  have h3 := Finset.sum_le_sum h2
  rw [Finset.sum_add_distrib, ← Finset.mul_sum, Finset.sum_const, Finset.sum_const, smul_eq_mul, smul_eq_mul, mul_one] at h3
  have hSne : S.Nonempty := by
    by_contra hne
    rw [Finset.not_nonempty_iff_eq_empty] at hne
    rw [hne, Finset.sum_empty] at h1
    omega
  have hc : 0 < S.card := hSne.card_pos
  have h4 : w * pairsNear a b D δ ≤ w * ∑ j ∈ S, pairsAt a b n res (⌊(D - δ) / res⌋ + (j : ℤ)) := Nat.mul_le_mul_left w h1
  have h5 : S.card * pairsNear a b D δ ≤ w * pairsNear a b D δ := Nat.mul_le_mul_right _ hcard
  omega

/-- The position of the maximum of an accurate correlation whose true coincidences stand out. -/
theorem standsOut_argmax (a b : List ℚ) (n : Nat) (hn : 0 < n) {res D δ : ℚ} {w : Nat} (hr : 0 < res) (hs : StandsOut a b n res D δ w)
    {α : Type} [Field α] [LinearOrder α] [IsStrictOrderedRing α] (ys : List α) (hl : ys.length = n)
    (hy : ∀ (k : Nat) (x : α), ys[k]? = some x → |x - (pairsAt a b n res k : Nat)| < 1 / 2) :
    ∃ p, argmax ys = some p ∧ FirstMax ys p ∧ p < n ∧ NearBin n res D (res + δ) p := by
  obtain ⟨hw, hM, hbad⟩ := hs
  have hne : ys ≠ [] := by
    rintro rfl
    simp at hl; omega
  obtain ⟨p, h1, h2⟩ := argmax_spec ys hne
  have hplt : p < n := by rw [← hl]; exact firstMax_lt _ _ h2
  refine ⟨p, h1, h2, hplt, ?_⟩
  by_contra hcon
  have h3 := hbad p hplt hcon
  obtain ⟨i, hi1, hi2⟩ := near_share a b (n := n) hr hw hM
  have h4 : pairsAt a b n res p < pairsAt a b n res i := by
    have : w * pairsAt a b n res p < w * pairsAt a b n res i := lt_of_lt_of_le h3 hi2
    exact Nat.lt_of_mul_lt_mul_left this
  obtain ⟨j, hj⟩ : ∃ j : Nat, (j : ℤ) = i % (n : ℤ) := ⟨_, Int.toNat_of_nonneg (Int.emod_nonneg _ (by omega))⟩
  have hjlt : j < n := by
    have := Int.emod_lt_of_pos i (show (0 : ℤ) < (n : ℤ) by omega)
    omega
  have hjk : (j : ℤ) ≡ i [ZMOD (n : ℤ)] := by rw [hj]; exact Int.mod_modEq _ _
  rw [← pairsAt_congr a b n res hjk] at h4
  obtain ⟨x, hx1, hx2, -⟩ := h2
  have hjs : ys[j]? = some ys[j] := List.getElem?_eq_getElem (by omega)
  have e1 := abs_lt.mp (hy p x hx1)
  have e2 := abs_lt.mp (hy j _ hjs)
  have e3 := hx2 _ (List.mem_of_getElem? hjs)
  have e4 : ((pairsAt a b n res p : Nat) : α) + 1 ≤ ((pairsAt a b n res j : Nat) : α) := by exact_mod_cast h4
  linarith [e1.2, e2.1]

/-- Of the delays of a bin near `D` the smaller one is near `D`, if `D` is well within half a period. -/
theorem near_delay {n p : Nat} {res D ε d : ℚ} (hn : NearBin n res D ε p) (hD : |D| + ε ≤ n * res / 2)
    (h1 : SameDelay (n * res) d (p * res)) (h2 : |d| ≤ n * res / 2) : |d - D| < ε := by
  obtain ⟨m, hm⟩ := hn
  obtain ⟨k, hk⟩ := h1
  have hpos : 0 < |D| + ε := by
    have := abs_nonneg D
    have := lt_of_le_of_lt (abs_nonneg _) hm
    linarith
  have hnr : 0 < (n : ℚ) * res := by linarith
  have e : ((p : ℚ) + m * n) * res = d + ((m - k : ℤ) : ℚ) * (n * res) := by
    rw [hk]; push_cast; ring
  have hx : |((p : ℚ) + m * n) * res| < n * res / 2 := by
    have := abs_sub_abs_le_abs_sub (((p : ℚ) + m * n) * res) D
    push_cast at hm
    linarith
  have h3 : |((m - k : ℤ) : ℚ) * (n * res)| < n * res := by
    have : ((m - k : ℤ) : ℚ) * (n * res) = ((p : ℚ) + m * n) * res - d := by rw [e]; ring
    rw [this]
    have := abs_sub (((p : ℚ) + m * n) * res) d
    linarith
  have h4 : m - k = 0 := by
    rw [abs_mul, abs_of_pos hnr] at h3
    have h5 : |((m - k : ℤ) : ℚ)| < 1 := by
      by_contra hc
      rw [not_lt] at hc
      nlinarith
    rw [← Int.cast_abs] at h5
    have h6 : |m - k| < 1 := by exact_mod_cast h5
    exact Int.abs_lt_one_iff.mp h6
  rw [h4] at e
  push_cast at hm e
  rw [e] at hm
  simpa using hm

/-- A delay on a rounded time axis. -/
theorem near_delay_rounded {rnd : ℚ → ℚ} (hr : RelErr rnd) {n : Nat} {res D ε d : ℚ} (ys : List ℚ) (hl : ys.length = n)
    (hres : 0 < res) (hd : PeakDelay rnd ys res d) (hn : ∀ p, FirstMax ys p → NearBin n res D ε p) (hD : |D| + ε ≤ n * res / 2) :
    |d - D| < ε + (|D| + ε) / 2 ^ 53 := by
  obtain ⟨p, hp, hd⟩ := hd
  have hplt : p < n := by rw [← hl]; exact firstMax_lt _ _ hp
  -- the delay before rounding
  obtain ⟨x, hx1, hx2, hx3⟩ : ∃ x, |d - x| ≤ |x| / 2 ^ 53 ∧ SameDelay (n * res) x (p * res) ∧ |x| ≤ n * res / 2 := by
    rw [hl] at hd
    rcases hd with ⟨h1, rfl⟩ | ⟨h1, rfl⟩
    · refine ⟨p * res, hr _, ⟨0, by simp⟩, ?_⟩
      have : (2 * p : ℚ) < n := by exact_mod_cast h1
      rw [abs_of_nonneg (by positivity)]
      nlinarith
    · have e : ((n - p : Nat) : ℚ) = n - p := by rw [Nat.cast_sub hplt.le]
      refine ⟨-(((n - p : Nat) : ℚ) * res), ?_, ⟨-1, ?_⟩, ?_⟩
      · have := hr (((n - p : Nat) : ℚ) * res)
        rw [abs_neg, ← abs_neg, show -(-rnd (((n - p : Nat) : ℚ) * res) - -(((n - p : Nat) : ℚ) * res)) =
          rnd (((n - p : Nat) : ℚ) * res) - ((n - p : Nat) : ℚ) * res by ring]
        exact this
      · rw [e]; push_cast; ring
      · have : (n : ℚ) ≤ 2 * p := by exact_mod_cast h1
        rw [abs_neg, abs_of_nonneg (by positivity), e]
        nlinarith
  have h1 := near_delay (hn p hp) hD hx2 hx3
  have h2 : |x| ≤ |D| + ε := by
    have := abs_sub_abs_le_abs_sub x D
    linarith
  have h3 := abs_sub_le d x D
  have h4 : |x| / 2 ^ 53 ≤ (|D| + ε) / 2 ^ 53 := div_le_div_of_nonneg_right h2 (by positivity)
  linarith

end Fp
