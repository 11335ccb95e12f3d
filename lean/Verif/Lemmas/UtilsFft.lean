import Verif.Model.UtilsFft
import Verif.Lemmas.Utils
import Mathlib.Data.ZMod.Basic
import Mathlib.Algebra.BigOperators.Intervals
import Mathlib.Algebra.Field.GeomSum

/-! Helper lemmas for `Verif/Props/UtilsFft.lean`. -/
namespace Fp
open Spec

theorem cos_sum_full (n : Nat) (hn : 0 < n) (t : ℤ) :
    ∑ m ∈ Finset.range n, Real.cos (2 * Real.pi * (m * t) / n) = if (n : ℤ) ∣ t then (n : ℝ) else 0 := by
  have hn0 : (n : ℂ) ≠ 0 := by exact_mod_cast hn.ne'
  have hn1 : (n : ℝ) ≠ 0 := by exact_mod_cast hn.ne'
  have h1 : ∀ m : Nat, (Real.cos (2 * Real.pi * (m * t) / n) : ℝ) =
      ((Complex.exp (2 * Real.pi * Complex.I * t / n)) ^ m).re := by
    intro m
    rw [← Complex.exp_nat_mul]
    have : (m : ℂ) * (2 * Real.pi * Complex.I * t / n) = ((2 * Real.pi * (m * t) / n : ℝ) : ℂ) * Complex.I := by
      push_cast; ring
    rw [this, Complex.exp_ofReal_mul_I_re]
  rw [Finset.sum_congr rfl (fun m _ => h1 m), ← Complex.re_sum]
  by_cases hd : (n : ℤ) ∣ t
  · rw [if_pos hd]
    obtain ⟨c, rfl⟩ := hd
    have : Complex.exp (2 * Real.pi * Complex.I * ((n * c : ℤ) : ℂ) / n) = 1 := by
      rw [Complex.exp_eq_one_iff]
      exact ⟨c, by push_cast; field_simp⟩
    rw [this]
    simp
  · rw [if_neg hd]
    have hne : Complex.exp (2 * Real.pi * Complex.I * t / n) ≠ 1 := by
      intro h
      rw [Complex.exp_eq_one_iff] at h
      obtain ⟨c, hc⟩ := h
      apply hd
      refine ⟨c, ?_⟩
      have h2 : (t : ℂ) = n * c := by
        have hpi : (2 * Real.pi * Complex.I : ℂ) ≠ 0 := Complex.two_pi_I_ne_zero
        rw [div_eq_iff hn0] at hc
        have : (2 * Real.pi * Complex.I : ℂ) * t = (2 * Real.pi * Complex.I) * (n * c) := by rw [hc]; ring
        exact mul_left_cancel₀ hpi this
      exact_mod_cast h2
    have hpow : Complex.exp (2 * Real.pi * Complex.I * t / n) ^ n = 1 := by
      rw [← Complex.exp_nat_mul, Complex.exp_eq_one_iff]
      exact ⟨t, by field_simp⟩
    rw [geom_sum_eq hne, hpow]
    simp

theorem cos_sum_half (h : Nat) (hh : 0 < h) (t : ℤ) :
    1 + Real.cos (Real.pi * t) + 2 * ∑ m ∈ Finset.Ico 1 h, Real.cos (2 * Real.pi * (m * t) / ((2 * h : Nat) : ℝ)) =
      if ((2 * h : Nat) : ℤ) ∣ t then ((2 * h : Nat) : ℝ) else 0 := by
  rw [← cos_sum_full (2 * h) (by omega) t]
  have hh0 : (h : ℝ) ≠ 0 := by exact_mod_cast hh.ne'
  rw [Finset.range_eq_Ico, ← Finset.sum_Ico_consecutive _ (Nat.zero_le 1) (by omega : 1 ≤ 2 * h),
    ← Finset.sum_Ico_consecutive _ (by omega : 1 ≤ h) (by omega : h ≤ 2 * h),
    ← Finset.sum_Ico_consecutive _ (by omega : h ≤ h + 1) (by omega : h + 1 ≤ 2 * h)]
  have e1 : ∑ m ∈ Finset.Ico (0 : Nat) 1, Real.cos (2 * Real.pi * (m * t) / ((2 * h : Nat) : ℝ)) = 1 := by simp
  have e2 : ∑ m ∈ Finset.Ico h (h + 1), Real.cos (2 * Real.pi * (m * t) / ((2 * h : Nat) : ℝ)) = Real.cos (Real.pi * t) := by
    rw [Nat.Ico_succ_singleton, Finset.sum_singleton]
    congr 1
    push_cast
    field_simp
  have e3 : ∑ m ∈ Finset.Ico (h + 1) (2 * h), Real.cos (2 * Real.pi * (m * t) / ((2 * h : Nat) : ℝ)) =
      ∑ m ∈ Finset.Ico 1 h, Real.cos (2 * Real.pi * (m * t) / ((2 * h : Nat) : ℝ)) := by
    have := Finset.sum_Ico_reflect (fun m : Nat => Real.cos (2 * Real.pi * (m * t) / ((2 * h : Nat) : ℝ))) 1
      (show h ≤ 2 * h + 1 by omega)
    have e : 2 * h + 1 - h = h + 1 := by omega
    rw [e, show 2 * h + 1 - 1 = 2 * h by omega] at this
    rw [← this]
    apply Finset.sum_congr rfl
    intro m hm
    obtain ⟨hm1, hm2⟩ := Finset.mem_Ico.mp hm
    rw [Nat.cast_sub (by omega)]
    have : 2 * Real.pi * ((((2 * h : Nat) : ℝ) - m) * t) / ((2 * h : Nat) : ℝ) =
        t * (2 * Real.pi) - 2 * Real.pi * (m * t) / ((2 * h : Nat) : ℝ) := by
      push_cast
      field_simp
    rw [this, Real.cos_int_mul_two_pi_sub]
  rw [e1, e2, e3]
  ring

theorem rfft_get (x : List ℝ) (h : Nat) (hx : x.length = 2 * h) (m : Nat) (hm : m ≤ h) :
    (rfft x)[m]? = some (∑ j ∈ Finset.range (2 * h), ((x[j]?.getD 0 : ℝ) : ℂ) *
      Complex.exp (-(2 * Real.pi * Complex.I * ((j * m : Nat) : ℂ) / ((2 * h : Nat) : ℂ)))) := by
  unfold rfft
  rw [List.getElem?_map, List.getElem?_range (by omega), hx]
  rfl

theorem prod_re (n : Nat) (A B : Nat → ℝ) (m k : Nat) :
    ((starRingEnd ℂ (∑ j ∈ Finset.range n, (A j : ℂ) * Complex.exp (-(2 * Real.pi * Complex.I * ((j * m : Nat) : ℂ) / (n : ℂ)))) *
      (∑ l ∈ Finset.range n, (B l : ℂ) * Complex.exp (-(2 * Real.pi * Complex.I * ((l * m : Nat) : ℂ) / (n : ℂ))))) *
      Complex.exp (2 * Real.pi * Complex.I * ((m * k : Nat) : ℂ) / (n : ℂ))).re =
    ∑ j ∈ Finset.range n, ∑ l ∈ Finset.range n, A j * B l * Real.cos (2 * Real.pi * (m * ((j : ℤ) - l + k : ℤ)) / n) := by
  rw [map_sum, Finset.sum_mul_sum, Finset.sum_mul, Complex.re_sum]
  apply Finset.sum_congr rfl
  intro j _
  rw [Finset.sum_mul, Complex.re_sum]
  apply Finset.sum_congr rfl
  intro l _
  have e1 : starRingEnd ℂ ((A j : ℂ) * Complex.exp (-(2 * Real.pi * Complex.I * ((j * m : Nat) : ℂ) / (n : ℂ)))) =
      (A j : ℂ) * Complex.exp (2 * Real.pi * Complex.I * ((j * m : Nat) : ℂ) / (n : ℂ)) := by
    rw [map_mul, Complex.conj_ofReal, ← Complex.exp_conj]
    congr 2
    simp [map_div₀, map_ofNat]
    ring
  rw [e1]
  have e2 : (A j : ℂ) * Complex.exp (2 * Real.pi * Complex.I * ((j * m : Nat) : ℂ) / (n : ℂ)) *
      ((B l : ℂ) * Complex.exp (-(2 * Real.pi * Complex.I * ((l * m : Nat) : ℂ) / (n : ℂ)))) *
      Complex.exp (2 * Real.pi * Complex.I * ((m * k : Nat) : ℂ) / (n : ℂ)) =
      ((A j * B l : ℝ) : ℂ) * Complex.exp (((2 * Real.pi * (m * ((j : ℤ) - l + k : ℤ)) / n : ℝ) : ℂ) * Complex.I) := by
    have : ∀ x y z u v : ℂ, x * Complex.exp y * (z * Complex.exp u) * Complex.exp v = x * z * Complex.exp (y + u + v) := by
      intro x y z u v
      rw [Complex.exp_add, Complex.exp_add]; ring
    rw [this, Complex.ofReal_mul]
    congr 2
    push_cast
    ring
  rw [e2, Complex.re_ofReal_mul, Complex.exp_ofReal_mul_I_re]

/-- The correlation theorem for the model of the transforms: sum of products at index difference `k`. -/
theorem corr_get (a b : List ℝ) (h : Nat) (hh : 0 < h) (ha : a.length = 2 * h) (hb : b.length = 2 * h) (k : Nat)
    (hk : k < 2 * h) :
    (irfft (List.zipWith (fun a b => (starRingEnd ℂ) a * b) (rfft a) (rfft b)))[k]? =
      some (∑ j ∈ Finset.range (2 * h), ∑ l ∈ Finset.range (2 * h),
        if ((2 * h : Nat) : ℤ) ∣ (j : ℤ) - l + k then a[j]?.getD 0 * b[l]?.getD 0 else 0) := by
  have hlen : (List.zipWith (fun a b => (starRingEnd ℂ) a * b) (rfft a) (rfft b)).length = h + 1 := by
    rw [List.length_zipWith]
    unfold rfft
    rw [List.length_map, List.length_map, List.length_range, List.length_range, ha, hb]
    omega
  have hget : ∀ m ≤ h, (List.zipWith (fun a b => (starRingEnd ℂ) a * b) (rfft a) (rfft b))[m]?.getD 0 =
      starRingEnd ℂ (∑ j ∈ Finset.range (2 * h), ((a[j]?.getD 0 : ℝ) : ℂ) *
        Complex.exp (-(2 * Real.pi * Complex.I * ((j * m : Nat) : ℂ) / ((2 * h : Nat) : ℂ)))) *
      (∑ l ∈ Finset.range (2 * h), ((b[l]?.getD 0 : ℝ) : ℂ) *
        Complex.exp (-(2 * Real.pi * Complex.I * ((l * m : Nat) : ℂ) / ((2 * h : Nat) : ℂ)))) := by
    intro m hm
    rw [List.getElem?_zipWith, rfft_get a h ha m hm, rfft_get b h hb m hm]
    rfl
  unfold irfft
  simp only [hlen]
  rw [show 2 * (h + 1 - 1) = 2 * h by omega, List.getElem?_map, List.getElem?_range hk, show 2 * h / 2 = h by omega]
  simp only [Option.map_some, Option.some.injEq]
  have hn0 : ((2 * h : Nat) : ℝ) ≠ 0 := by exact_mod_cast (by omega : 2 * h ≠ 0)
  rw [div_eq_iff hn0]
  set A : Nat → ℝ := fun j => a[j]?.getD 0 with hA
  set B : Nat → ℝ := fun j => b[j]?.getD 0 with hB
  -- the three parts
  have p0 : ((List.zipWith (fun a b => (starRingEnd ℂ) a * b) (rfft a) (rfft b))[0]?.getD 0).re =
      ∑ j ∈ Finset.range (2 * h), ∑ l ∈ Finset.range (2 * h), A j * B l * 1 := by
    have := prod_re (2 * h) A B 0 k
    rw [hget 0 (by omega)]
    simp only [Nat.zero_mul, Nat.mul_zero, Nat.cast_zero, mul_zero, zero_div, Complex.exp_zero, mul_one, neg_zero, zero_mul,
      Real.cos_zero] at this ⊢
    exact this
  have ph : ((List.zipWith (fun a b => (starRingEnd ℂ) a * b) (rfft a) (rfft b))[h]?.getD 0).re * (-1) ^ k =
      ∑ j ∈ Finset.range (2 * h), ∑ l ∈ Finset.range (2 * h), A j * B l * Real.cos (Real.pi * ((j : ℤ) - l + k : ℤ)) := by
    have := prod_re (2 * h) A B h k
    rw [hget h le_rfl]
    have hexp : Complex.exp (2 * Real.pi * Complex.I * ((h * k : Nat) : ℂ) / ((2 * h : Nat) : ℂ)) = (((-1) ^ k : ℝ) : ℂ) := by
      have hh0 : (h : ℂ) ≠ 0 := by exact_mod_cast hh.ne'
      have : (2 * Real.pi * Complex.I * ((h * k : Nat) : ℂ) / ((2 * h : Nat) : ℂ)) = k * (Real.pi * Complex.I) := by
        push_cast
        field_simp
      rw [this, Complex.exp_nat_mul, Complex.exp_pi_mul_I]
      push_cast
      rfl
    rw [hexp, mul_comm (_ * _) (((-1) ^ k : ℝ) : ℂ), Complex.re_ofReal_mul, mul_comm] at this
    rw [this]
    apply Finset.sum_congr rfl
    intro j _
    apply Finset.sum_congr rfl
    intro l _
    congr 2
    have hh0 : (h : ℝ) ≠ 0 := by exact_mod_cast hh.ne'
    push_cast
    field_simp
  have pm : ∑ m ∈ Finset.Ico 1 h, ((List.zipWith (fun a b => (starRingEnd ℂ) a * b) (rfft a) (rfft b))[m]?.getD 0 *
        Complex.exp (2 * Real.pi * Complex.I * ((m * k : Nat) : ℂ) / ((2 * h : Nat) : ℂ))).re =
      ∑ j ∈ Finset.range (2 * h), ∑ l ∈ Finset.range (2 * h), A j * B l *
        ∑ m ∈ Finset.Ico 1 h, Real.cos (2 * Real.pi * (m * ((j : ℤ) - l + k : ℤ)) / ((2 * h : Nat) : ℝ)) := by
    have hm : ∀ m ∈ Finset.Ico 1 h, ((List.zipWith (fun a b => (starRingEnd ℂ) a * b) (rfft a) (rfft b))[m]?.getD 0 *
        Complex.exp (2 * Real.pi * Complex.I * ((m * k : Nat) : ℂ) / ((2 * h : Nat) : ℂ))).re =
        ∑ j ∈ Finset.range (2 * h), ∑ l ∈ Finset.range (2 * h), A j * B l *
          Real.cos (2 * Real.pi * (m * ((j : ℤ) - l + k : ℤ)) / ((2 * h : Nat) : ℝ)) := fun m hm => by
      rw [hget m (Finset.mem_Ico.mp hm).2.le]; exact prod_re (2 * h) A B m k
    rw [Finset.sum_congr rfl hm, Finset.sum_comm]
    apply Finset.sum_congr rfl
    intro j _
    rw [Finset.sum_comm]
    apply Finset.sum_congr rfl
    intro l _
    rw [Finset.mul_sum]
  rw [p0, ph, pm, Finset.sum_mul, Finset.mul_sum, ← Finset.sum_add_distrib, ← Finset.sum_add_distrib]
  apply Finset.sum_congr rfl
  intro j _
  rw [Finset.sum_mul, Finset.mul_sum, ← Finset.sum_add_distrib, ← Finset.sum_add_distrib]
  apply Finset.sum_congr rfl
  intro l _
  have key := cos_sum_half h hh ((j : ℤ) - l + k)
  have : A j * B l * 1 + A j * B l * Real.cos (Real.pi * ((j : ℤ) - l + k : ℤ)) + 2 * (A j * B l *
        ∑ m ∈ Finset.Ico 1 h, Real.cos (2 * Real.pi * (m * ((j : ℤ) - l + k : ℤ)) / ((2 * h : Nat) : ℝ))) =
      A j * B l * (1 + Real.cos (Real.pi * ((j : ℤ) - l + k : ℤ)) + 2 *
        ∑ m ∈ Finset.Ico 1 h, Real.cos (2 * Real.pi * (m * ((j : ℤ) - l + k : ℤ)) / ((2 * h : Nat) : ℝ))) := by ring
  rw [this, key]
  split_ifs <;> simp [hA, hB]

/-- Sums over bins are sums over events. -/
theorem sum_bins (a : List ℚ) (n : Nat) (bin : ℚ → Nat) (hb : ∀ t, bin t < n) (f : Nat → ℝ) :
    ∑ j ∈ Finset.range n, ((a.countP fun t => decide (bin t = j) : Nat) : ℝ) * f j = (a.map fun t => f (bin t)).sum := by
  induction a with
  | nil => simp
  | cons t a ih =>
    rw [List.map_cons, List.sum_cons, ← ih]
    have : f (bin t) = ∑ j ∈ Finset.range n, (if bin t = j then f j else 0) := by
      rw [Finset.sum_ite_eq, if_pos (Finset.mem_range.mpr (hb t))]
    rw [this, ← Finset.sum_add_distrib]
    apply Finset.sum_congr rfl
    intro j _
    rw [List.countP_cons]
    by_cases hj : bin t = j
    · simp [hj]; ring
    · simp [hj]

theorem countP_eq_sum (b : List ℚ) (p : ℚ → Bool) : ((b.countP p : Nat) : ℝ) = (b.map fun y => if p y then (1 : ℝ) else 0).sum := by
  induction b with
  | nil => simp
  | cons y b ih =>
    rw [List.countP_cons, List.map_cons, List.sum_cons, ← ih]
    by_cases h : p y = true
    · simp [h]; ring
    · simp [h]

theorem bins_get (arr : List ℚ) (n : Nat) (hn : 0 < n) (res : ℚ) (bins : List Nat)
    (h : generateBins arr n res = .ok bins) : bins.length = n ∧ ∀ j < n, ((bins.map (fun n : Nat => (n : ℝ)))[j]?.getD 0) =
      ((arr.countP fun t => decide (binOf n res t = j) : Nat) : ℝ) := by
  have hlt : ∀ v ∈ arr.map (binOf n res), v < n := by
    intro v hv
    obtain ⟨t, _, rfl⟩ := List.mem_map.mp hv
    exact binOf_lt n hn res t
  unfold generateBins at h
  split_ifs at h
  simp only [Except.ok.injEq] at h
  subst h
  unfold bincount
  rw [foldl_max_bound _ _ hlt]
  refine ⟨by simp, ?_⟩
  intro j hj
  rw [List.getElem?_map, List.getElem?_map, List.getElem?_range hj]
  simp only [Option.map_some, Option.getD_some, List.countP_map]
  rfl

theorem xcorr_core (a b : List ℚ) (h : Nat) (hh : 0 < h) (res : ℚ) (fa fb : List ℂ)
    (ha : generateFft a (2 * h) res = .ok fa) (hb : generateFft b (2 * h) res = .ok fb) :
    (getXcorr fa fb).length = 2 * h ∧ ∀ k < 2 * h, (getXcorr fa fb)[k]? = some ((pairsAt a b (2 * h) res k : Nat) : ℝ) := by
  unfold generateFft at ha hb
  cases hA : generateBins a (2 * h) res with
  | error e => rw [hA] at ha; cases ha
  | ok A =>
  cases hB : generateBins b (2 * h) res with
  | error e => rw [hB] at hb; cases hb
  | ok B =>
  rw [hA] at ha
  rw [hB] at hb
  simp only [Except.map, Except.ok.injEq] at ha hb
  obtain ⟨la, ga⟩ := bins_get a (2 * h) (by omega) res A hA
  obtain ⟨lb, gb⟩ := bins_get b (2 * h) (by omega) res B hB
  constructor
  · unfold getXcorr irfft
    rw [← ha, ← hb]
    simp only [List.length_map, List.length_range, List.length_zipWith, rfft, la, lb]
    omega
  · intro k hk
    unfold getXcorr
    rw [List.getElem?_map, ← ha, ← hb, corr_get _ _ h hh (by simpa using la) (by simpa using lb) k hk]
    simp only [Option.map_some, Option.some.injEq]
    have hsum : (∑ j ∈ Finset.range (2 * h), ∑ l ∈ Finset.range (2 * h),
        if ((2 * h : Nat) : ℤ) ∣ (j : ℤ) - l + k then
          (A.map (fun n : Nat => (n : ℝ)))[j]?.getD 0 * (B.map (fun n : Nat => (n : ℝ)))[l]?.getD 0 else 0) =
        ((pairsAt a b (2 * h) res k : Nat) : ℝ) := by
      have e1 : ∀ j ∈ Finset.range (2 * h), (∑ l ∈ Finset.range (2 * h),
          if ((2 * h : Nat) : ℤ) ∣ (j : ℤ) - l + k then
            (A.map (fun n : Nat => (n : ℝ)))[j]?.getD 0 * (B.map (fun n : Nat => (n : ℝ)))[l]?.getD 0 else 0) =
          ((a.countP fun t => decide (binOf (2 * h) res t = j) : Nat) : ℝ) *
            (b.map fun y => if ((2 * h : Nat) : ℤ) ∣ (j : ℤ) - (binOf (2 * h) res y : Nat) + k then (1 : ℝ) else 0).sum := by
        intro j hj
        rw [← sum_bins b (2 * h) (binOf (2 * h) res) (binOf_lt (2 * h) (by omega) res)
          (fun l => if ((2 * h : Nat) : ℤ) ∣ (j : ℤ) - l + k then (1 : ℝ) else 0), Finset.mul_sum]
        apply Finset.sum_congr rfl
        intro l hl
        rw [ga j (Finset.mem_range.mp hj), gb l (Finset.mem_range.mp hl)]
        split_ifs <;> simp
      rw [Finset.sum_congr rfl e1, sum_bins a (2 * h) (binOf (2 * h) res) (binOf_lt (2 * h) (by omega) res)
        (fun j => (b.map fun y => if ((2 * h : Nat) : ℤ) ∣ (j : ℤ) - (binOf (2 * h) res y : Nat) + k then (1 : ℝ) else 0).sum)]
      unfold pairsAt
      rw [Nat.cast_list_sum, List.map_map]
      congr 1
      apply List.map_congr_left
      intro x _
      simp only [Function.comp]
      rw [countP_eq_sum]
      congr 1
      apply List.map_congr_left
      intro y _
      have hmod : ∀ t : ℚ, ((binOf (2 * h) res t : Nat) : ℤ) = ⌊t / res⌋ % ((2 * h : Nat) : ℤ) := by
        intro t
        unfold binOf
        exact Int.toNat_of_nonneg (Int.emod_nonneg _ (by omega))
      have hiff : ((2 * h : Nat) : ℤ) ∣ ((binOf (2 * h) res x : Nat) : ℤ) - (binOf (2 * h) res y : Nat) + k ↔
          ⌊y / res⌋ - ⌊x / res⌋ ≡ (k : ℤ) [ZMOD ((2 * h : Nat) : ℤ)] := by
        rw [hmod, hmod, Int.modEq_iff_dvd]
        have e : ⌊x / res⌋ % ((2 * h : Nat) : ℤ) - ⌊y / res⌋ % ((2 * h : Nat) : ℤ) + k =
            ((k : ℤ) - (⌊y / res⌋ - ⌊x / res⌋)) + ((2 * h : Nat) : ℤ) * (⌊y / res⌋ / ((2 * h : Nat) : ℤ) - ⌊x / res⌋ / ((2 * h : Nat) : ℤ)) := by
          rw [Int.emod_def, Int.emod_def]; ring
        rw [e, dvd_add_left (Dvd.intro _ rfl)]
      simp only [hiff, decide_eq_true_eq]
    rw [hsum, abs_of_nonneg (Nat.cast_nonneg _)]

theorem sum_bins_zmod (n : Nat) [NeZero n] (a : List ℚ) (bin : ℚ → ZMod n) (f : ZMod n → ℤ) :
    (a.map fun t => f (bin t)).sum = ∑ j : ZMod n, ((a.countP fun t => decide (bin t = j) : Nat) : ℤ) * f j := by
  induction a with
  | nil => simp
  | cons t a ih =>
    rw [List.map_cons, List.sum_cons, ih]
    have : f (bin t) = ∑ j : ZMod n, (if bin t = j then f j else 0) := by
      rw [Finset.sum_ite_eq, if_pos (Finset.mem_univ _)]
    rw [this, ← Finset.sum_add_distrib]
    apply Finset.sum_congr rfl
    intro j _
    rw [List.countP_cons]
    by_cases hj : bin t = j
    · simp [hj]; ring
    · simp [hj]

/-- Autocorrelation of a periodic sequence is strictly largest at zero, unless the shifted sequence is the same. -/
theorem autocorr_lt (n : Nat) [NeZero n] (A : ZMod n → ℤ) (s : ZMod n) (h : ∃ j, A j ≠ A (j + s)) :
    ∑ j, A j * A (j + s) < ∑ j, A j * A j := by
  have h1 : ∑ j, A (j + s) * A (j + s) = ∑ j, A j * A j := Equiv.sum_comp (Equiv.addRight s) (fun j => A j * A j)
  have h2 : 0 < ∑ j, (A j - A (j + s)) ^ 2 := by
    obtain ⟨j, hj⟩ := h
    apply Finset.sum_pos'
    · intro i _; positivity
    · exact ⟨j, Finset.mem_univ _, by have := sub_ne_zero.mpr hj; positivity⟩
  have h3 : ∑ j, (A j - A (j + s)) ^ 2 = ∑ j, A j * A j - 2 * ∑ j, A j * A (j + s) + ∑ j, A (j + s) * A (j + s) := by
    rw [Finset.mul_sum, ← Finset.sum_sub_distrib, ← Finset.sum_add_distrib]
    apply Finset.sum_congr rfl
    intro j _
    ring
  omega

theorem floor_shift (t res : ℚ) (hr : 0 < res) (d : ℤ) : ⌊(t + d * res) / res⌋ = ⌊t / res⌋ + d := by
  rw [add_div, mul_div_cancel_right₀ _ hr.ne', Int.floor_add_intCast]

theorem pairs_shift (n : Nat) [NeZero n] (a : List ℚ) (res : ℚ) (hr : 0 < res) (d k : ℤ) :
    ((pairsAt a (a.map (· + d * res)) n res k : Nat) : ℤ) =
      ∑ j : ZMod n, ((a.countP fun t => decide (((⌊t / res⌋ : ℤ) : ZMod n) = j) : Nat) : ℤ) *
        ((a.countP fun t => decide (((⌊t / res⌋ : ℤ) : ZMod n) = j + ((k - d : ℤ) : ZMod n)) : Nat) : ℤ) := by
  rw [← sum_bins_zmod n a (fun t => ((⌊t / res⌋ : ℤ) : ZMod n))
    (fun j => ((a.countP fun t => decide (((⌊t / res⌋ : ℤ) : ZMod n) = j + ((k - d : ℤ) : ZMod n)) : Nat) : ℤ))]
  unfold pairsAt
  rw [Nat.cast_list_sum, List.map_map]
  congr 1
  apply List.map_congr_left
  intro x _
  simp only [Function.comp, List.countP_map]
  congr 2
  funext y
  simp only [Function.comp, decide_eq_decide]
  rw [floor_shift y res hr d, ← ZMod.intCast_eq_intCast_iff]
  push_cast
  constructor
  · intro h
    rw [← h]; ring
  · intro h
    rw [h]; ring

theorem rneR_nonneg (x : ℝ) (h : 0 ≤ x) : 0 ≤ rneR x := by
  have := Int.floor_nonneg.mpr h
  unfold rneR
  split_ifs <;> omega

theorem mean_le (l : List ℝ) (hl : l ≠ []) (M : ℝ) (h : ∀ x ∈ l, x ≤ M) : meanR l ≤ M := by
  unfold meanR
  have hpos : (0 : ℝ) < l.length := by exact_mod_cast List.length_pos_of_ne_nil hl
  rw [div_le_iff₀ hpos]
  have := List.sum_le_card_nsmul l M h
  rw [nsmul_eq_mul] at this
  linarith

theorem foldl_maxR_le (vs : List ℝ) (v : ℝ) : ∀ x ∈ v :: vs, x ≤ vs.foldl max v := by
  induction vs generalizing v with
  | nil => simp
  | cons w vs ih =>
    intro x hx
    rw [List.foldl_cons]
    have h3 := ih (max v w) (max v w) (by simp)
    simp only [List.mem_cons] at hx
    rcases hx with rfl | rfl | hx
    · exact (le_max_left _ _).trans h3
    · exact (le_max_right _ _).trans h3
    · exact ih (max v w) x (by simp [hx])

end Fp
