import Verif.Spec.Detune
import Verif.Props.RawA1
import Verif.Props.RawText
import Verif.Lemmas.FpMain

/-! Helper lemmas for `Verif/Props/Detune.lean`. -/
namespace Fp
open Spec

theorem consolidate_floor (fw : Nat) (res : Tsres) (x : ℚ) (p : Nat) (hx : fl fw x = x) (h0 : 0 ≤ x)
    (hlt : ⌊x * 256 / res.value⌋ < 2 ^ 54) (hp : p < 1024) :
    consolidate fw res (.flt x, p) = ⌊x * 256 / res.value⌋.toNat * 1024 + p := by
  unfold consolidate
  simp only [Num.val]
  rw [hx, Tsres.ratio]
  have h1 : fl fw (x * ((2 ^ res.shift : Nat) : ℚ)) = x * 256 / res.value := by
    have := fl_mul_zpow fw x res.shift
    rw [zpow_natCast] at this
    push_cast
    rw [this, hx]
    cases res <;> norm_num [Tsres.shift, Tsres.value] <;> ring
  rw [h1]
  simp only [Num.toU64]
  have h2 : 0 ≤ ⌊x * 256 / (res.value : ℚ)⌋ := Int.floor_nonneg.mpr (by positivity)
  generalize ⌊x * 256 / (res.value : ℚ)⌋ = n at *
  obtain ⟨m, rfl⟩ := Int.eq_ofNat_of_zero_le h2
  rw [Int.toNat_natCast]
  have : m < 2 ^ 54 := by exact_mod_cast hlt
  rw [Nat.mod_eq_of_lt (show m < 2 ^ 64 by omega), Nat.shiftLeft_eq]
  omega

theorem rne_neg (x : ℚ) : rne (-x) = -rne x := by
  by_cases hx : x = (⌊x⌋ : ℤ)
  · rw [hx]
    have := rne_int (-⌊x⌋)
    push_cast at this
    rw [this, rne_int]
  · have h1 := Int.floor_le x
    have h2 := Int.lt_floor_add_one x
    have h3 : (⌊x⌋ : ℚ) < x := lt_of_le_of_ne h1 (Ne.symm hx)
    have hf : ⌊-x⌋ = -⌊x⌋ - 1 := by
      rw [Int.floor_eq_iff]
      push_cast
      constructor <;> linarith
    unfold rne
    rw [hf]
    push_cast
    split_ifs <;> first | omega | (exfalso; linarith)

theorem fl_neg (p : ℕ) (x : ℚ) : fl p (-x) = -fl p x := by
  unfold fl
  by_cases h : x = 0
  · simp [h]
  · rw [if_neg h, if_neg (neg_ne_zero.mpr h), abs_neg, neg_div, rne_neg]
    push_cast
    ring

theorem fl_idem (p : ℕ) (hp : 1 ≤ p) (x : ℚ) : fl p (fl p x) = fl p x := by
  rcases le_total 0 x with h | h
  · exact fl_fl p hp x h
  · have := fl_fl p hp (-x) (by linarith)
    rw [fl_neg, fl_neg] at this
    linarith

/-- The error of one detuned time. -/
theorem detune_error (ratio offset t0 d : ℚ) (hd : 0 ≤ d) (hr : 0 ≤ 1 + ratio) :
    |fl 64 (fl 64 (fl 64 (d * fl 53 (1 + ratio)) + t0) + offset) - (t0 + d * (1 + ratio) + offset)| ≤
      d * (1 + ratio) / 2 ^ 53 + (|t0| + d * (1 + ratio) + |offset|) / 2 ^ 62 := by
  have e1 := fl_err 53 (1 + ratio)
  rw [abs_of_nonneg hr] at e1
  set g := fl 53 (1 + ratio)
  have e2 := fl_err 64 (d * g)
  set x2 := fl 64 (d * g)
  have e3 := fl_err 64 (x2 + t0)
  set x3 := fl 64 (x2 + t0)
  have e4 := fl_err 64 (x3 + offset)
  set x4 := fl 64 (x3 + offset)
  set r := 1 + ratio
  set y := d * r with hy
  have hy0 : 0 ≤ y := by positivity
  have f1 : |d * g - y| ≤ y / 2 ^ 53 := by
    rw [hy, ← mul_sub, abs_mul, abs_of_nonneg hd]
    have := mul_le_mul_of_nonneg_left e1 hd
    norm_num [zpow_neg] at this ⊢
    linarith
  have hdg : |d * g| ≤ y + y / 2 ^ 53 := by
    have := abs_add_le (d * g - y) y
    rw [sub_add_cancel, abs_of_nonneg hy0] at this
    linarith
  set M := |t0| + y + |offset| with hM
  have hM0 : 0 ≤ M := by positivity
  have ht0 := abs_nonneg t0
  have hoff := abs_nonneg offset
  have hyM : y ≤ M := by rw [hM]; linarith
  have f2 : |x2 - d * g| ≤ M / 2 ^ 63 := by
    norm_num [zpow_neg] at e2 hdg ⊢
    linarith
  have f2' : |x2 - y| ≤ y / 2 ^ 53 + M / 2 ^ 63 := by
    have := abs_sub_le x2 (d * g) y
    linarith
  have f3' : |x2 + t0| ≤ |t0| + y + y / 2 ^ 53 + M / 2 ^ 63 := by
    have h1 := abs_add_le (x2 - y) (y + t0)
    rw [show x2 - y + (y + t0) = x2 + t0 by ring] at h1
    have h2 := abs_add_le y t0
    rw [abs_of_nonneg hy0] at h2
    linarith
  have f3 : |x3 - (x2 + t0)| ≤ M / 2 ^ 64 * (1 + 1 / 2 ^ 50) := by
    norm_num [zpow_neg] at e3 f3' ⊢
    linarith
  have f4' : |x3 + offset| ≤ M + y / 2 ^ 53 + M / 2 ^ 62 := by
    have h1 := abs_add_le (x3 - (x2 + t0)) (x2 - y + (y + t0 + offset))
    rw [show x3 - (x2 + t0) + (x2 - y + (y + t0 + offset)) = x3 + offset by ring] at h1
    have h2 := abs_add_le (x2 - y) (y + t0 + offset)
    have h3 := abs_add_three y t0 offset
    rw [abs_of_nonneg hy0] at h3
    have : |x3 - (x2 + t0)| ≤ M / 2 ^ 63 := by
      norm_num at f3 ⊢
      linarith
    rw [hM] at *
    norm_num at *
    linarith
  have f4 : |x4 - (x3 + offset)| ≤ M / 2 ^ 64 * (1 + 1 / 2 ^ 50) := by
    norm_num [zpow_neg] at e4 f4' ⊢
    linarith
  have f2s : |x2 - d * g| ≤ M / 2 ^ 64 * (1 + 1 / 2 ^ 50) := by
    norm_num [zpow_neg] at e2 hdg ⊢
    linarith
  have s1 := abs_add_three (x4 - (x3 + offset)) (x3 - (x2 + t0)) (x2 - d * g)
  have s2 := abs_add_le (x4 - (x3 + offset) + (x3 - (x2 + t0)) + (x2 - d * g)) (d * g - y)
  rw [show x4 - (x3 + offset) + (x3 - (x2 + t0)) + (x2 - d * g) + (d * g - y) = x4 - (t0 + y + offset) by ring] at s2
  refine s2.trans ?_
  norm_num at *
  linarith

theorem diff_exact (a b : Nat) (ha : a < 2 ^ 54) (hb : b < 2 ^ 54) :
    fl 64 (timeIn .ns1 a - timeIn .ns1 b) = timeIn .ns1 a - timeIn .ns1 b := by
  have h := fl_exact 64 ((a : ℤ) - b) (-8) (by rw [abs_lt]; constructor <;> omega)
  have e : (((a : ℤ) - b : ℤ) : ℚ) * 2 ^ (-8 : ℤ) = timeIn .ns1 a - timeIn .ns1 b := by
    simp only [timeIn, Tsres.value]
    push_cast; norm_num; ring
  rwa [e] at h

theorem detune_raws (ratio offset : ℚ) (channel : Nat) (r0 : Nat × Nat) (raws : List (Nat × Nat))
    (hv : ∀ r ∈ r0 :: raws, Valid r) :
    detune ratio offset channel ((r0 :: raws).map fun r => (readValue .ns1 true r.1, r.2)) =
      .ok (((r0 :: raws).filter fun r => decide (r.2 = channel)).map fun r =>
        (.flt (fl 64 (fl 64 (fl 64 ((timeIn .ns1 r.1 - timeIn .ns1 r0.1) * fl 53 (1 + ratio)) + timeIn .ns1 r0.1) + offset)),
          r.2)) := by
  have hm : (r0 :: raws).map (fun r => (readValue .ns1 true r.1, r.2)) =
      (readValue .ns1 true r0.1, r0.2) :: raws.map (fun r => (readValue .ns1 true r.1, r.2)) := rfl
  unfold detune
  rw [hm]
  simp only
  rw [← hm, List.filter_map, List.map_map]
  congr 1
  apply List.map_congr_left
  intro r hr
  have hr1 := (List.mem_filter.mp hr).1
  simp only [Function.comp, readValue, if_true, Num.val]
  rw [diff_exact r.1 r0.1 (hv r hr1).1 (hv r0 (by simp)).1]

end Fp
