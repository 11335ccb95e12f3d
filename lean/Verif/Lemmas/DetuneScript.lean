import Verif.Props.Detune

/-! Helper lemmas for `Verif/Props/DetuneScript.lean`. -/
namespace Fp
open Spec

theorem small_ratio (k : Nat) (hk : 3 ≤ k) : 0 ≤ fl 53 (1 / 10 ^ k) ∧ fl 53 (1 / 10 ^ k) ≤ 1 / 500 ∧
    |fl 53 (1 / 10 ^ k) - 1 / 10 ^ k| ≤ 1 / 2 ^ 53 := by
  have h0 : (0 : ℚ) < 1 / 10 ^ k := by positivity
  have h1 : (1 : ℚ) / 10 ^ k ≤ 1 / 1000 := by
    have : (10 : ℚ) ^ 3 ≤ 10 ^ k := pow_le_pow_right₀ (by norm_num) hk
    rw [div_le_div_iff₀ (by positivity) (by norm_num)]
    norm_num at this ⊢
    exact this
  have h2 := fl_err 53 (1 / 10 ^ k)
  rw [abs_of_pos h0] at h2
  generalize (1 : ℚ) / 10 ^ k = q at *
  refine ⟨fl_nonneg 53 h0.le, ?_, ?_⟩
  · have := (abs_le.mp h2).2
    norm_num [zpow_neg] at this ⊢
    linarith
  · refine h2.trans ?_
    norm_num [zpow_neg]
    linarith

theorem script_file (r0 : Nat × Nat) (raws : List (Nat × Nat)) (hv : ∀ r ∈ r0 :: raws, Valid r)
    (hs : ∀ r ∈ raws, r0.1 ≤ r.1) (hd : ∀ r ∈ raws, timeIn .ns1 r.1 ≤ timeIn .ns1 r0.1 + 2 ^ 40)
    (hb : ∀ r ∈ r0 :: raws, timeIn .ns1 r.1 < 2 ^ 45) (k : Nat) (hk : 3 ≤ k) :
    ∃ d, detune (fl 53 (1 / 10 ^ k)) 0 8 ((r0 :: raws).map fun r => (readValue .ns1 true r.1, r.2)) = .ok d ∧
      ∃ out : List (ℚ × Nat), readA1 64 true .ns1 true (writeA1 64 true .ns1 d) = .ok (out.map fun e => (.flt e.1, e.2)) ∧
        List.Forall₂ (fun (r : Nat × Nat) (e : ℚ × Nat) => e.2 = 8 ∧
          |e.1 - detunedClock (1 / 10 ^ k) 0 (timeIn .ns1 r0.1) (timeIn .ns1 r.1)| ≤ 1 / 256 + 1 / 2 ^ 11)
          ((r0 :: raws).filter fun r => decide (r.2 = 8)) out := by
  obtain ⟨k1, k2, k3⟩ := small_ratio k hk
  obtain ⟨ev, h1, h2⟩ := C77_detune (fl 53 (1 / 10 ^ k)) 0 (by linarith) 8 r0 raws hv hs
  refine ⟨_, h1, ?_⟩
  generalize fl 53 (1 / 10 ^ k) = q at *
  generalize (1 : ℚ) / 10 ^ k = q' at *
  have hclose : List.Forall₂ (fun (r : Nat × Nat) (e : ℚ × Nat) => e.2 = 8 ∧ fl 64 e.1 = e.1 ∧ 0 ≤ e.1 ∧ e.1 < 2 ^ 46 ∧
      |e.1 - detunedClock q' 0 (timeIn .ns1 r0.1) (timeIn .ns1 r.1)| ≤ 1 / 2 ^ 11)
      ((r0 :: raws).filter fun r => decide (r.2 = 8)) ev := by
    rw [List.forall₂_iff_get] at h2 ⊢
    refine ⟨h2.1, fun i hi hi' => ?_⟩
    have hmem := List.get_mem ((r0 :: raws).filter fun r => decide (r.2 = 8)) ⟨i, hi⟩
    obtain ⟨g1, g2, g3, g4⟩ := h2.2 i hi hi'
    generalize ((r0 :: raws).filter fun r => decide (r.2 = 8)).get ⟨i, hi⟩ = r at *
    generalize ev.get ⟨i, hi'⟩ = e at *
    have hr := (List.mem_filter.mp hmem).1
    have ht0 : 0 ≤ timeIn .ns1 r0.1 := by simp only [timeIn]; positivity
    have hx : 0 ≤ timeIn .ns1 r.1 - timeIn .ns1 r0.1 ∧ timeIn .ns1 r.1 - timeIn .ns1 r0.1 ≤ 2 ^ 40 := by
      rcases List.mem_cons.mp hr with rfl | hr
      · simp
      · have : timeIn .ns1 r0.1 ≤ timeIn .ns1 r.1 := by
          have : (r0.1 : ℚ) ≤ r.1 := by exact_mod_cast hs r hr
          simp only [timeIn]
          gcongr
        exact ⟨by linarith, by linarith [hd r hr]⟩
    have htm := hb r hr
    have ht0m := hb r0 (by simp)
    simp only [detunedClock, add_zero, abs_zero] at g4 ⊢
    generalize timeIn .ns1 r.1 = t at *
    generalize timeIn .ns1 r0.1 = t0 at *
    generalize hy : t - t0 = y at *
    have hq : y * (1 + q) ≤ 2 ^ 40 * (1 + 1 / 500) := mul_le_mul hx.2 (by linarith) (by linarith) (by norm_num)
    have hq0 : 0 ≤ y * (1 + q) := mul_nonneg hx.1 (by linarith)
    have hqq : |y * (1 + q) - y * (1 + q')| ≤ 2 ^ 40 * (1 / 2 ^ 53) := by
      rw [← mul_sub, abs_mul, abs_of_nonneg hx.1, show 1 + q - (1 + q') = q - q' by ring]
      exact mul_le_mul hx.2 k3 (abs_nonneg _) (by norm_num)
    have g5 := abs_le.mp g4
    refine ⟨g1, g3, ?_, ?_, ?_⟩
    · -- the result of rounding cannot be negative: it is within a small fraction of a non-negative number
      have : y * (1 + q) / 2 ^ 53 + (t0 + y * (1 + q)) / 2 ^ 62 ≤ t0 + y * (1 + q) := by
        norm_num
        linarith
      linarith [g5.1]
    · have := g5.2
      norm_num at hq this ht0m ⊢
      linarith
    · have g6 := abs_sub_le e.1 (t0 + y * (1 + q)) (t0 + y * (1 + q'))
      rw [show t0 + y * (1 + q) - (t0 + y * (1 + q')) = y * (1 + q) - y * (1 + q') by ring] at g6
      norm_num at hq hqq g4 g6 ht0m ⊢
      linarith
  obtain ⟨-, out, h3, h4⟩ := C78_write_floor 64 (by norm_num) true .ns1 ev (by
    intro e he
    obtain ⟨i, hi, rfl⟩ := List.mem_iff_get.mp he
    obtain ⟨g1, g2⟩ := List.forall₂_iff_get.mp hclose
    obtain ⟨a1, a2, a3, a4, -⟩ := g2 i (by rw [g1]; exact i.2) i.2
    refine ⟨a2, a3, ?_, by
      have : (ev.get i).2 = 8 := a1
      omega⟩
    rw [Int.floor_lt]
    simp only [Tsres.value]
    push_cast
    have : (ev.get i).1 < 2 ^ 46 := a4
    norm_num at this ⊢
    linarith)
  refine ⟨out, h3, ?_⟩
  rw [List.forall₂_iff_get] at h4 hclose ⊢
  refine ⟨hclose.1.trans h4.1, fun i hi hi' => ?_⟩
  obtain ⟨a1, a2, a3, a4, a5⟩ := hclose.2 i hi (by rw [← hclose.1]; exact hi)
  obtain ⟨b1, b2, b3⟩ := h4.2 i (by rw [← hclose.1]; exact hi) hi'
  refine ⟨b1.trans a1, ?_⟩
  simp only [Tsres.value, Nat.cast_one] at b3
  have a6 := abs_le.mp a5
  rw [abs_le]
  constructor <;> linarith [a6.1, a6.2]

end Fp
