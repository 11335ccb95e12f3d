import Verif.Spec.FpOutput
import Verif.Props.FpFind
import Verif.Lemmas.Detune

/-!
# C90: the option `-V` of fpfind
-/
namespace Fp
open Spec

theorem shown_core (rnd : ℚ → ℚ) (flag : Nat) (e dt df T F : ℚ)
    (hinv : (if flag % 2 = 1 then invertComp rnd dt df else (dt, df)) = (T, F))
    (hT : |T - (exchanged (flag.testBit 0) dt df).1| ≤ e * |(exchanged (flag.testBit 0) dt df).1|)
    (hF : |F - (exchanged (flag.testBit 0) dt df).2| ≤ e) (h34 : rnd (F * 2 ^ 34) = F * 2 ^ 34) (h8 : rnd (T * 8) = T * 8) :
    ShownAs flag e dt df (fpOutput rnd flag dt df) := by
  have b1 : flag.testBit 1 = decide (flag / 2 % 2 = 1) := by
    rw [Nat.testBit_eq_decide_div_mod_eq]
  have b2 : flag.testBit 2 = decide (flag / 4 % 2 = 1) := by
    rw [Nat.testBit_eq_decide_div_mod_eq]
  have b3 : flag.testBit 3 = decide (flag / 8 % 2 = 1) := by
    rw [Nat.testBit_eq_decide_div_mod_eq]
  have hfo : fpOutput rnd flag dt df =
      { df := if flag / 2 % 2 = 1 then .inr (rne (rnd (F * 2 ^ 34))) else .inl F,
        dt := if flag / 4 % 2 = 1 then none else some (rne (if flag / 8 % 2 = 1 then rnd (T * 8) else T)) } := by
    unfold fpOutput
    rw [hinv]
  rw [hfo]
  constructor
  · intro h
    rw [b1] at h
    simp only [decide_eq_false_iff_not] at h
    exact ⟨F, by simp [h], hF⟩
  · intro h
    rw [b1] at h
    simp only [decide_eq_true_eq] at h
    refine ⟨rne (rnd (F * 2 ^ 34)), by simp only [h, if_true], ?_⟩
    rw [h34]
    have h1 := abs_le.mp (rne_spec (F * 2 ^ 34))
    have h2 := abs_le.mp hF
    rw [abs_le]
    constructor <;> linarith [h1.1, h1.2, h2.1, h2.2]
  · intro h
    rw [b2] at h
    simp only [decide_eq_true_eq] at h
    simp [h]
  · intro h
    rw [b2] at h
    simp only [decide_eq_false_iff_not] at h
    refine ⟨rne (if flag / 8 % 2 = 1 then rnd (T * 8) else T), by simp only [h, if_false], ?_⟩
    have h2 := abs_le.mp hT
    rw [b3]
    by_cases h3 : flag / 8 % 2 = 1
    · simp only [h3, if_true, decide_true]
      rw [h8]
      have h1 := abs_le.mp (rne_spec (T * 8))
      rw [abs_le]
      constructor <;> linarith [h1.1, h1.2, h2.1, h2.2]
    · simp only [h3, if_false, decide_false, Bool.false_eq_true]
      have h1 := abs_le.mp (rne_spec T)
      rw [abs_le]
      constructor <;> linarith [h1.1, h1.2, h2.1, h2.2]

/-- **C90** in exact arithmetic: for every value of `-V`, frequencies are shown exactly or rounded to the nearest unit, times
are rounded to the nearest unit. -/
theorem C90_exact (flag : Nat) (dt df : ℚ) : ShownAs flag 0 dt df (fpOutput id flag dt df) := by
  have b0 : flag.testBit 0 = decide (flag % 2 = 1) := by
    rw [Nat.testBit_eq_decide_div_mod_eq, pow_zero, Nat.div_one]
  refine shown_core id flag 0 dt df (T := (exchanged (flag.testBit 0) dt df).1) (F := (exchanged (flag.testBit 0) dt df).2)
    ?_ (by simp) (by simp) rfl rfl
  rw [b0]
  unfold exchanged invertComp
  by_cases h : flag % 2 = 1 <;> simp [h]

/-- **C90** for doubles and frequencies of at most 2^-10: rounding adds a relative error of at most 2^-50, and none at all without
the exchange (bit 0). -/
theorem C90_double (flag : Nat) (dt df : ℚ) (hdt : fl 53 dt = dt) (hdf : fl 53 df = df) (hs : |df| ≤ 1 / 2 ^ 10) :
    ShownAs flag (if flag.testBit 0 then 1 / 2 ^ 50 else 0) dt df (fpOutput (fl 53) flag dt df) := by
  have b0 : flag.testBit 0 = decide (flag % 2 = 1) := by
    rw [Nat.testBit_eq_decide_div_mod_eq, pow_zero, Nat.div_one]
  have h34 : ∀ x, fl 53 x = x → fl 53 (x * 2 ^ 34) = x * 2 ^ 34 := by
    intro x hx
    have := fl_mul_zpow 53 x 34
    rw [hx] at this
    exact_mod_cast this
  have h8 : ∀ x, fl 53 x = x → fl 53 (x * 8) = x * 8 := by
    intro x hx
    have := fl_mul_zpow 53 x 3
    rw [hx] at this
    norm_num at this ⊢
    exact this
  by_cases h : flag % 2 = 1
  · have hb : flag.testBit 0 = true := by rw [b0]; simpa using h
    refine shown_core (fl 53) flag _ dt df _ _ (by rw [if_pos h]; rfl) ?_ ?_ (h34 _ (fl_idem 53 (by norm_num) _))
      (h8 _ (fl_idem 53 (by norm_num) _))
    · rw [hb]
      simp only [exchanged, if_true]
      have hs' := abs_le.mp hs
      have h1 := fl_err 53 (1 + df)
      have h2 := fl_err 53 (-dt * fl 53 (1 + df))
      have hu : (2 : ℚ) ^ (-((53 : ℕ) : ℤ)) = 1 / 2 ^ 53 := by norm_num
      rw [hu] at h1 h2
      have hp : 0 < 1 + df := by linarith [hs'.1]
      rw [abs_of_pos hp] at h1
      rw [abs_mul] at h2
      have e1 : |-dt * fl 53 (1 + df) - -dt * (1 + df)| ≤ |-dt| * ((1 + df) * (1 / 2 ^ 53)) := by
        rw [← mul_sub, abs_mul]
        exact mul_le_mul_of_nonneg_left h1 (abs_nonneg _)
      have e2 : |fl 53 (1 + df)| ≤ (1 + df) * 2 := by
        have := abs_le.mp h1
        rw [abs_le]
        constructor <;> nlinarith [this.1, this.2]
      have e3 : |-dt| * |fl 53 (1 + df)| * (1 / 2 ^ 53) ≤ |-dt| * ((1 + df) * 2) * (1 / 2 ^ 53) := by
        apply mul_le_mul_of_nonneg_right _ (by norm_num)
        exact mul_le_mul_of_nonneg_left e2 (abs_nonneg _)
      have e4 := abs_sub_le (fl 53 (-dt * fl 53 (1 + df))) (-dt * fl 53 (1 + df)) (-dt * (1 + df))
      have e5 : |-dt * (1 + df)| = |-dt| * (1 + df) := by rw [abs_mul, abs_of_pos hp]
      rw [e5]
      have e6 : 0 ≤ |-dt| * (1 + df) := mul_nonneg (abs_nonneg _) hp.le
      show |fl 53 (-dt * fl 53 (1 + df)) - -dt * (1 + df)| ≤ _
      linarith
    · rw [hb]
      simp only [exchanged, if_true]
      have hs' := abs_le.mp hs
      have hu : (2 : ℚ) ^ (-((53 : ℕ) : ℤ)) = 1 / 2 ^ 53 := by norm_num
      have hp : 0 < 1 + df := by linarith [hs'.1]
      show |fl 53 (fl 53 (1 / fl 53 (1 + df)) - 1) - (1 / (1 + df) - 1)| ≤ _
      have h1 := fl_err 53 (1 + df)
      rw [hu, abs_of_pos hp] at h1
      have h1' := abs_le.mp h1
      generalize fl 53 (1 + df) = a at *
      have ha1 : 1 - 1 / 2 ^ 9 ≤ a := by nlinarith [h1'.1, hs'.1]
      have ha : 0 < a := by linarith
      have h2 := fl_err 53 (1 / a)
      rw [hu, abs_of_pos (show 0 < 1 / a by positivity)] at h2
      have hia : 1 / a ≤ 1 + 1 / 2 ^ 8 := by
        rw [div_le_iff₀ ha]
        nlinarith
      generalize fl 53 (1 / a) = b at *
      have h3 := fl_err 53 (b - 1)
      rw [hu] at h3
      have e1 : |1 / a - 1 / (1 + df)| ≤ (1 / a) * (1 / 2 ^ 53) := by
        have : 1 / a - 1 / (1 + df) = (1 / a) * (-(a - (1 + df)) / (1 + df)) := by field_simp; ring
        rw [this, abs_mul, abs_of_pos (show 0 < 1 / a by positivity)]
        apply mul_le_mul_of_nonneg_left _ (by positivity)
        rw [abs_div, abs_neg, abs_of_pos hp, div_le_iff₀ hp]
        linarith
      have h2' := abs_le.mp h2
      have e1' := abs_le.mp e1
      have hb1 : |b - 1| ≤ 1 := by
        have : 1 / a ≥ 1 / 2 := by
          rw [ge_iff_le, div_le_div_iff₀ (by norm_num) ha]
          nlinarith [h1'.2, hs'.2]
        rw [abs_le]
        constructor <;> nlinarith [h2'.1, h2'.2]
      have h3' := abs_le.mp (h3.trans (mul_le_mul_of_nonneg_right hb1 (by norm_num)))
      rw [abs_le]
      constructor <;> nlinarith [h3'.1, h3'.2, h2'.1, h2'.2, e1'.1, e1'.2]
  · have hb : flag.testBit 0 = false := by rw [b0]; simpa using h
    refine shown_core (fl 53) flag _ dt df dt df (by rw [if_neg h]) ?_ ?_ (h34 _ hdf) (h8 _ hdt)
    · rw [hb]; simp [exchanged]
    · rw [hb]; simp [exchanged]

/-- **C90**: exchanging the roles again gives back the original compensation; the two satisfy the relations documented for the
exchange. -/
theorem C90_exchange (dt df : ℚ) (h : -1 < df) :
    let (dt', df') := exchanged true dt df
    exchanged true dt' df' = (dt, df) ∧ (1 + df') * (1 + df) = 1 ∧ dt' * (1 + df') + dt = 0 := by
  have h0 : (1 + df) ≠ 0 := by linarith
  simp only [exchanged, if_true]
  refine ⟨?_, by field_simp; ring, by field_simp; ring⟩
  rw [Prod.mk.injEq]
  constructor
  · field_simp; ring
  · have : 1 + (1 / (1 + df) - 1) = 1 / (1 + df) := by ring
    rw [this]; field_simp; ring

/-- Instances of C90: 1234.5 ns and 2^-20, all bits set but bit 2; and only bit 3. -/
example : fpOutput id 11 (12345 / 10) (1 / 2 ^ 20) = { df := .inr (-16384), dt := some (-9876) } ∧
    fpOutput (fl 53) 8 (12345 / 10) (1 / 2 ^ 20) = { df := .inl (1 / 2 ^ 20), dt := some 9876 } := by decide +kernel

end Fp
