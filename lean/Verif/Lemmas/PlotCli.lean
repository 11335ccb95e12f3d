import Verif.Spec.PlotCli
import Verif.Props.Shell
import Verif.Props.Plot

/-! Helper lemmas for `Verif/Props/PlotCli.lean`. -/
namespace Fp
open Spec

/-- The arithmetic of fpplot.py:31 for an option in ppm. -/
theorem plot_ppm (rnd rndA : ℚ → ℚ) (hr : RelErr rnd) (hra : RelErr rndA) (f x : ℚ) (hf : |f| ≤ 7100) :
    |rndA (rndA x / rnd (1 + rnd (f * rnd (1 / 10 ^ 6)))) - x / (1 + f / 10 ^ 6)| ≤ |x| / 2 ^ 50 := by
  obtain ⟨η2, h2, e2⟩ := relErr_factor hr (1 / 10 ^ 6)
  obtain ⟨η3, h3, e3⟩ := relErr_factor hr (f * rnd (1 / 10 ^ 6))
  have hk := triple (1 / 2 ^ 53) η2 η3 0 (by positivity) (by norm_num) h2 h3 (by norm_num)
  rw [add_zero, mul_one] at hk
  have hdf : |f / 10 ^ 6| ≤ 71 / 10000 := by
    rw [abs_div, abs_of_pos (by norm_num : (0 : ℚ) < 10 ^ 6), div_le_iff₀ (by norm_num)]
    refine hf.trans (by norm_num)
  have e4 : rnd (f * rnd (1 / 10 ^ 6)) = f / 10 ^ 6 + f / 10 ^ 6 * ((1 + η2) * (1 + η3) - 1) := by
    rw [e3, e2]; ring
  rw [e4]
  generalize f / 10 ^ 6 = df at *
  generalize (1 + η2) * (1 + η3) - 1 = κ at *
  have hdk : |df * κ| ≤ 71 / 10000 * (4 * (1 / 2 ^ 53)) := by
    rw [abs_mul]; exact mul_le_mul hdf hk (abs_nonneg _) (by norm_num)
  generalize df * κ = δ at *
  have hG := hr (1 + (df + δ))
  generalize rnd (1 + (df + δ)) = G at *
  have hd1 : |1 + (df + δ)| ≤ 1 + 1 / 2 ^ 7 := by
    have q1 := abs_add_le 1 (df + δ)
    have q2 := abs_add_le df δ
    rw [abs_one] at q1
    norm_num at *
    linarith
  have hGg : |G - (1 + df)| ≤ 2 * (1 / 2 ^ 53) := by
    have q := abs_add_le (G - (1 + (df + δ))) δ
    rw [show G - (1 + (df + δ)) + δ = G - (1 + df) by ring] at q
    norm_num at *
    linarith
  obtain ⟨η5, h5, e5⟩ := relErr_factor hra x
  obtain ⟨η6, h6, e6⟩ := relErr_factor hra (rndA x / G)
  have hm := triple (1 / 2 ^ 53) η5 η6 0 (by positivity) (by norm_num) h5 h6 (by norm_num)
  rw [add_zero, mul_one] at hm
  have hm2 : |(1 + η5) * (1 + η6) - 1| ≤ 21 / 10 * (1 / 2 ^ 53) := by
    have t1 : |η5 * η6| ≤ 1 / 2 ^ 53 * (1 / 2 ^ 53) := by
      rw [abs_mul]; exact mul_le_mul h5 h6 (abs_nonneg _) (by positivity)
    have t2 := abs_add_le (η5 + η6) (η5 * η6)
    have t3 := abs_add_le η5 η6
    rw [show (1 + η5) * (1 + η6) - 1 = η5 + η6 + η5 * η6 by ring]
    norm_num at *
    linarith
  rw [e6, e5]
  have hg := abs_le.mp hdf
  have hgl : 1 - 71 / 10000 ≤ 1 + df := by linarith [hg.1]
  have hgu : 1 + df ≤ 1 + 71 / 10000 := by linarith [hg.2]
  have hGl : 1 - 72 / 10000 ≤ G := by
    have := (abs_le.mp hGg).1
    norm_num at *
    linarith
  generalize 1 + df = g at *
  have hg0 : 0 < g := lt_of_lt_of_le (by norm_num) hgl
  have hG0 : 0 < G := lt_of_lt_of_le (by norm_num) hGl
  have e7 : x * (1 + η5) / G * (1 + η6) - x / g = x * (((1 + η5) * (1 + η6) - 1) * g - (G - g)) / (G * g) := by
    field_simp
    ring
  rw [e7]
  generalize (1 + η5) * (1 + η6) - 1 = μ at *
  have hnum : |μ * g - (G - g)| ≤ 7 * (1 / 2 ^ 53) := by
    have q := abs_sub (μ * g) (G - g)
    have q2 : |μ * g| ≤ 21 / 10 * (1 / 2 ^ 53) * (1 + 71 / 10000) := by
      rw [abs_mul, abs_of_pos hg0]; exact mul_le_mul hm2 hgu hg0.le (by norm_num)
    norm_num at *
    linarith
  have hden : 7 / 8 ≤ G * g := by
    have := mul_le_mul hGl hgl (by norm_num) hG0.le
    norm_num at *
    linarith
  have hden0 : 0 < G * g := by positivity
  rw [abs_div, abs_of_pos hden0, div_le_iff₀ hden0, abs_mul]
  have hx := abs_nonneg x
  have s1 : |x| * |μ * g - (G - g)| ≤ |x| * (7 * (1 / 2 ^ 53)) := mul_le_mul_of_nonneg_left hnum hx
  have s2 : |x| / 2 ^ 50 * (7 / 8) ≤ |x| / 2 ^ 50 * (G * g) := mul_le_mul_of_nonneg_left hden (by positivity)
  refine s1.trans (le_trans ?_ s2)
  norm_num
  linarith [abs_nonneg x]

/-- The correction of fpplot for a frequency near `x` (given in ppm) and a time `n`. -/
theorem plot_given (rnd rndA : ℚ → ℚ) (hr : RelErr rnd) (hra : RelErr rndA) (r x ρ n t : ℚ) (hx : 1 - 1 / 2 ^ 8 ≤ 1 + x)
    (hrx : |r - x * 10 ^ 6| ≤ ρ) (hr7 : |r| ≤ 7000) :
    |plotCorrect rnd rndA (rnd r) (rnd n) t - corrected n x t| ≤ (|t| + |n|) * (ρ / 10 ^ 6 * (1 + 1 / 2 ^ 6) + 1 / 2 ^ 48) := by
  have hf : |rnd r - r| ≤ 7000 / 2 ^ 53 := by
    refine (hr r).trans ?_
    rw [div_eq_mul_inv (7000 : ℚ)]
    have := mul_le_mul_of_nonneg_right hr7 (by positivity : (0 : ℚ) ≤ (2 ^ 53)⁻¹)
    simpa [div_eq_mul_inv, mul_comm] using this
  have hN : |rnd n - n| ≤ |n| / 2 ^ 53 := by
    refine (hr n).trans (le_of_eq ?_)
    ring
  generalize rnd r = f at *
  generalize rnd n = N at *
  have hf7 : |f| ≤ 7100 := by
    have q := abs_add_le (f - r) r
    rw [sub_add_cancel] at q
    norm_num at *
    linarith
  have k1 := plot_ppm rnd rndA hr hra f (t - N) hf7
  unfold plotCorrect corrected
  generalize rndA (rndA (t - N) / rnd (1 + rnd (f * rnd (1 / 10 ^ 6)))) = z at *
  have hgx : |x - f / 10 ^ 6| ≤ ρ / 10 ^ 6 + 1 / 2 ^ 60 := by
    have e : x - f / 10 ^ 6 = -(r - x * 10 ^ 6) / 10 ^ 6 + -(f - r) / 10 ^ 6 := by ring
    rw [e]
    have q := abs_add_le (-(r - x * 10 ^ 6) / 10 ^ 6) (-(f - r) / 10 ^ 6)
    rw [abs_div, abs_div, abs_neg, abs_neg, abs_of_pos (by norm_num : (0 : ℚ) < 10 ^ 6)] at q
    have q1 : |r - x * 10 ^ 6| / 10 ^ 6 ≤ ρ / 10 ^ 6 := div_le_div_of_nonneg_right hrx (by positivity)
    have q2 : |f - r| / 10 ^ 6 ≤ 7000 / 2 ^ 53 / 10 ^ 6 := div_le_div_of_nonneg_right hf (by positivity)
    norm_num at *
    linarith
  have hgl : 1 - 71 / 10000 ≤ 1 + f / 10 ^ 6 := by
    have : -(71 / 10000 : ℚ) ≤ f / 10 ^ 6 := by
      rw [le_div_iff₀ (by norm_num)]
      have := (abs_le.mp hf7).1
      norm_num at *
      linarith
    linarith
  generalize f / 10 ^ 6 = g at *
  have hg0 : 0 < 1 + g := lt_of_lt_of_le (by norm_num) hgl
  have hx0 : 0 < 1 + x := lt_of_lt_of_le (by norm_num) hx
  have hn0 := abs_nonneg n
  have ht0 := abs_nonneg t
  have hρ0 : 0 ≤ ρ := (abs_nonneg _).trans hrx
  have htN : |t - N| ≤ (|t| + |n|) * (1 + 1 / 2 ^ 53) := by
    have q := abs_sub_le t n N
    have q2 := abs_sub t n
    rw [abs_sub_comm n N] at q
    have : |n| / 2 ^ 53 ≤ (|t| + |n|) / 2 ^ 53 := div_le_div_of_nonneg_right (by linarith) (by positivity)
    rw [mul_add, mul_one, mul_one_div]
    linarith
  have s1 : |t - N| / 2 ^ 50 ≤ (|t| + |n|) * (1 + 1 / 2 ^ 53) / 2 ^ 50 := div_le_div_of_nonneg_right htN (by positivity)
  have s2 : |(t - N) / (1 + g) - (t - n) / (1 + g)| ≤ 2 * ((|t| + |n|) / 2 ^ 53) := by
    rw [← sub_div, abs_div, abs_of_pos hg0, div_le_iff₀ hg0, show t - N - (t - n) = -(N - n) by ring, abs_neg]
    have q1 : |n| / 2 ^ 53 ≤ (|t| + |n|) / 2 ^ 53 := div_le_div_of_nonneg_right (by linarith) (by positivity)
    have q2 : 2 * ((|t| + |n|) / 2 ^ 53) * (1 / 2) ≤ 2 * ((|t| + |n|) / 2 ^ 53) * (1 + g) :=
      mul_le_mul_of_nonneg_left (by linarith) (by positivity)
    linarith
  have s3 : |(t - n) / (1 + g) - (t - n) / (1 + x)| ≤ (|t| + |n|) * ((ρ / 10 ^ 6 + 1 / 2 ^ 60) * (1 + 1 / 2 ^ 6)) := by
    have e : (t - n) / (1 + g) - (t - n) / (1 + x) = (t - n) * (x - g) / ((1 + g) * (1 + x)) := by
      field_simp
      ring
    rw [e, abs_div, abs_of_pos (mul_pos hg0 hx0), div_le_iff₀ (mul_pos hg0 hx0), abs_mul]
    have q1 : |t - n| * |x - g| ≤ (|t| + |n|) * (ρ / 10 ^ 6 + 1 / 2 ^ 60) :=
      mul_le_mul (abs_sub t n) hgx (abs_nonneg _) (by positivity)
    have q2 : (1 : ℚ) ≤ (1 + 1 / 2 ^ 6) * ((1 + g) * (1 + x)) := by
      have := mul_le_mul hgl hx (by norm_num) hg0.le
      norm_num at *
      linarith
    refine q1.trans ?_
    have q3 : (|t| + |n|) * (ρ / 10 ^ 6 + 1 / 2 ^ 60) * 1 ≤ (|t| + |n|) * (ρ / 10 ^ 6 + 1 / 2 ^ 60) * ((1 + 1 / 2 ^ 6) * ((1 + g) * (1 + x))) :=
      mul_le_mul_of_nonneg_left q2 (by positivity)
    rw [mul_one] at q3
    refine q3.trans (le_of_eq ?_)
    ring
  have t1 := abs_sub_le z ((t - N) / (1 + g)) ((t - n) / (1 + x))
  have t2 := abs_sub_le ((t - N) / (1 + g)) ((t - n) / (1 + g)) ((t - n) / (1 + x))
  generalize |t| + |n| = M at *
  have hM : 0 ≤ M := by
    rcases lt_or_ge M 0 with h | h
    · exfalso
      have := (abs_nonneg (t - N)).trans htN
      nlinarith
    · exact h
  have e1 : M * ((ρ / 10 ^ 6 + 1 / 2 ^ 60) * (1 + 1 / 2 ^ 6)) = M * (ρ / 10 ^ 6 * (1 + 1 / 2 ^ 6)) + M * (1 / 2 ^ 60 * (1 + 1 / 2 ^ 6)) := by ring
  have e2 : M * (ρ / 10 ^ 6 * (1 + 1 / 2 ^ 6) + 1 / 2 ^ 48) = M * (ρ / 10 ^ 6 * (1 + 1 / 2 ^ 6)) + M * (1 / 2 ^ 48) := by ring
  rw [e2]
  rw [e1] at s3
  have k : M * (1 + 1 / 2 ^ 53) / 2 ^ 50 + 2 * (M / 2 ^ 53) + M * (1 / 2 ^ 60 * (1 + 1 / 2 ^ 6)) ≤ M * (1 / 2 ^ 48) := by
    have : M * (1 + 1 / 2 ^ 53) / 2 ^ 50 + 2 * (M / 2 ^ 53) + M * (1 / 2 ^ 60 * (1 + 1 / 2 ^ 6)) =
      M * ((1 + 1 / 2 ^ 53) / 2 ^ 50 + 2 / 2 ^ 53 + 1 / 2 ^ 60 * (1 + 1 / 2 ^ 6)) := by ring
    rw [this]
    exact mul_le_mul_of_nonneg_left (by norm_num) hM
  linarith

theorem plotSpec_good : GoodSpec plotSpec where
  names := by
    intro o ho n hn
    exact goodName_spec ((by decide : ∀ o ∈ plotSpec.opts, ∀ n ∈ o.names, goodName n = true) o ho n hn)
  nodup := by decide

/-- An integer written with digits. -/
theorem argInt_set {l : List Setting} {S : ArgSpec} (hl : ∀ s ∈ l, s.Ok S) (d : String) (h : ∀ o ∈ S.opts, o.dest = d → o.kind = .value ∧ o.ok = isInt)
    (y : Int) : (lastSet l d = none → ((lastSet l d).bind intOf).getD y = y) ∧
      ∀ v n, lastSet l d = some v → Digits v n → ((lastSet l d).bind intOf).getD y = n := by
  refine ⟨fun e => by simp [e], fun v n e hn => ?_⟩
  rcases last_spec hl d isInt h with ⟨h4, _⟩ | ⟨w, h4, _, h5⟩
  · simp [h4] at e
  · rw [e] at h4
    obtain rfl : v = w := by simpa using h4
    simp [e, digits_intOf hn (isInt_ne h5)]

end Fp
