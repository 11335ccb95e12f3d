import Verif.Props.FpConverge
import Verif.Props.FpRun

/-! # C106: what fpfind prints if the coincidences stand out -/
namespace Fp
open Spec

/-- The quotient of two slightly wrong numbers. -/
theorem quotient_error {F G T x α γ B D : ℚ} (hF0 : 0 < F) (hF : F ≤ 1002 / 1000) (hG : 997 / 1000 ≤ G) (hT : |T| ≤ B) (hD : |x| ≤ D)
    (hα : |α| ≤ 21 / 10 / 2 ^ 53) (hγ : |γ| ≤ 22 / 10 / 2 ^ 53) :
    |(T - F * x * (1 + α)) / (G + γ) - (T - F * x) / G| ≤ (B + D) / 2 ^ 50 := by
  have hB : 0 ≤ B := (abs_nonneg _).trans hT
  have hD0 : 0 ≤ D := (abs_nonneg _).trans hD
  have hG0 : 0 < G := lt_of_lt_of_le (by norm_num) hG
  have hγ1 : |γ| ≤ 1 / 10000 := hγ.trans (by norm_num)
  have hden : 996 / 1000 ≤ G + γ := by linarith [(abs_le.mp hγ1).1]
  have hden0 : 0 < G + γ := lt_of_lt_of_le (by norm_num) hden
  have e' : (T - F * x * (1 + α)) / (G + γ) - (T - F * x) / G = (-(F * x * α) - (T - F * x) * (γ / G)) / (G + γ) := by
    have h1 : (T - F * x) / G = ((T - F * x) + (T - F * x) * (γ / G)) / (G + γ) := by
      rw [eq_div_iff hden0.ne', div_mul_eq_mul_div, div_eq_iff hG0.ne', mul_add, add_mul, mul_div_assoc', div_mul_cancel₀ _ hG0.ne']
    rw [h1, ← sub_div]
    congr 1
    ring
  rw [e', abs_div, abs_of_pos hden0, div_le_iff₀ hden0]
  have hFd : |F * x| ≤ 1002 / 1000 * D := by
    rw [abs_mul, abs_of_pos hF0]
    exact mul_le_mul hF hD (abs_nonneg _) (by norm_num)
  have a1 : |F * x * α| ≤ 1002 / 1000 * D * (21 / 10 / 2 ^ 53) := by
    rw [abs_mul]
    exact mul_le_mul hFd hα (abs_nonneg _) (by positivity)
  have a2 : |T - F * x| ≤ B + 1002 / 1000 * D := (abs_sub _ _).trans (by linarith)
  have a3 : |γ / G| ≤ 23 / 10 / 2 ^ 53 := by
    rw [abs_div, abs_of_pos hG0, div_le_iff₀ hG0]
    have : (23 / 10 / 2 ^ 53 : ℚ) * (997 / 1000) ≤ 23 / 10 / 2 ^ 53 * G := mul_le_mul_of_nonneg_left hG (by norm_num)
    have h2 : (22 / 10 / 2 ^ 53 : ℚ) ≤ 23 / 10 / 2 ^ 53 * (997 / 1000) := by norm_num
    linarith
  have a4 : |(T - F * x) * (γ / G)| ≤ (B + 1002 / 1000 * D) * (23 / 10 / 2 ^ 53) := by
    rw [abs_mul]
    exact mul_le_mul a2 a3 (abs_nonneg _) (by positivity)
  have a5 := abs_sub (-(F * x * α)) ((T - F * x) * (γ / G))
  rw [abs_neg] at a5
  have a6 : (B + D) / 2 ^ 50 * (996 / 1000) ≤ (B + D) / 2 ^ 50 * (G + γ) := mul_le_mul_of_nonneg_left hden (by positivity)
  refine (a5.trans (add_le_add a1 a4)).trans (le_trans ?_ a6)
  norm_num
  linarith

/-- Combining a precompensation by the factor `F` with the result of the search, in rounded arithmetic. -/
theorem combine_error {rnd : ℚ → ℚ} (hr : RelErr rnd) {F dt1 df1 T B D : ℚ} (hF : |F - 1| ≤ 1 / 2 ^ 9) (hdf : |df1| ≤ 1 / 2 ^ 13)
    (hT : |T| ≤ B) (hD : |dt1| ≤ D) :
    (1 - 1 / 2 ^ 8 ≤ 1 + rnd (rnd (F * rnd (1 + df1)) - 1)) ∧
    |corrected (rnd (0 + rnd (F * dt1))) (rnd (rnd (F * rnd (1 + df1)) - 1)) T - corrected dt1 df1 (T / F)| ≤ (B + D) / 2 ^ 50 := by
  have hF' := abs_le.mp hF
  have hdf' := abs_le.mp hdf
  norm_num at hF' hdf'
  have hF0 : 0 < F := by linarith
  have hg0 : 0 < 1 + df1 := by linarith
  obtain ⟨η1, k1, e1⟩ := relErr_factor hr (1 + df1)
  obtain ⟨η2, k2, e2⟩ := relErr_factor hr (F * rnd (1 + df1))
  obtain ⟨η3, k3, e3⟩ := relErr_factor hr (rnd (F * rnd (1 + df1)) - 1)
  obtain ⟨η4, k4, e4⟩ := relErr_factor hr (F * dt1)
  obtain ⟨η5, k5, e5⟩ := relErr_factor hr (0 + rnd (F * dt1))
  obtain ⟨G, hG⟩ : ∃ G, G = F * (1 + df1) := ⟨_, rfl⟩
  have hGlo : 997 / 1000 ≤ G := by
    have : (998 / 1000 : ℚ) * (9995 / 10000) ≤ F * (1 + df1) := mul_le_mul (by linarith) (by linarith) (by norm_num) (by linarith)
    rw [hG]
    refine le_trans ?_ this
    norm_num
  have hGhi : G ≤ 1003 / 1000 := by
    have : F * (1 + df1) ≤ (1002 / 1000 : ℚ) * (10005 / 10000) := mul_le_mul (by linarith) (by linarith) (by linarith) (by norm_num)
    rw [hG]
    refine this.trans ?_
    norm_num
  have hG0 : 0 < G := by linarith
  have hu : ∀ x y : ℚ, |x| ≤ 1 / 2 ^ 53 → |y| ≤ 1 / 2 ^ 53 → |x + y + x * y| ≤ 21 / 10 / 2 ^ 53 := by
    intro x y hx hy
    have t1 := abs_add_le (x + y) (x * y)
    have t2 := abs_add_le x y
    have t3 : |x * y| ≤ 1 / 2 ^ 53 * (1 / 2 ^ 53) := by
      rw [abs_mul]; exact mul_le_mul hx hy (abs_nonneg _) (by positivity)
    have t4 : (1 / 2 ^ 53 : ℚ) + 1 / 2 ^ 53 + 1 / 2 ^ 53 * (1 / 2 ^ 53) ≤ 21 / 10 / 2 ^ 53 := by norm_num
    linarith
  have h12 := hu η1 η2 k1 k2
  have h45 := hu η4 η5 k4 k5
  obtain ⟨α, hα⟩ : ∃ α, α = η1 + η2 + η1 * η2 := ⟨_, rfl⟩
  obtain ⟨β, hβ⟩ : ∃ β, β = η4 + η5 + η4 * η5 := ⟨_, rfl⟩
  rw [← hα] at h12
  rw [← hβ] at h45
  have eg : rnd (F * rnd (1 + df1)) = G * (1 + α) := by rw [e2, e1, hG, hα]; ring
  have ed : rnd (0 + rnd (F * dt1)) = F * dt1 * (1 + β) := by rw [e5, zero_add, e4, hβ]; ring
  rw [eg] at e3
  have hGα : |G * α| ≤ 1003 / 1000 * (21 / 10 / 2 ^ 53) := by
    rw [abs_mul, abs_of_pos hG0]
    exact mul_le_mul hGhi h12 (abs_nonneg _) (by norm_num)
  have hG1 : |G * (1 + α) - 1| ≤ 1 / 100 := by
    rw [abs_le]
    have a3 : |G * α| ≤ 1 / 1000 := hGα.trans (by norm_num)
    have a4 := abs_le.mp a3
    rw [show G * (1 + α) - 1 = G + G * α - 1 by ring]
    constructor <;> linarith [a4.1, a4.2]
  have hG3 : |(G * (1 + α) - 1) * η3| ≤ 1 / 100 * (1 / 2 ^ 53) := by
    rw [abs_mul]
    exact mul_le_mul hG1 k3 (abs_nonneg _) (by norm_num)
  obtain ⟨γ, hγ⟩ : ∃ γ, γ = G * α + (G * (1 + α) - 1) * η3 := ⟨_, rfl⟩
  have ef : 1 + rnd (rnd (F * rnd (1 + df1)) - 1) = G + γ := by rw [eg, e3, hγ]; ring
  have hγb : |γ| ≤ 22 / 10 / 2 ^ 53 := by
    rw [hγ]
    have := abs_add_le (G * α) ((G * (1 + α) - 1) * η3)
    have t4 : (1003 / 1000 : ℚ) * (21 / 10 / 2 ^ 53) + 1 / 100 * (1 / 2 ^ 53) ≤ 22 / 10 / 2 ^ 53 := by norm_num
    linarith
  constructor
  · rw [ef]
    have hγ1 : |γ| ≤ 1 / 10000 := hγb.trans (by norm_num)
    have := (abs_le.mp hγ1).1
    have h2 : (1 : ℚ) - 1 / 2 ^ 8 ≤ 997 / 1000 - 1 / 10000 := by norm_num
    linarith
  · unfold corrected
    rw [ef, ed, show T / F - dt1 = (T - F * dt1) / F by rw [sub_div, mul_div_cancel_left₀ _ hF0.ne'], div_div, ← hG]
    exact quotient_error hF0 (by linarith) hGlo hT hD h45 hγb

/-- The result of a run whose coincidences stand out, whatever the output format: the numbers that are formatted map every target
time to within about the final resolution, the jitter and rounding of the reference time. -/
theorem printed_core (env : NumEnv) (henv : env.rnd = fl 53) (args : FpMainArgs) (hfull : args.precompFullscan = false)
    (a b : List ℚ) (hin : Input env args a b) (pre post : List ℚ) (d : ℚ)
    (hp : precs env args = pre ++ d :: post) (hd : |fl 53 (1 + d) - 1| ≤ 1 / 2 ^ 9)
    (hpre : ∀ d' ∈ pre, Search env args a (precompensated env d' b) (.error .valueError))
    (j : Nat) (φ τ φ' τ' B E0 E1 : ℚ) (δ : Nat → ℚ) (w : Nat → Nat) (L : Nat)
    (hφ : 1 + φ = (1 + φ') * fl 53 (1 + d)) (hτ : τ = τ' * fl 53 (1 + d))
    (C : ClearRun (searchParams env args a (precompensated env d b)) (precompensated env d b) args.initialRes j φ' τ' B E0 E1 δ w L) :
    ∃ dt df k, Returns (fun fuel => fpMain env fuel args) (.ok (some (fpLine (fpOutput (fl 53) args.output dt df)))) ∧ fl 53 df = df ∧
      1 - 1 / 2 ^ 8 ≤ 1 + df ∧ k ≤ L ∧
      ∀ ε R, ε = args.finalRes + δ k + 2 ^ args.bufferOrder * args.finalRes / 2 ^ 50 →
      R = (k + 1) * (B + (k + 1) * (101 * 10 ^ 6)) / 2 ^ 49 → ∀ t, 0 ≤ t → |targetClock φ' τ' t| ≤ B →
        |corrected dt df (targetClock φ τ t) - t| ≤
          (ε + R + 2 * (ε + R) * (t / (searchParams env args a (precompensated env d b)).sep)) * (1 + 1 / 2 ^ 10) + 4 * R := by
  obtain ⟨dt1, df1, trace, e, h1, h2, -, -, h3⟩ := C105_converges_partial _ _ _ _ _ _ _ _ _ _ _ _ C
  have hrel : RelErr (fl 53) := C76_arithmetic.1
  have hline := C88_first env args a b hin hfull pre post d dt1 df1 (trace ++ [e]) hp hpre h1
  rw [henv] at hline
  have hdt1 : |dt1| ≤ (trace.length + 1) * (101 * 10 ^ 6) := by
    obtain ⟨f, r1, -, -⟩ := run_inv _ (by show RelErr env.rnd; rw [henv]; exact hrel)
      (by rw [C.rndA]; exact C76_arithmetic.2) _ _ _ _ _ h1
    have hfew := C.few
    have := (r1.2.1 (by rw [List.length_append, List.length_singleton]; omega)).1
    rw [List.length_append, List.length_singleton] at this
    push_cast at this
    exact this
  have hdf1 : |df1| ≤ 1 / 2 ^ 13 := by
    have := (C33_bounded _ _ _ _ _ _ h1).1
    exact this.le
  have hc1 := (combine_error hrel hd hdf1 (T := 0) (B := 0) (by simp) hdt1).1
  refine ⟨_, _, trace.length, hline, fl_idem 53 (by norm_num) _, hc1, h2, ?_⟩
  intro ε R hε hR t ht hBt
  set F := fl 53 (1 + d) with hF
  have hT : targetClock φ τ t = targetClock φ' τ' t * F := by
    unfold targetClock
    rw [hφ, hτ]
    ring
  have hF0 : 0 < F := by
    have := (abs_le.mp hd).1
    norm_num at this
    linarith
  have hFle : F ≤ 1002 / 1000 := by
    have := (abs_le.mp hd).2
    norm_num at this
    linarith
  have hB : 0 ≤ B := (abs_nonneg _).trans C.times.1
  have hTB : |targetClock φ τ t| ≤ 1002 / 1000 * B := by
    rw [hT, abs_mul, abs_of_pos hF0, mul_comm]
    exact mul_le_mul hFle hBt (abs_nonneg _) (by norm_num)
  obtain ⟨c1, c2⟩ := combine_error hrel hd hdf1 hTB hdt1
  have key := h3 ε R (by rw [hε]; simp [searchParams]) hR t ht hBt
  rw [show targetClock φ τ t / F = targetClock φ' τ' t by rw [hT]; field_simp] at c2
  have hR4 : (1002 / 1000 * B + (trace.length + 1) * (101 * 10 ^ 6)) / 2 ^ 50 ≤ R := by
    rw [hR]
    have hk : (0 : ℚ) ≤ trace.length := by positivity
    have e2 : ((trace.length : ℚ) + 1) * (B + (trace.length + 1) * (101 * 10 ^ 6)) / 2 ^ 49 =
      (2 * ((trace.length + 1) * (B + (trace.length + 1) * (101 * 10 ^ 6)))) / 2 ^ 50 := by ring
    rw [e2]
    apply div_le_div_of_nonneg_right _ (by positivity)
    have t1 : 0 ≤ (trace.length : ℚ) * B := by positivity
    have t2 : 0 ≤ (trace.length : ℚ) * ((trace.length + 1) * (101 * 10 ^ 6)) := by positivity
    nlinarith
  have s2 := abs_sub_le (corrected (fl 53 (0 + fl 53 (F * dt1))) (fl 53 (fl 53 (F * fl 53 (1 + df1)) - 1)) (targetClock φ τ t))
    (corrected dt1 df1 (targetClock φ' τ' t)) t
  linarith

/-- As C106, and the printed frequency is not near -1. -/
theorem printed_line (env : NumEnv) (henv : env.rnd = fl 53) (args : FpMainArgs) (hfull : args.precompFullscan = false)
    (hout : args.output = 0) (a b : List ℚ) (hin : Input env args a b) (pre post : List ℚ) (d : ℚ)
    (hp : precs env args = pre ++ d :: post) (hd : |fl 53 (1 + d) - 1| ≤ 1 / 2 ^ 9)
    (hpre : ∀ d' ∈ pre, Search env args a (precompensated env d' b) (.error .valueError))
    (j : Nat) (φ τ φ' τ' B E0 E1 : ℚ) (δ : Nat → ℚ) (w : Nat → Nat) (L : Nat)
    (hφ : 1 + φ = (1 + φ') * fl 53 (1 + d)) (hτ : τ = τ' * fl 53 (1 + d))
    (C : ClearRun (searchParams env args a (precompensated env d b)) (precompensated env d b) args.initialRes j φ' τ' B E0 E1 δ w L) :
    ∃ line x n k, Returns (fun fuel => fpMain env fuel args) (.ok (some line)) ∧ Printed ⟨.inl x, some n⟩ line ∧ 1 - 1 / 2 ^ 8 ≤ 1 + x ∧ k ≤ L ∧
      ∀ ε R, ε = args.finalRes + δ k + 2 ^ args.bufferOrder * args.finalRes / 2 ^ 50 →
      R = (k + 1) * (B + (k + 1) * (101 * 10 ^ 6)) / 2 ^ 49 → ∀ t, 0 ≤ t → |targetClock φ' τ' t| ≤ B →
        |corrected n x (targetClock φ τ t) - t| ≤
          (ε + R + 2 * (ε + R) * (t / (searchParams env args a (precompensated env d b)).sep)) * (1 + 1 / 2 ^ 10) + 4 * R +
            (1 / 2 + 1 / 2 ^ 8) := by
  obtain ⟨dt, df, k, h1, hdf, hlo, hk, h2⟩ := printed_core env henv args hfull a b hin pre post d hp hd hpre j φ τ φ' τ' B E0 E1 δ w L hφ hτ C
  refine ⟨_, df, rne dt, k, h1, ?_, hlo, hk, ?_⟩
  · have := C86_output args.output dt df hdf
    rw [hout] at this ⊢
    simpa [fpOutput] using this
  · intro ε R hε hR t ht hBt
    have key := h2 ε R hε hR t ht hBt
    have hpos : 0 < 1 + df := lt_of_lt_of_le (by norm_num) hlo
    have hrn : |corrected (rne dt) df (targetClock φ τ t) - corrected dt df (targetClock φ τ t)| ≤ 1 / 2 + 1 / 2 ^ 8 := by
      unfold corrected
      rw [← sub_div, abs_div, abs_of_pos hpos, div_le_iff₀ hpos]
      have h5 : |(rne dt : ℚ) - dt| ≤ 1 / 2 := rne_spec dt
      have h6 : targetClock φ τ t - (rne dt : ℚ) - (targetClock φ τ t - dt) = -((rne dt : ℚ) - dt) := by ring
      rw [h6, abs_neg]
      refine h5.trans ?_
      have : (1 / 2 + 1 / 2 ^ 8 : ℚ) * (1 - 1 / 2 ^ 8) ≤ (1 / 2 + 1 / 2 ^ 8) * (1 + df) := mul_le_mul_of_nonneg_left hlo (by norm_num)
      refine le_trans ?_ this
      norm_num
    have s1 := abs_sub_le (corrected (rne dt) df (targetClock φ τ t)) (corrected dt df (targetClock φ τ t)) t
    linarith

/-- **C106** Let the searches for the precompensations before `d` fail, and let the true coincidences stand out in every iteration
of the search for the precompensation `d` (`ClearRun`, for the clock after that precompensation).  Then fpfind prints a line, and
frequency and time on it map every target time to within about the final resolution, the jitter, rounding and 1/2 ns of the
reference time, plus twice the resolution and the jitter per separation of the windows. -/
theorem C106_printed (env : NumEnv) (henv : env.rnd = fl 53) (args : FpMainArgs) (hfull : args.precompFullscan = false)
    (hout : args.output = 0) (a b : List ℚ) (hin : Input env args a b) (pre post : List ℚ) (d : ℚ)
    (hp : precs env args = pre ++ d :: post) (hd : |fl 53 (1 + d) - 1| ≤ 1 / 2 ^ 9)
    (hpre : ∀ d' ∈ pre, Search env args a (precompensated env d' b) (.error .valueError))
    (j : Nat) (φ τ φ' τ' B E0 E1 : ℚ) (δ : Nat → ℚ) (w : Nat → Nat) (L : Nat)
    (hφ : 1 + φ = (1 + φ') * fl 53 (1 + d)) (hτ : τ = τ' * fl 53 (1 + d))
    (C : ClearRun (searchParams env args a (precompensated env d b)) (precompensated env d b) args.initialRes j φ' τ' B E0 E1 δ w L) :
    ∃ line x n k, Returns (fun fuel => fpMain env fuel args) (.ok (some line)) ∧ Printed ⟨.inl x, some n⟩ line ∧ k ≤ L ∧
      ∀ ε R, ε = args.finalRes + δ k + 2 ^ args.bufferOrder * args.finalRes / 2 ^ 50 →
      R = (k + 1) * (B + (k + 1) * (101 * 10 ^ 6)) / 2 ^ 49 → ∀ t, 0 ≤ t → |targetClock φ' τ' t| ≤ B →
        |corrected n x (targetClock φ τ t) - t| ≤
          (ε + R + 2 * (ε + R) * (t / (searchParams env args a (precompensated env d b)).sep)) * (1 + 1 / 2 ^ 10) + 4 * R +
            (1 / 2 + 1 / 2 ^ 8) := by
  obtain ⟨line, x, n, k, h1, h2, -, h3⟩ := printed_line env henv args hfull hout a b hin pre post d hp hd hpre j φ τ φ' τ' B E0 E1 δ w L hφ hτ C
  exact ⟨line, x, n, k, h1, h2, h3⟩

/-! ## Instance: two timestamp files, five common events in each window, a jitter of 1/8 ns and one other event -/

def printEnv : NumEnv := { rnd := fl 53, rndA := fl 64, xcorr := roughXcorr, signif := fun _ _ => .ok 10 }

def printArgs : FpMainArgs :=
  { sendfiles := none, t1files := none,
    reference := some [1, 0, 0, 0, 0, 0, 0, 0, 1, 0, 96, 0, 0, 0, 0, 0, 1, 0, 120, 0, 0, 0, 0, 0, 1, 0, 196, 0, 0, 0, 0, 0, 1, 0, 8,
      1, 0, 0, 0, 0, 1, 0, 24, 1, 0, 0, 0, 0, 1, 0, 96, 9, 61, 0, 0, 0, 1, 0, 120, 9, 61, 0, 0, 0, 1, 0, 196, 9, 61,
      0, 0, 0, 1, 0, 8, 10, 61, 0, 0, 0, 1, 0, 24, 10, 61, 0, 0, 0],
    target := some [1, 0, 0, 0, 0, 0, 0, 0, 1, 128, 108, 0, 0, 0, 0, 0, 1, 0, 132, 0, 0, 0, 0, 0, 1, 128, 208, 0, 0, 0, 0, 0, 1,
      128, 20, 1, 0, 0, 0, 0, 1, 128, 36, 1, 0, 0, 0, 0, 1, 0, 148, 9, 61, 0, 0, 0, 1, 0, 172, 9, 61, 0, 0, 0, 1, 0,
      248, 9, 61, 0, 0, 0, 1, 0, 60, 10, 61, 0, 0, 0, 1, 0, 76, 10, 61, 0, 0, 0],
    legacy := false, skipDuration := 0, firstEpoch := none, skipEpochs := 0, initialRes := 2, bufferOrder := 6, numWraps := 1,
    separation := 15625 / 2, finalRes := 1, threshold := 6, output := 0, precompEnable := false, precompStart := 0,
    precompStep := 0, precompStop := 0, precompOrdered := false, precompFullscan := false }

def printA : List ℚ := [0, 24, 30, 49, 66, 70, 1000024, 1000030, 1000049, 1000066, 1000070]

def printB : List ℚ := [0, 217 / 8, 33, 417 / 8, 553 / 8, 585 / 8, 1000037, 1000043, 1000062, 1000079, 1000083]

theorem print_input : Input printEnv printArgs printA printB := by
  refine ⟨⟨0, fun fuel _ => ?_⟩, by simp [printA], by simp [printB]⟩
  have h1 : mainInput printEnv.rnd printEnv.rndA fuel printArgs.toFpArgs = mainInput printEnv.rnd printEnv.rndA 0 printArgs.toFpArgs := by
    unfold mainInput
    rw [load_fuel printEnv.rnd printArgs.toFpArgs (Or.inl rfl) fuel]
  show mainInput printEnv.rnd printEnv.rndA fuel printArgs.toFpArgs = _
  rw [h1]
  decide +kernel

/-- The parameters of the search. -/
def printParams : TFParams :=
  { ats := printA, numBins := 64, target := 1, threshold := 6, sep := 1000000, duration := 128, endTime := 1000070, rnd := fl 53,
    rndA := fl 64, xcorr := roughXcorr, signif := fun _ _ => .ok 10 }

theorem print_params : searchParams printEnv printArgs printA (precompensated printEnv 0 printB) = printParams := by
  have h1 : fl 53 (15625 / 2 * fl 53 ((2 * 2 ^ 6 * 1 : Nat) : ℚ)) = 1000000 := by decide +kernel
  have h2 : min (printA.getLastD 0) ((precompensated printEnv 0 printB).getLastD 0) = 1000070 := by decide +kernel
  unfold searchParams printParams
  rw [h2]
  simp only [printEnv, printArgs]
  rw [h1]
  norm_num

theorem print_target : precompensated printEnv 0 printB = printB := by decide +kernel

def printFirst : TFEntry := { bts := printB, dt1 := 2, df1 := 5902958103587057 / 590295810358705651712 }

def printSecond : List ℚ :=
  [-18446559608113469273 / 9223372036854775808, 14483431567307841109 / 576460752303423488,
    8935052310179961679 / 288230376151711744, 14447403130573244489 / 288230376151711744,
    4836817631619596191 / 72057594037927936, 10250090250992738297 / 144115188075855872,
    4398156461167276679 / 4398046511104, 17592731396729852605 / 17592186044416,
    17593065644922214585 / 17592186044416, 137448161789799437 / 137438953472,
    17593435077134825195 / 17592186044416]

theorem print_clear_first (start : ℚ) (hs : start = 0 ∨ start = 1000000) :
    ClearAt printParams printB 2 start (targetClock (1 / 100000) 3 start - start) (1 / 5) 3 := by
  have hd : acqDurationFl 64 2 128 1000070 = 128 := by decide +kernel
  unfold ClearAt ClearIn
  simp only [printParams]
  rw [hd]
  rcases hs with rfl | rfl
  · have hD : targetClock (1 / 100000) 3 0 - 0 = 3 := by norm_num [targetClock]
    rw [hD]
    exact ⟨by norm_num, standsOut_check [1, 2] (by norm_num) (by decide +kernel) (by decide +kernel) (by decide +kernel),
      accurate_check (by decide +kernel) (by decide +kernel), by norm_num [abs_of_pos]⟩
  · have hD : targetClock (1 / 100000) 3 1000000 - 1000000 = 13 := by norm_num [targetClock]
    rw [hD]
    exact ⟨by norm_num, standsOut_check [6, 7] (by norm_num) (by decide +kernel) (by decide +kernel) (by decide +kernel),
      accurate_check (by decide +kernel) (by decide +kernel), by norm_num [abs_of_pos]⟩

theorem print_clear_second (start : ℚ) (hs : start = 0 ∨ start = 1000000) :
    ClearAt printParams printSecond 1 start
      (composedR (fl 53) (fl 64) [printFirst] (targetClock (1 / 100000) 3 start) - start) (1 / 5) 3 := by
  have hd : acqDurationFl 64 1 128 1000070 = 128 := by decide +kernel
  unfold ClearAt ClearIn
  simp only [printParams]
  rw [hd]
  rcases hs with rfl | rfl
  · exact ⟨by norm_num, standsOut_check [0, 1, 2] (by norm_num) (by decide +kernel) (by decide +kernel) (by decide +kernel),
      accurate_check (by decide +kernel) (by decide +kernel), by decide +kernel⟩
  · exact ⟨by norm_num, standsOut_check [0, 1, 2] (by norm_num) (by decide +kernel) (by decide +kernel) (by decide +kernel),
      accurate_check (by decide +kernel) (by decide +kernel), by decide +kernel⟩

theorem print_resolution : resolutionAt printParams 2 0 1 = 1 := by decide +kernel

theorem print_history (pre : List TFEntry) (h : History printParams printB 2 0 pre) : pre = [] ∨ pre = [printFirst] := by
  have hl : pre.length ≤ 1 := history_length h print_resolution
  rcases pre with _ | ⟨e, _ | ⟨e', t⟩⟩
  · exact Or.inl rfl
  · right
    obtain ⟨h1, ⟨h2, ys2, dt2, h3, h4⟩, -⟩ := h 0 e rfl
    have hb : e.bts = printB := by
      rw [h1, List.take_zero, composedR_nil, List.map_id]
    have r0 : resolutionAt printParams 2 0 0 = 2 := rfl
    rw [hb] at h2 h3
    rw [r0] at h3
    have c1 : e.dt1 = 2 := earlyDelay_eq (by decide +kernel) h2 (by decide +kernel)
    have c2 : (tfCorrelate printParams printB 2 printParams.sep (windowAt printParams 2 0 0)).map Prod.snd = .ok 12 := by
      decide +kernel
    rw [h3] at c2
    simp only [Except.map, Except.ok.injEq] at c2
    rw [c1, c2] at h4
    have c3 : printParams.rnd (printParams.rnd (12 - 2) / printParams.sep) = 5902958103587057 / 590295810358705651712 := by
      decide +kernel
    rw [c3] at h4
    cases e
    simp only at hb c1 h4
    subst hb c1 h4
    rfl
  · simp at hl

theorem print_run : ClearRun printParams printB 2 0 (1 / 100000) 3 (2 * 10 ^ 6) (23 / 10) (13 / 10) (fun _ => 1 / 5) (fun _ => 3) 1 where
  rnd := rfl
  rndA := rfl
  bins := by norm_num [printParams]
  target := by norm_num [printParams]
  duration := by norm_num [printParams]
  separation := by norm_num [printParams, resRefineFactor]
  resolution := ⟨by norm_num, by decide +kernel⟩
  merging := ⟨⟨64, rfl⟩, Or.inl rfl⟩
  last := print_resolution
  few := by norm_num
  significance := fun _ _ _ _ _ _ => ⟨10, rfl⟩
  significant := by
    intro ys d _
    exact ⟨⟨10, rfl, by norm_num, by norm_num [printParams]⟩, by simp⟩
  clearEarly := by
    have := print_clear_first 0 (Or.inl rfl)
    have hD : targetClock (1 / 100000) 3 0 - 0 = 3 := by norm_num [targetClock]
    rw [hD] at this
    exact clearMerged_zero this
  clearLate := by
    have := print_clear_first 1000000 (Or.inr rfl)
    rw [pow_zero, one_mul]
    exact this
  clear := by
    intro pre hne h start hs
    rcases print_history pre h with rfl | rfl
    · exact absurd rfl hne
    · have : printB.map (composedR printParams.rnd printParams.rndA [printFirst]) = printSecond := by decide +kernel
      rw [this, List.length_singleton, print_resolution]
      exact print_clear_second start hs
  times := by norm_num [printParams, targetClock, abs_of_pos]
  errorFirst := by
    have r0 : resolutionAt printParams 2 0 0 = 2 := rfl
    unfold errorAt
    rw [r0]
    norm_num [printParams]
  errorLater := by
    intro k h0 h1
    obtain rfl : k = 1 := by omega
    unfold errorAt
    rw [print_resolution]
    norm_num [printParams]
  errors := by norm_num
  rounding := by norm_num
  offset := by norm_num [abs_of_pos]
  frequency := by norm_num [printParams, abs_of_pos]
  guardDelay := Or.inl (by norm_num [abs_of_pos])
  guardFrequency := Or.inl (by norm_num [printParams, abs_of_pos])

/-- Instance of C106: the result printed for the two files is right up to 5 ns in the first millisecond. -/
example : ∃ line x n, Returns (fun fuel => fpMain printEnv fuel printArgs) (.ok (some line)) ∧ Printed ⟨.inl x, some n⟩ line ∧
    ∀ t, 0 ≤ t → t ≤ 1000000 → |corrected n x (targetClock (1 / 100000) 3 t) - t| ≤ 5 := by
  have hF : fl 53 (1 + 0) = 1 := by decide +kernel
  obtain ⟨line, x, n, k, h1, h2, h3, h4⟩ := C106_printed printEnv rfl printArgs rfl rfl printA printB print_input [] [] 0 rfl
    (by rw [hF]; norm_num) (by simp) 0 (1 / 100000) 3 (1 / 100000) 3 _ _ _ _ _ _ (by rw [hF]; ring) (by rw [hF]; ring)
    (by
      rw [print_params, print_target]
      have : ((printArgs.initialRes : Nat) : ℚ) = 2 := by norm_num [printArgs]
      rw [this]
      exact print_run)
  refine ⟨line, x, n, h1, h2, fun t ht ht' => ?_⟩
  refine (h4 _ _ rfl rfl t ht ?_).trans ?_
  · unfold targetClock
    rw [abs_of_nonneg (by positivity)]
    linarith
  · rw [print_params]
    simp only [printParams, printArgs]
    have hk : (k : ℚ) ≤ 1 := by exact_mod_cast h3
    have hk0 : (0 : ℚ) ≤ k := by positivity
    have hR : ((k : ℚ) + 1) * (2 * 10 ^ 6 + (k + 1) * (101 * 10 ^ 6)) / 2 ^ 49 ≤ 1 / 10000 := by
      rw [div_le_iff₀ (by norm_num)]
      nlinarith
    have hR0 : 0 ≤ ((k : ℚ) + 1) * (2 * 10 ^ 6 + (k + 1) * (101 * 10 ^ 6)) / 2 ^ 49 := by positivity
    generalize ((k : ℚ) + 1) * (2 * 10 ^ 6 + (k + 1) * (101 * 10 ^ 6)) / 2 ^ 49 = R at *
    have hq : t / 1000000 ≤ 1 := by rw [div_le_iff₀ (by norm_num)]; linarith
    have hq0 : 0 ≤ t / 1000000 := by positivity
    generalize t / 1000000 = q at *
    norm_num
    nlinarith

end Fp
