import Verif.Props.FpInputRun
import Verif.Spec.Exchange

/-! # C125: exchanging the two recordings -/
namespace Fp
open Spec

theorem normalize_swap (rnd rndA : ℚ → ℚ) (x y a b : List ℚ) (s : ℚ) (h : normalizeTimestampsR rnd rndA [x, y] s true = .ok [a, b]) :
    normalizeTimestampsR rnd rndA [y, x] s true = .ok [b, a] := by
  rcases x with _ | ⟨x0, x⟩
  · simp [normalizeTimestampsR, bind, Except.bind, pure, Except.pure, List.mapM_cons] at h
  rcases y with _ | ⟨y0, y⟩
  · simp [normalizeTimestampsR, bind, Except.bind, pure, Except.pure, List.mapM_cons] at h
  simp only [normalizeTimestampsR, bind, Except.bind, pure, Except.pure, List.mapM_cons, List.mapM_nil, if_true, List.foldl_cons,
    List.foldl_nil] at h ⊢
  rw [max_comm y0 x0]
  generalize sliceTimestampsR rndA (x0 :: x) _ none = u at h ⊢
  generalize sliceTimestampsR rndA (y0 :: y) _ none = v at h ⊢
  rcases u with _ | u <;> rcases v with _ | v <;> simp at h ⊢
  exact ⟨h.2, h.1⟩

/-- The normalised times after exchanging the timestamp files. -/
theorem input_exchange (env : NumEnv) (args : FpMainArgs) (a b : List ℚ) (hin : Input env args a b)
    (hts : args.sendfiles = none ∨ args.t1files = none) : Input env (exchangedFiles args) b a := by
  obtain ⟨⟨N, hN⟩, ha, hb⟩ := hin
  refine ⟨⟨N, fun fuel hf => ?_⟩, hb, ha⟩
  have h := hN fuel hf
  dsimp only at h ⊢
  unfold mainInput at h ⊢
  have hl : ∀ A B s, loadInput env.rnd fuel args.toFpArgs = some (.ok (some (A, B, s))) →
      loadInput env.rnd fuel (exchangedFiles args).toFpArgs = some (.ok (some (B, A, s))) := by
    intro A B s hl
    obtain ⟨⟨sf, tf, r, g, l, k, e, m, i, o, n, p⟩, _⟩ := args
    simp only at hts
    simp only [exchangedFiles]
    have key : ∀ r g : Bytes, (match readA1 64 l .ns1 true r, readA1 64 l .ns1 true g with
        | .error e, _ => some (.error e)
        | _, .error e => some (.error e)
        | .ok alice, .ok bob => some (.ok (some (alice.map (·.1.val), bob.map (·.1.val), k))) : Option (Except PyErr (Option (List ℚ × List ℚ × ℚ)))) =
          some (.ok (some (A, B, s))) → (match readA1 64 l .ns1 true g, readA1 64 l .ns1 true r with
        | .error e, _ => some (.error e)
        | _, .error e => some (.error e)
        | .ok alice, .ok bob => some (.ok (some (alice.map (·.1.val), bob.map (·.1.val), k))) : Option (Except PyErr (Option (List ℚ × List ℚ × ℚ)))) =
          some (.ok (some (B, A, s))) := by
      intro r g
      rcases readA1 64 l .ns1 true r with _ | u <;> rcases readA1 64 l .ns1 true g with _ | v <;> simp
      intro h1 h2 h3
      exact ⟨h2, h1, h3⟩
    rcases hts with rfl | rfl
    · rcases g with _ | g <;> rcases r with _ | r <;> rcases tf with _ | tf <;> first | exact key _ _ hl | simp [loadInput] at hl
    · rcases g with _ | g <;> rcases r with _ | r <;> rcases sf with _ | sf <;> first | exact key _ _ hl | simp [loadInput] at hl
  rcases hL : loadInput env.rnd fuel args.toFpArgs with _ | (e | (_ | ⟨A, B, s⟩))
  · rw [hL] at h; simp at h
  · rw [hL] at h; simp at h
  · rw [hL] at h; simp at h
  · rw [hL] at h
    rw [hl A B s hL]
    simp only [Option.some.injEq] at h ⊢
    rcases hn : normalizeTimestampsR env.rnd env.rndA [A, B] s true with _ | l
    · rw [hn] at h; simp [Except.map] at h
    · rw [hn] at h
      simp only [Except.map, Except.ok.injEq, Option.some.injEq] at h
      rw [h] at hn
      rw [normalize_swap _ _ _ _ _ _ _ hn]
      rfl

/-- A correction that is right at two times has about the right frequency. -/
theorem slope_error {x n φ τ T e0 e1 : ℚ} (hx : 0 < 1 + x) (hT : 0 < T) (h0 : |corrected n x (targetClock φ τ 0) - 0| ≤ e0)
    (h1 : |corrected n x (targetClock φ τ T) - T| ≤ e1) : |(1 + φ) / (1 + x) - 1| ≤ (e1 + e0) / T := by
  have e : (1 + φ) / (1 + x) - 1 = ((corrected n x (targetClock φ τ T) - T) - (corrected n x (targetClock φ τ 0) - 0)) / T := by
    unfold corrected targetClock
    field_simp
    ring
  rw [e, abs_div, abs_of_pos hT]
  apply div_le_div_of_nonneg_right _ hT.le
  exact (abs_sub _ _).trans (add_le_add h1 h0)

/-- The arithmetic of the exchange. -/
theorem exchange_arith {x1 n1 x2 n2 φ τ e1 e2 s1 s2 : ℚ} (hφ : |φ| ≤ 1 / 2 ^ 8) (hx1 : 0 < 1 + x1) (hx2 : 0 < 1 + x2)
    (h1 : |(1 + φ) / (1 + x1) - 1| ≤ s1) (h2 : |(1 / (1 + φ)) / (1 + x2) - 1| ≤ s2) (hs1 : s1 ≤ 1 / 100) (hs2 : s2 ≤ 1 / 100)
    (g1 : |(τ - n1) / (1 + x1)| ≤ e1) (g2 : |(-τ / (1 + φ) - n2) / (1 + x2)| ≤ e2) :
    |(1 + x1) * (1 + x2) - 1| ≤ 103 / 100 * (s1 + s2) ∧
      |n1 / (1 + x1) + n2| ≤ 101 / 100 * (|τ| * s1) + e1 + 102 / 100 * e2 := by
  have hφ' := abs_le.mp hφ
  norm_num at hφ'
  have hφ0 : 0 < 1 + φ := by linarith
  obtain ⟨σ1, hσ1⟩ : ∃ σ, σ = (1 + φ) / (1 + x1) - 1 := ⟨_, rfl⟩
  obtain ⟨σ2, hσ2⟩ : ∃ σ, σ = (1 / (1 + φ)) / (1 + x2) - 1 := ⟨_, rfl⟩
  rw [← hσ1] at h1
  rw [← hσ2] at h2
  have b1 := abs_le.mp (h1.trans hs1)
  have b2 := abs_le.mp (h2.trans hs2)
  have i1 : (1 + σ1) * (1 + x1) = 1 + φ := by
    rw [hσ1]; field_simp; ring
  have i2 : (1 + σ2) * (1 + x2) * (1 + φ) = 1 := by
    rw [hσ2]; field_simp; ring
  obtain ⟨p, hp⟩ : ∃ p, p = (1 + x1) * (1 + x2) := ⟨_, rfl⟩
  have hp0 : 0 < p := by rw [hp]; positivity
  have ip : (1 + σ1) * (1 + σ2) * p = 1 := by
    rw [hp]
    calc (1 + σ1) * (1 + σ2) * ((1 + x1) * (1 + x2)) = (1 + σ2) * (1 + x2) * ((1 + σ1) * (1 + x1)) := by ring
      _ = 1 := by rw [i1]; exact i2
  have c1 : (99 / 100 : ℚ) ≤ 1 + σ1 := by linarith
  have c2 : (99 / 100 : ℚ) ≤ 1 + σ2 := by linarith
  have hp1 : p ≤ 1021 / 1000 := by
    have : (99 / 100 : ℚ) * (99 / 100) * p ≤ (1 + σ1) * (1 + σ2) * p :=
      mul_le_mul_of_nonneg_right (mul_le_mul c1 c2 (by norm_num) (by linarith)) hp0.le
    rw [ip] at this
    linarith
  have hs10 : 0 ≤ s1 := (abs_nonneg _).trans h1
  have hs20 : 0 ≤ s2 := (abs_nonneg _).trans h2
  refine ⟨?_, ?_⟩
  · rw [← hp]
    have e : p - 1 = -(σ1 + σ2 + σ1 * σ2) * p := by
      have : p - 1 = p - (1 + σ1) * (1 + σ2) * p := by rw [ip]
      rw [this]; ring
    rw [e, abs_mul, abs_neg, abs_of_pos hp0]
    have t1 := abs_add_le (σ1 + σ2) (σ1 * σ2)
    have t2 := abs_add_le σ1 σ2
    have t3 : |σ1 * σ2| ≤ s1 * (1 / 100) := by
      rw [abs_mul]
      exact mul_le_mul h1 (h2.trans hs2) (abs_nonneg _) hs10
    have t4 : |σ1 + σ2 + σ1 * σ2| ≤ 101 / 100 * s1 + s2 := by linarith
    have t5 : |σ1 + σ2 + σ1 * σ2| * p ≤ (1005 / 1000 * (s1 + s2)) * (1021 / 1000) := by
      have t4' : |σ1 + σ2 + σ1 * σ2| ≤ 1005 / 1000 * (s1 + s2) := by
        have t3' : |σ1 * σ2| ≤ (1 / 100) * s2 := by
          rw [abs_mul]
          exact mul_le_mul (h1.trans hs1) h2 (abs_nonneg _) (by norm_num)
        linarith
      exact mul_le_mul t4' hp1 hp0.le (by positivity)
    linarith
  · have hx2' : 1 + x2 ≤ 102 / 100 := by
      have : (99 / 100 : ℚ) * (996 / 1000) * (1 + x2) ≤ 1 := by
        have h3 : (99 / 100 : ℚ) * (996 / 1000) ≤ (1 + σ2) * (1 + φ) := mul_le_mul c2 (by linarith) (by norm_num) (by linarith)
        have h4 := mul_le_mul_of_nonneg_right h3 hx2.le
        have h5 : (1 + σ2) * (1 + φ) * (1 + x2) = 1 := by linear_combination i2
        linarith
      linarith
    have e : n1 / (1 + x1) + n2 = τ / (1 + φ) * σ1 - (τ - n1) / (1 + x1) - (-τ / (1 + φ) - n2) / (1 + x2) * (1 + x2) := by
      rw [div_mul_cancel₀ _ hx2.ne', hσ1]
      field_simp
      ring
    have t1 : |τ / (1 + φ) * σ1| ≤ 101 / 100 * (|τ| * s1) := by
      rw [abs_mul, abs_div, abs_of_pos hφ0]
      have : |τ| / (1 + φ) ≤ 101 / 100 * |τ| := by
        rw [div_le_iff₀ hφ0]
        nlinarith [abs_nonneg τ]
      calc |τ| / (1 + φ) * |σ1| ≤ 101 / 100 * |τ| * s1 := mul_le_mul this h1 (abs_nonneg _) (by positivity)
        _ = _ := by ring
    have t2 : |(-τ / (1 + φ) - n2) / (1 + x2) * (1 + x2)| ≤ 102 / 100 * e2 := by
      rw [abs_mul, abs_of_pos hx2, mul_comm]
      exact mul_le_mul hx2' g2 (abs_nonneg _) (by norm_num)
    rw [e]
    have t3 := abs_sub (τ / (1 + φ) * σ1 - (τ - n1) / (1 + x1)) ((-τ / (1 + φ) - n2) / (1 + x2) * (1 + x2))
    have t4 := abs_sub (τ / (1 + φ) * σ1) ((τ - n1) / (1 + x1))
    linarith

/-- **C125** Let the true coincidences stand out in every iteration both for fpfind with the recordings `a` and `b` and for fpfind
with the two timestamp files exchanged.  Then both print a line, and the two frequencies and times undo each other, as
documented: the product of the factors is 1, and the time of one, in units of the other clock, is the opposite of the time of the
other, up to the errors at time 0 and at any later time `T`. -/
theorem C125_exchange (env : NumEnv) (henv : env.rnd = fl 53) (args : FpMainArgs) (hts : args.sendfiles = none ∨ args.t1files = none)
    (hfull : args.precompFullscan = false) (hout : args.output = 0) (a b : List ℚ) (hin : Input env args a b) (φ τ : ℚ)
    -- the call
    (pre post : List ℚ) (d : ℚ) (hp : precs env args = pre ++ d :: post) (hd : |fl 53 (1 + d) - 1| ≤ 1 / 2 ^ 9)
    (hpre : ∀ d' ∈ pre, Search env args a (precompensated env d' b) (.error .valueError))
    (j : Nat) (φ1 τ1 B E0 E1 : ℚ) (δ : Nat → ℚ) (w : Nat → Nat) (L : Nat)
    (hφ : 1 + φ = (1 + φ1) * fl 53 (1 + d)) (hτ : τ = τ1 * fl 53 (1 + d))
    (C : ClearRun (searchParams env args a (precompensated env d b)) (precompensated env d b) args.initialRes j φ1 τ1 B E0 E1 δ w L)
    -- the call with exchanged files
    (pre' post' : List ℚ) (d' : ℚ) (hp' : precs env args = pre' ++ d' :: post') (hd' : |fl 53 (1 + d') - 1| ≤ 1 / 2 ^ 9)
    (hpre' : ∀ e ∈ pre', Search env args b (precompensated env e a) (.error .valueError))
    (j' : Nat) (φ2 τ2 B' E0' E1' : ℚ) (δ' : Nat → ℚ) (w' : Nat → Nat) (L' : Nat)
    (hφ' : 1 / (1 + φ) = (1 + φ2) * fl 53 (1 + d')) (hτ' : -τ / (1 + φ) = τ2 * fl 53 (1 + d'))
    (C' : ClearRun (searchParams env args b (precompensated env d' a)) (precompensated env d' a) args.initialRes j' φ2 τ2 B' E0' E1' δ'
      w' L') :
    ∃ line x n k line' x' n' k', Returns (fun fuel => fpMain env fuel args) (.ok (some line)) ∧ Printed ⟨.inl x, some n⟩ line ∧ k ≤ L ∧
      Returns (fun fuel => fpMain env fuel (exchangedFiles args)) (.ok (some line')) ∧ Printed ⟨.inl x', some n'⟩ line' ∧ k' ≤ L' ∧
      ∀ (e e' : ℚ → ℚ), (∀ t, e t = printedError args (searchParams env args a (precompensated env d b)).sep B (δ k) k t) →
      (∀ t, e' t = printedError args (searchParams env args b (precompensated env d' a)).sep B' (δ' k') k' t) →
      ∀ T, 0 < T → |targetClock φ1 τ1 T| ≤ B → |targetClock φ2 τ2 T| ≤ B' → e T + e 0 ≤ T / 100 → e' T + e' 0 ≤ T / 100 →
        |(1 + x) * (1 + x') - 1| ≤ 103 / 100 * ((e T + e 0) / T + (e' T + e' 0) / T) ∧
        |n / (1 + x) + n'| ≤ 101 / 100 * (|τ| * ((e T + e 0) / T)) + e 0 + 102 / 100 * e' 0 := by
  have hin' := input_exchange env args a b hin hts
  obtain ⟨line, x, n, k, h1, h2, hx, hk, h3⟩ := printed_line env henv args hfull hout a b hin pre post d hp hd hpre j φ τ φ1 τ1 B E0 E1 δ w L
    hφ hτ C
  obtain ⟨line', x', n', k', h1', h2', hx', hk', h3'⟩ := printed_line env henv (exchangedFiles args) hfull hout b a hin' pre' post' d' hp' hd'
    hpre' j' (1 / (1 + φ) - 1) (-τ / (1 + φ)) φ2 τ2 B' E0' E1' δ' w' L' (by rw [← hφ']; ring) hτ' C'
  refine ⟨line, x, n, k, line', x', n', k', h1, h2, hk, h1', h2', hk', ?_⟩
  intro e e' he he' T hT hB hB' hs hs'
  have hpos : 0 < 1 + x := lt_of_lt_of_le (by norm_num) hx
  have hpos' : 0 < 1 + x' := lt_of_lt_of_le (by norm_num) hx'
  have k0 : |corrected n x (targetClock φ τ 0) - 0| ≤ e 0 := by
    rw [he]; exact h3 _ _ rfl rfl 0 le_rfl C.times.1
  have kT : |corrected n x (targetClock φ τ T) - T| ≤ e T := by
    rw [he]; exact h3 _ _ rfl rfl T hT.le hB
  have k0' : |corrected n' x' (targetClock (1 / (1 + φ) - 1) (-τ / (1 + φ)) 0) - 0| ≤ e' 0 := by
    rw [he']; exact h3' _ _ rfl rfl 0 le_rfl C'.times.1
  have kT' : |corrected n' x' (targetClock (1 / (1 + φ) - 1) (-τ / (1 + φ)) T) - T| ≤ e' T := by
    rw [he']; exact h3' _ _ rfl rfl T hT.le hB'
  have s1 := slope_error hpos hT k0 kT
  have s2 := slope_error hpos' hT k0' kT'
  rw [show 1 + (1 / (1 + φ) - 1) = 1 / (1 + φ) by ring] at s2
  have hφb : |φ| ≤ 1 / 2 ^ 8 := by
    have hf := C.frequency
    have hE : 0 ≤ 3 * E0 / (searchParams env args a (precompensated env d b)).sep := by
      have r := C.rounding
      have hB0 : 0 ≤ B := (abs_nonneg _).trans C.times.1
      have : (0 : ℚ) ≤ (L + 1) * (B + (L + 1) * (101 * 10 ^ 6)) / 2 ^ 49 := by positivity
      have hE := C.errors
      exact div_nonneg (by linarith) (base_sep C.toRunBase).le
    have f1 : |φ1| ≤ 1 / 2 ^ 13 := by
      have : (0 : ℚ) ≤ 1 / 2 ^ 40 := by norm_num
      linarith
    rw [show φ = (fl 53 (1 + d) - 1) + φ1 * fl 53 (1 + d) by linear_combination hφ]
    have hF : |fl 53 (1 + d)| ≤ 2 := by
      have := abs_le.mp hd
      norm_num at this
      rw [abs_le]
      constructor <;> linarith
    have f2 := abs_add_le (fl 53 (1 + d) - 1) (φ1 * fl 53 (1 + d))
    have f3 : |φ1 * fl 53 (1 + d)| ≤ 1 / 2 ^ 13 * 2 := by
      rw [abs_mul]
      exact mul_le_mul f1 hF (abs_nonneg _) (by norm_num)
    have f4 : (1 / 2 ^ 9 : ℚ) + 1 / 2 ^ 13 * 2 ≤ 1 / 2 ^ 8 := by norm_num
    linarith
  rw [sub_zero] at k0 k0'
  rw [show corrected n x (targetClock φ τ 0) = (τ - n) / (1 + x) by unfold corrected targetClock; rw [zero_mul, zero_add]] at k0
  rw [show corrected n' x' (targetClock (1 / (1 + φ) - 1) (-τ / (1 + φ)) 0) = (-τ / (1 + φ) - n') / (1 + x') by
    unfold corrected targetClock; rw [zero_mul, zero_add]] at k0'
  exact exchange_arith hφb hpos hpos' s1 s2 (by rw [div_le_iff₀ hT]; linarith) (by rw [div_le_iff₀ hT]; linarith) k0 k0'

/-- **C125** The relation of the times in docs/explain.md has the factor on the other side.  With the sign of the frequency that
fpfind prints it fails by twice the product of time and frequency, up to the error of the relation that holds. -/
theorem C125_documented (x n n' e : ℚ) (hx : 0 < 1 + x) (h : |n / (1 + x) + n'| ≤ e) :
    |n| * |x| * ((2 + x) / (1 + x)) - e ≤ |n * (1 + x) + n'| := by
  have e1 : n * (1 + x) + n' = n * x * ((2 + x) / (1 + x)) + (n / (1 + x) + n') := by
    field_simp
    ring
  have h2 : |n * x * ((2 + x) / (1 + x))| = |n| * |x| * ((2 + x) / (1 + x)) := by
    rw [abs_mul, abs_mul, abs_of_pos (div_pos (by linarith) hx)]
  have h3 := abs_sub (n * (1 + x) + n') (n / (1 + x) + n')
  rw [show n * (1 + x) + n' - (n / (1 + x) + n') = n * x * ((2 + x) / (1 + x)) by rw [e1]; ring, h2] at h3
  linarith

/-- Instance: 3 ms and 10^-4, in ns. -/
example : 598 ≤ |(3000000 : ℚ) * (1 + 1 / 10000) + -2999700| := by
  refine le_trans ?_ (C125_documented (1 / 10000) 3000000 (-2999700) 1 (by norm_num) ?_)
  · norm_num [abs_of_pos]
  · rw [abs_le]
    norm_num

/-! ## Instance: the files of the example of C106, without one event, and the same exchanged -/

/-- Without the first of the coincidences. -/
def exArgs : FpMainArgs :=
  { printArgs with reference := printArgs.reference.map fun f => f.take 8 ++ f.drop 16
                   target := printArgs.target.map fun f => f.take 8 ++ f.drop 16 }

def exA : List ℚ := [0, 30, 49, 66, 70, 1000024, 1000030, 1000049, 1000066, 1000070]

def exB : List ℚ := [0, 33, 417 / 8, 553 / 8, 585 / 8, 1000037, 1000043, 1000062, 1000079, 1000083]

theorem ex_input : Input printEnv exArgs exA exB := by
  refine ⟨⟨0, fun fuel _ => ?_⟩, by simp [exA], by simp [exB]⟩
  have h1 : mainInput printEnv.rnd printEnv.rndA fuel exArgs.toFpArgs = mainInput printEnv.rnd printEnv.rndA 0 exArgs.toFpArgs := by
    unfold mainInput
    rw [load_fuel printEnv.rnd exArgs.toFpArgs (Or.inl rfl) fuel]
  show mainInput printEnv.rnd printEnv.rndA fuel exArgs.toFpArgs = _
  rw [h1]
  decide +kernel

def exParams : TFParams :=
  { ats := exA, numBins := 64, target := 1, threshold := 6, sep := 1000000, duration := 128, endTime := 1000070, rnd := fl 53,
    rndA := fl 64, xcorr := roughXcorr, signif := fun _ _ => .ok 10 }

theorem ex_params : searchParams printEnv exArgs exA (precompensated printEnv 0 exB) = exParams := by
  have h1 : fl 53 (15625 / 2 * fl 53 ((2 * 2 ^ 6 * 1 : Nat) : ℚ)) = 1000000 := by decide +kernel
  have h2 : min ((exA).getLastD 0) ((precompensated printEnv 0 exB).getLastD 0) = 1000070 := by decide +kernel
  unfold searchParams exParams
  rw [h2]
  simp only [printEnv, exArgs, printArgs]
  rw [h1]
  norm_num

theorem ex_target : precompensated printEnv 0 exB = exB := by decide +kernel

def exFirst : TFEntry := { bts := exB, dt1 := 2, df1 := 5902958103587057 / 590295810358705651712 }

theorem ex_clear_first (start : ℚ) (hs : start = 0 ∨ start = 1000000) :
    ClearAt exParams exB 2 start (targetClock (1 / 100000) (3) start - start) (1 / 5) 3 := by
  have hd : acqDurationFl 64 2 128 1000070 = 128 := by decide +kernel
  unfold ClearAt ClearIn
  simp only [exParams]
  rw [hd]
  rcases hs with rfl | rfl
  · exact ⟨by norm_num, standsOut_check [1, 2] (by norm_num) (by decide +kernel) (by decide +kernel) (by decide +kernel),
      accurate_check (by decide +kernel) (by decide +kernel), by decide +kernel⟩
  · exact ⟨by norm_num, standsOut_check [6, 7] (by norm_num) (by decide +kernel) (by decide +kernel) (by decide +kernel),
      accurate_check (by decide +kernel) (by decide +kernel), by decide +kernel⟩

def exSecond : List ℚ :=
  [-18446559608113469273 / 9223372036854775808, 8935052310179961679 / 288230376151711744, 14447403130573244489 / 288230376151711744,
    4836817631619596191 / 72057594037927936, 10250090250992738297 / 144115188075855872,
    4398156461167276679 / 4398046511104, 17592731396729852605 / 17592186044416,
    17593065644922214585 / 17592186044416, 137448161789799437 / 137438953472,
    17593435077134825195 / 17592186044416]

theorem ex_clear_second (start : ℚ) (hs : start = 0 ∨ start = 1000000) :
    ClearAt exParams exSecond 1 start
      (composedR (fl 53) (fl 64) [exFirst] (targetClock (1 / 100000) (3) start) - start) (1 / 5) 3 := by
  have hd : acqDurationFl 64 1 128 1000070 = 128 := by decide +kernel
  unfold ClearAt ClearIn
  simp only [exParams]
  rw [hd]
  rcases hs with rfl | rfl
  · have hD : composedR (fl 53) (fl 64) [exFirst] (targetClock (1 / 100000) (3) 0) - 0 = 18446559608113469273 / 18446744073709551616 := by decide +kernel
    rw [hD]
    exact ⟨by norm_num, standsOut_check [0, 1, 2] (by norm_num) (by decide +kernel) (by decide +kernel) (by decide +kernel),
      accurate_check (by decide +kernel) (by decide +kernel), by decide +kernel⟩
  · have hD : composedR (fl 53) (fl 64) [exFirst] (targetClock (1 / 100000) (3) 1000000) - 1000000 = 8796005061581 / 8796093022208 := by decide +kernel
    rw [hD]
    exact ⟨by norm_num, standsOut_check [0, 1, 2] (by norm_num) (by decide +kernel) (by decide +kernel) (by decide +kernel),
      accurate_check (by decide +kernel) (by decide +kernel), by decide +kernel⟩

theorem ex_resolution : resolutionAt exParams 2 0 1 = 1 := by decide +kernel

theorem ex_history (pre : List TFEntry) (h : History exParams exB 2 0 pre) : pre = [] ∨ pre = [exFirst] := by
  have hl : pre.length ≤ 1 := history_length h ex_resolution
  rcases pre with _ | ⟨e, _ | ⟨e', t⟩⟩
  · exact Or.inl rfl
  · right
    obtain ⟨h1, ⟨h2, ys2, dt2, h3, h4⟩, -⟩ := h 0 e rfl
    have hb : e.bts = exB := by
      rw [h1, List.take_zero, composedR_nil, List.map_id]
    have r0 : resolutionAt exParams 2 0 0 = 2 := rfl
    rw [hb] at h2 h3
    rw [r0] at h3
    have c1 : e.dt1 = 2 := earlyDelay_eq (by decide +kernel) h2 (by decide +kernel)
    have c2 : (tfCorrelate exParams exB 2 exParams.sep (windowAt exParams 2 0 0)).map Prod.snd = .ok (12) := by
      decide +kernel
    rw [h3] at c2
    simp only [Except.map, Except.ok.injEq] at c2
    rw [c1, c2] at h4
    have c3 : exParams.rnd (exParams.rnd (12 - 2) / exParams.sep) = 5902958103587057 / 590295810358705651712 := by
      decide +kernel
    rw [c3] at h4
    cases e
    simp only at hb c1 h4
    subst hb c1 h4
    rfl
  · simp at hl

theorem ex_run : ClearRun exParams exB 2 0 (1 / 100000) (3) (2 * 10 ^ 6) (23 / 10) (13 / 10) (fun _ => 1 / 5) (fun _ => 3) 1 where
  rnd := rfl
  rndA := rfl
  bins := by norm_num [exParams]
  target := by norm_num [exParams]
  duration := by norm_num [exParams]
  separation := by norm_num [exParams, resRefineFactor]
  resolution := ⟨by norm_num, by decide +kernel⟩
  merging := ⟨⟨64, rfl⟩, Or.inl rfl⟩
  last := ex_resolution
  few := by norm_num
  significance := fun _ _ _ _ _ _ => ⟨10, rfl⟩
  significant := by
    intro ys d _
    exact ⟨⟨10, rfl, by norm_num, by norm_num [exParams]⟩, by simp⟩
  clearEarly := by
    have := ex_clear_first 0 (Or.inl rfl)
    have hD : targetClock (1 / 100000) (3) 0 - 0 = 3 := by norm_num [targetClock]
    rw [hD] at this
    exact clearMerged_zero this
  clearLate := by
    have := ex_clear_first 1000000 (Or.inr rfl)
    rw [pow_zero, one_mul]
    exact this
  clear := by
    intro pre hne h start hs
    rcases ex_history pre h with rfl | rfl
    · exact absurd rfl hne
    · have : (exB).map (composedR exParams.rnd exParams.rndA [exFirst]) = exSecond := by decide +kernel
      rw [this, List.length_singleton, ex_resolution]
      exact ex_clear_second start hs
  times := by
    have h1 : |targetClock (1 / 100000) (3) 0| ≤ 2 * 10 ^ 6 := by decide +kernel
    have h2 : |targetClock (1 / 100000) (3) exParams.sep| ≤ 2 * 10 ^ 6 := by decide +kernel
    exact ⟨h1, h2, by norm_num [exParams]⟩
  errorFirst := by
    have r0 : resolutionAt exParams 2 0 0 = 2 := rfl
    unfold errorAt
    rw [r0]
    norm_num [exParams]
  errorLater := by
    intro k h0 h1
    obtain rfl : k = 1 := by omega
    unfold errorAt
    rw [ex_resolution]
    norm_num [exParams]
  errors := by norm_num
  rounding := by norm_num
  offset := by decide +kernel
  frequency := by decide +kernel
  guardDelay := Or.inl (by decide +kernel)
  guardFrequency := Or.inl (by decide +kernel)

def xeParams : TFParams :=
  { ats := exB, numBins := 64, target := 1, threshold := 6, sep := 1000000, duration := 128, endTime := 1000070, rnd := fl 53,
    rndA := fl 64, xcorr := roughXcorr, signif := fun _ _ => .ok 10 }

theorem xe_params : searchParams printEnv exArgs exB (precompensated printEnv 0 exA) = xeParams := by
  have h1 : fl 53 (15625 / 2 * fl 53 ((2 * 2 ^ 6 * 1 : Nat) : ℚ)) = 1000000 := by decide +kernel
  have h2 : min ((exB).getLastD 0) ((precompensated printEnv 0 exA).getLastD 0) = 1000070 := by decide +kernel
  unfold searchParams xeParams
  rw [h2]
  simp only [printEnv, exArgs, printArgs]
  rw [h1]
  norm_num

theorem xe_target : precompensated printEnv 0 exA = exA := by decide +kernel

def xeFirst : TFEntry := { bts := exA, dt1 := -2, df1 := -5902958103587057 / 590295810358705651712 }

theorem xe_clear_first (start : ℚ) (hs : start = 0 ∨ start = 1000000) :
    ClearAt xeParams exA 2 start (targetClock (-1 / 100001) (-300000 / 100001) start - start) (1 / 5) 3 := by
  have hd : acqDurationFl 64 2 128 1000070 = 128 := by decide +kernel
  unfold ClearAt ClearIn
  simp only [xeParams]
  rw [hd]
  rcases hs with rfl | rfl
  · exact ⟨by norm_num, standsOut_check [62, 63] (by norm_num) (by decide +kernel) (by decide +kernel) (by decide +kernel),
      accurate_check (by decide +kernel) (by decide +kernel), by decide +kernel⟩
  · exact ⟨by norm_num, standsOut_check [57, 58] (by norm_num) (by decide +kernel) (by decide +kernel) (by decide +kernel),
      accurate_check (by decide +kernel) (by decide +kernel), by decide +kernel⟩

def xeSecond : List ℚ :=
  [9223464271497490363 / 4611686018427387904, 9223464271497490363 / 288230376151711744, 7349948091349562633 / 144115188075855872,
    9799930788466083511 / 144115188075855872, 10376397305434676659 / 144115188075855872,
    4398204842361712121 / 4398046511104, 8796462461809328349 / 8796093022208, 549789349328001543 / 549755813888,
    8796779124324752991 / 8796093022208, 17593628618097378125 / 17592186044416]

theorem xe_clear_second (start : ℚ) (hs : start = 0 ∨ start = 1000000) :
    ClearAt xeParams xeSecond 1 start
      (composedR (fl 53) (fl 64) [xeFirst] (targetClock (-1 / 100001) (-300000 / 100001) start) - start) (1 / 5) 3 := by
  have hd : acqDurationFl 64 1 128 1000070 = 128 := by decide +kernel
  unfold ClearAt ClearIn
  simp only [xeParams]
  rw [hd]
  rcases hs with rfl | rfl
  · have hD : composedR (fl 53) (fl 64) [xeFirst] (targetClock (-1 / 100001) (-300000 / 100001) 0) - 0 = -4611593785168178525 / 4611686018427387904 := by decide +kernel
    rw [hD]
    exact ⟨by norm_num, standsOut_check [62, 63, 0] (by norm_num) (by decide +kernel) (by decide +kernel) (by decide +kernel),
      accurate_check (by decide +kernel) (by decide +kernel), by decide +kernel⟩
  · have hD : composedR (fl 53) (fl 64) [xeFirst] (targetClock (-1 / 100001) (-300000 / 100001) 1000000) - 1000000 = -8795037492325 / 8796093022208 := by decide +kernel
    rw [hD]
    exact ⟨by norm_num, standsOut_check [62, 63, 0] (by norm_num) (by decide +kernel) (by decide +kernel) (by decide +kernel),
      accurate_check (by decide +kernel) (by decide +kernel), by decide +kernel⟩

theorem xe_resolution : resolutionAt xeParams 2 0 1 = 1 := by decide +kernel

theorem xe_history (pre : List TFEntry) (h : History xeParams exA 2 0 pre) : pre = [] ∨ pre = [xeFirst] := by
  have hl : pre.length ≤ 1 := history_length h xe_resolution
  rcases pre with _ | ⟨e, _ | ⟨e', t⟩⟩
  · exact Or.inl rfl
  · right
    obtain ⟨h1, ⟨h2, ys2, dt2, h3, h4⟩, -⟩ := h 0 e rfl
    have hb : e.bts = exA := by
      rw [h1, List.take_zero, composedR_nil, List.map_id]
    have r0 : resolutionAt xeParams 2 0 0 = 2 := rfl
    rw [hb] at h2 h3
    rw [r0] at h3
    have c1 : e.dt1 = -2 := earlyDelay_eq (by decide +kernel) h2 (by decide +kernel)
    have c2 : (tfCorrelate xeParams exA 2 xeParams.sep (windowAt xeParams 2 0 0)).map Prod.snd = .ok (-12) := by
      decide +kernel
    rw [h3] at c2
    simp only [Except.map, Except.ok.injEq] at c2
    rw [c1, c2] at h4
    have c3 : xeParams.rnd (xeParams.rnd (-12 - -2) / xeParams.sep) = -5902958103587057 / 590295810358705651712 := by
      decide +kernel
    rw [c3] at h4
    cases e
    simp only at hb c1 h4
    subst hb c1 h4
    rfl
  · simp at hl

theorem xe_run : ClearRun xeParams exA 2 0 (-1 / 100001) (-300000 / 100001) (2 * 10 ^ 6) (23 / 10) (13 / 10) (fun _ => 1 / 5) (fun _ => 3) 1 where
  rnd := rfl
  rndA := rfl
  bins := by norm_num [xeParams]
  target := by norm_num [xeParams]
  duration := by norm_num [xeParams]
  separation := by norm_num [xeParams, resRefineFactor]
  resolution := ⟨by norm_num, by decide +kernel⟩
  merging := ⟨⟨64, rfl⟩, Or.inl rfl⟩
  last := xe_resolution
  few := by norm_num
  significance := fun _ _ _ _ _ _ => ⟨10, rfl⟩
  significant := by
    intro ys d _
    exact ⟨⟨10, rfl, by norm_num, by norm_num [xeParams]⟩, by simp⟩
  clearEarly := by
    have := xe_clear_first 0 (Or.inl rfl)
    have hD : targetClock (-1 / 100001) (-300000 / 100001) 0 - 0 = -300000 / 100001 := by norm_num [targetClock]
    rw [hD] at this
    exact clearMerged_zero this
  clearLate := by
    have := xe_clear_first 1000000 (Or.inr rfl)
    rw [pow_zero, one_mul]
    exact this
  clear := by
    intro pre hne h start hs
    rcases xe_history pre h with rfl | rfl
    · exact absurd rfl hne
    · have : (exA).map (composedR xeParams.rnd xeParams.rndA [xeFirst]) = xeSecond := by decide +kernel
      rw [this, List.length_singleton, xe_resolution]
      exact xe_clear_second start hs
  times := by
    have h1 : |targetClock (-1 / 100001) (-300000 / 100001) 0| ≤ 2 * 10 ^ 6 := by decide +kernel
    have h2 : |targetClock (-1 / 100001) (-300000 / 100001) xeParams.sep| ≤ 2 * 10 ^ 6 := by decide +kernel
    exact ⟨h1, h2, by norm_num [xeParams]⟩
  errorFirst := by
    have r0 : resolutionAt xeParams 2 0 0 = 2 := rfl
    unfold errorAt
    rw [r0]
    norm_num [xeParams]
  errorLater := by
    intro k h0 h1
    obtain rfl : k = 1 := by omega
    unfold errorAt
    rw [xe_resolution]
    norm_num [xeParams]
  errors := by norm_num
  rounding := by norm_num
  offset := by decide +kernel
  frequency := by decide +kernel
  guardDelay := Or.inl (by decide +kernel)
  guardFrequency := Or.inl (by decide +kernel)

/-- A bound for the error of both calls. -/
theorem ex_error (k : Nat) (hk : k ≤ 1) (t : ℚ) (h0 : 0 ≤ t) (h1 : t ≤ 1000000) :
    0 ≤ printedError exArgs 1000000 (2 * 10 ^ 6) (1 / 5) k t ∧
    printedError exArgs 1000000 (2 * 10 ^ 6) (1 / 5) k t ≤ 1711 / 1000 + 2403 / 1000 * (t / 1000000) := by
  unfold printedError pipelineError
  simp only [exArgs, printArgs]
  have hk1 : (k : ℚ) ≤ 1 := by exact_mod_cast hk
  have hk0 : (0 : ℚ) ≤ k := by positivity
  have hR : ((k : ℚ) + 1) * (2 * 10 ^ 6 + (k + 1) * (101 * 10 ^ 6)) / 2 ^ 49 ≤ 1 / 1000000 := by
    rw [div_le_iff₀ (by norm_num)]
    nlinarith
  have hR0 : 0 ≤ ((k : ℚ) + 1) * (2 * 10 ^ 6 + (k + 1) * (101 * 10 ^ 6)) / 2 ^ 49 := by positivity
  generalize ((k : ℚ) + 1) * (2 * 10 ^ 6 + (k + 1) * (101 * 10 ^ 6)) / 2 ^ 49 = R at *
  have hq : t / 1000000 ≤ 1 := by rw [div_le_iff₀ (by norm_num)]; linarith
  have hq0 : 0 ≤ t / 1000000 := by positivity
  generalize t / 1000000 = q at *
  constructor
  · positivity
  · norm_num
    nlinarith

/-- Instance of C125: for the files of the example of C106, with clocks that differ by 3 ns and 10^-5, and the same files
exchanged, the product of the two factors is 1 up to 1.4 * 10^-5, and the times are opposite up to 4 ns.  (The windows are a
millisecond apart.) -/
example : ∃ line x n line' x' n', Returns (fun fuel => fpMain printEnv fuel exArgs) (.ok (some line)) ∧ Printed ⟨.inl x, some n⟩ line ∧
    Returns (fun fuel => fpMain printEnv fuel (exchangedFiles exArgs)) (.ok (some line')) ∧ Printed ⟨.inl x', some n'⟩ line' ∧
    |(1 + x) * (1 + x') - 1| ≤ 14 / 10 ^ 6 ∧ |n / (1 + x) + n'| ≤ 4 := by
  have hF : fl 53 (1 + 0) = 1 := by decide +kernel
  have hi : ((exArgs.initialRes : Nat) : ℚ) = 2 := by norm_num [exArgs, printArgs]
  obtain ⟨line, x, n, k, line', x', n', k', h1, h2, hk, h1', h2', hk', h3⟩ := C125_exchange printEnv rfl exArgs (Or.inl rfl) rfl rfl
    exA exB ex_input (1 / 100000) 3 [] [] 0 rfl (by rw [hF]; norm_num) (by simp) 0 (1 / 100000) 3 _ _ _ _ _ _
    (by rw [hF]; ring) (by rw [hF]; ring) (by rw [ex_params, ex_target, hi]; exact ex_run)
    [] [] 0 rfl (by rw [hF]; norm_num) (by simp) 0 (-1 / 100001) (-300000 / 100001) _ _ _ _ _ _
    (by rw [hF]; norm_num) (by rw [hF]; norm_num) (by rw [xe_params, xe_target, hi]; exact xe_run)
  refine ⟨line, x, n, line', x', n', h1, h2, h1', h2', ?_⟩
  obtain ⟨a1, a2⟩ := ex_error k hk 1000000 (by norm_num) (by norm_num)
  obtain ⟨b1, b2⟩ := ex_error k hk 0 (by norm_num) (by norm_num)
  obtain ⟨a1', a2'⟩ := ex_error k' hk' 1000000 (by norm_num) (by norm_num)
  obtain ⟨b1', b2'⟩ := ex_error k' hk' 0 (by norm_num) (by norm_num)
  replace a2 := a2.trans (by norm_num : _ ≤ (4114 / 1000 : ℚ))
  replace b2 := b2.trans (by norm_num : _ ≤ (1711 / 1000 : ℚ))
  replace a2' := a2'.trans (by norm_num : _ ≤ (4114 / 1000 : ℚ))
  replace b2' := b2'.trans (by norm_num : _ ≤ (1711 / 1000 : ℚ))
  have hsep : (searchParams printEnv exArgs exA (precompensated printEnv 0 exB)).sep = 1000000 := by rw [ex_params]; rfl
  have hsep' : (searchParams printEnv exArgs exB (precompensated printEnv 0 exA)).sep = 1000000 := by rw [xe_params]; rfl
  have key := h3 (printedError exArgs 1000000 (2 * 10 ^ 6) (1 / 5) k) (printedError exArgs 1000000 (2 * 10 ^ 6) (1 / 5) k')
    (fun t => by rw [hsep]) (fun t => by rw [hsep']) 1000000 (by norm_num) (by decide +kernel) (by decide +kernel)
    (by linarith) (by linarith)
  generalize printedError exArgs 1000000 (2 * 10 ^ 6) (1 / 5) k 1000000 = u at *
  generalize printedError exArgs 1000000 (2 * 10 ^ 6) (1 / 5) k 0 = v at *
  generalize printedError exArgs 1000000 (2 * 10 ^ 6) (1 / 5) k' 1000000 = u' at *
  generalize printedError exArgs 1000000 (2 * 10 ^ 6) (1 / 5) k' 0 = v' at *
  refine ⟨key.1.trans ?_, key.2.trans ?_⟩
  · linarith
  · rw [abs_of_pos (by norm_num : (0 : ℚ) < 3)]
    linarith

end Fp
