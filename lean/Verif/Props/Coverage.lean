import Verif.Props.Quiet

/-! # C131: the scan of precompensations covers the range asked for -/
namespace Fp
open Spec

/-- Where a number stands in the alternating list: after at most twice as many others as its magnitude. -/
theorem alternating_split (m : Nat) (k : ℤ) (hk : |k| ≤ m) :
    ∃ pre post, alternating m = pre ++ k :: post ∧ ((pre.length : ℕ) : ℤ) ≤ 2 * |k| ∧ ∀ j ∈ pre, |j| ≤ |k| := by
  induction m with
  | zero =>
    have : k = 0 := abs_eq_zero.mp (le_antisymm (by simpa using hk) (abs_nonneg k))
    subst this
    exact ⟨[], [], rfl, by simp, by simp⟩
  | succ m ih =>
    have hlen : (alternating m).length = 2 * m + 1 := by rw [← alternating_eq]; simp
    have hmem : ∀ j ∈ alternating m, |j| ≤ m := fun j hj => (mem_alternating m j).mp hj
    rcases lt_or_ge (m : ℤ) |k| with h | h
    · have hkm : |k| = (m : ℤ) + 1 := le_antisymm (by exact_mod_cast hk) h
      rcases abs_choice k with h1 | h1
      · refine ⟨alternating m, [-((m : ℤ) + 1)], ?_, ?_, fun j hj => ?_⟩
        · rw [show k = (m : ℤ) + 1 by rw [← hkm, h1]]
          rfl
        · rw [hlen, hkm]; push_cast; linarith
        · have := hmem j hj
          rw [hkm]; linarith
      · refine ⟨alternating m ++ [(m : ℤ) + 1], [], ?_, ?_, fun j hj => ?_⟩
        · rw [show k = -((m : ℤ) + 1) by rw [← hkm, h1]; ring]
          simp [alternating]
        · rw [List.length_append, hlen, hkm]; push_cast; simp; linarith
        · rw [hkm]
          rcases List.mem_append.mp hj with h2 | h2
          · have := hmem j h2
            linarith
          · rw [List.mem_singleton.mp h2, abs_of_nonneg (by positivity)]
    · obtain ⟨pre, post, h1, h2, h3⟩ := ih h
      exact ⟨pre, post ++ [(m : ℤ) + 1, -((m : ℤ) + 1)], by rw [alternating, h1]; simp, h2, h3⟩

/-- The error of a tried value. -/
theorem tried_error (start step K : ℚ) (k : ℤ) (hstep : 0 < step) (hk : |(k : ℚ)| * step ≤ K) :
    |fl 53 (fl 53 ((k : ℚ) * step) + start) - (start + k * step)| ≤ (2 * K + |start|) / 2 ^ 52 := by
  have e1 := fl_err 53 ((k : ℚ) * step)
  have e2 := fl_err 53 (fl 53 ((k : ℚ) * step) + start)
  have hks : |(k : ℚ) * step| ≤ K := by rw [abs_mul, abs_of_pos hstep]; exact hk
  have u : (2 : ℚ) ^ (-(53 : ℤ)) = 1 / 2 ^ 53 := by norm_num
  push_cast at e1 e2
  rw [u] at e1 e2
  generalize fl 53 ((k : ℚ) * step) = y at *
  generalize fl 53 (y + start) = z at *
  generalize (k : ℚ) * step = w at *
  have hK : 0 ≤ K := (abs_nonneg w).trans hks
  have h1 : |y - w| ≤ K / 2 ^ 53 := e1.trans (by rw [mul_one_div]; gcongr)
  have h2 : |y + start| ≤ K + K / 2 ^ 53 + |start| := by
    calc |y + start| = |(y - w) + w + start| := by ring_nf
      _ ≤ |y - w| + |w| + |start| := abs_add_three _ _ _
      _ ≤ _ := by linarith
  have h3 : |z - (y + start)| ≤ (K + K / 2 ^ 53 + |start|) / 2 ^ 53 := e2.trans (by rw [mul_one_div]; gcongr)
  have h4 : |z - (start + w)| ≤ |z - (y + start)| + |y - w| := by
    calc |z - (start + w)| = |(z - (y + start)) + (y - w)| := by ring_nf
      _ ≤ _ := abs_add_le _ _
  have hs := abs_nonneg start
  have h5 : (K + K / 2 ^ 53 + |start|) / 2 ^ 53 + K / 2 ^ 53 ≤ (2 * K + |start|) / 2 ^ 52 := by
    have : K / 2 ^ 53 ≤ K := div_le_self hK (by norm_num)
    rw [← add_div, div_le_div_iff₀ (by positivity) (by positivity)]
    nlinarith
  linarith

/-- The nearest multiple of the step that is tried. -/
theorem nearest_tried (x start step : ℚ) (m : Nat) (hstep : 0 < step) (hx : |x - start| < (m + 1) * step) :
    ∃ k : ℤ, |k| ≤ m ∧ |x - (start + k * step)| < step ∧ (|x - start| ≤ (m + 1 / 2) * step → |x - (start + k * step)| ≤ step / 2) ∧
      |(k : ℚ)| * step ≤ |x - start| + step / 2 := by
  obtain ⟨y, hy⟩ : ∃ y, y = (x - start) / step := ⟨_, rfl⟩
  have hxy : x - start = y * step := by rw [hy]; field_simp
  have habs : |x - start| = |y| * step := by rw [hxy, abs_mul, abs_of_pos hstep]
  have hym : |y| < m + 1 := by rw [habs] at hx; exact lt_of_mul_lt_mul_right hx hstep.le
  have hm0 : (0 : ℚ) ≤ m := Nat.cast_nonneg m
  have key : ∃ k : ℤ, |k| ≤ m ∧ |y - k| < 1 ∧ (|y| ≤ m + 1 / 2 → |y - k| ≤ 1 / 2) ∧ |(k : ℚ)| ≤ |y| + 1 / 2 := by
    obtain ⟨n, hn⟩ : ∃ n : ℤ, n = ⌊y + 1 / 2⌋ := ⟨_, rfl⟩
    have n1 : (n : ℚ) ≤ y + 1 / 2 := by rw [hn]; exact Int.floor_le _
    have n2 : y + 1 / 2 < n + 1 := by rw [hn]; exact Int.lt_floor_add_one _
    have hy1 := (abs_lt.mp hym).1
    have hy2 := (abs_lt.mp hym).2
    by_cases c1 : (m : ℤ) < n
    · have c1q : (m : ℚ) + 1 ≤ n := by exact_mod_cast c1
      refine ⟨m, by simp, ?_, fun h => ?_, ?_⟩
      · push_cast; rw [abs_lt]; constructor <;> linarith
      · push_cast
        rw [abs_le] at h ⊢
        constructor <;> linarith [h.2]
      · push_cast
        rw [abs_of_nonneg hm0]
        have := le_abs_self y
        linarith
    · by_cases c2 : n < -(m : ℤ)
      · have c2q : (n : ℚ) + 1 ≤ -m := by exact_mod_cast c2
        refine ⟨-m, by simp, ?_, fun h => ?_, ?_⟩
        · push_cast; rw [abs_lt]; constructor <;> linarith
        · push_cast
          rw [abs_le] at h ⊢
          constructor <;> linarith [h.1]
        · push_cast
          rw [abs_neg, abs_of_nonneg hm0]
          have := neg_abs_le y
          linarith
      · have d1 : |y - n| ≤ 1 / 2 := by rw [abs_le]; constructor <;> linarith
        refine ⟨n, by rw [abs_le]; constructor <;> omega, by linarith, fun _ => d1, ?_⟩
        have := abs_sub_abs_le_abs_sub (n : ℚ) y
        rw [abs_sub_comm] at d1
        linarith
  obtain ⟨k, k1, k2, k3, k4⟩ := key
  have e : |x - (start + k * step)| = |y - k| * step := by
    rw [show x - (start + k * step) = (y - k) * step by rw [sub_mul, ← hxy]; ring, abs_mul, abs_of_pos hstep]
  refine ⟨k, k1, by rw [e]; nlinarith, fun h => ?_, by rw [habs]; nlinarith⟩
  rw [e]
  rw [habs] at h
  have := k3 (le_of_mul_le_mul_right h hstep)
  nlinarith

/-- **C131**: the alternating scan.  If `m` steps fit between 0 and `stop`, every offset up to half a step beyond `m` steps from `start` is
within half a step of a value that is tried, every offset within `stop` within one step, up to rounding; at most 2 n + 1 other values
are tried before it if the offset is n steps from `start`, all of them nearer to `start` or as near. -/
theorem C131_covered (start stop step x : ℚ) (m : Nat) (hstep : 0 < step) (h1 : (m : ℚ) ≤ stop / step) (h2 : stop / step < m + 1)
    (hx : |x - start| ≤ stop ∨ |x - start| ≤ (m + 1 / 2) * step) :
    ∃ pre d post, generatePrecompensations (fl 53) start stop step false = pre ++ d :: post ∧
      |x - d| < step + (2 * stop + |start|) / 2 ^ 52 ∧
      (|x - start| ≤ (m + 1 / 2) * step → |x - d| ≤ step / 2 + (2 * stop + |start|) / 2 ^ 52) ∧
      (pre.length : ℚ) ≤ 2 * (|x - start| / step) + 1 := by
  rw [C36_alternating (fl 53) start stop step m hstep.ne' h1 h2]
  have hx' : |x - start| < (m + 1) * step := by
    rcases hx with h | h
    · rw [div_lt_iff₀ hstep] at h2
      linarith
    · linarith
  obtain ⟨k, k1, k2, k3, k4⟩ := nearest_tried x start step m hstep hx'
  obtain ⟨pre, post, hs, hp, -⟩ := alternating_split m k k1
  have kq : |(k : ℚ)| ≤ m := by exact_mod_cast k1
  have e := tried_error start step stop k hstep (by
    rw [le_div_iff₀ hstep] at h1
    nlinarith)
  have tri : ∀ d : ℚ, |x - d| ≤ |x - (start + k * step)| + |d - (start + k * step)| := by
    intro d
    rw [abs_sub_comm d]
    calc |x - d| = |(x - (start + k * step)) + ((start + k * step) - d)| := by ring_nf
      _ ≤ _ := abs_add_le _ _
  refine ⟨pre.map fun k : ℤ => fl 53 (fl 53 ((k : ℚ) * step) + start), fl 53 (fl 53 ((k : ℚ) * step) + start),
    post.map fun k : ℤ => fl 53 (fl 53 ((k : ℚ) * step) + start), by rw [hs, List.map_append, List.map_cons], ?_, fun h => ?_, ?_⟩
  · have := tri (fl 53 (fl 53 ((k : ℚ) * step) + start))
    linarith
  · have := tri (fl 53 (fl 53 ((k : ℚ) * step) + start))
    have := k3 h
    linarith
  · rw [List.length_map]
    have hpq : (pre.length : ℚ) ≤ 2 * |(k : ℚ)| := by exact_mod_cast hp
    have : |(k : ℚ)| ≤ |x - start| / step + 1 / 2 := by
      rw [← sub_le_iff_le_add, le_div_iff₀ hstep]
      linarith
    linarith

theorem mem_increasing {m : Nat} {k : ℤ} : k ∈ increasing m ↔ 0 ≤ k ∧ k ≤ m := by
  induction m with
  | zero => simp [increasing]; omega
  | succ m ih =>
    rw [increasing, List.mem_append, ih, List.mem_singleton]
    push_cast
    omega

/-- **C131**: the ordered scan: every offset between `start` and `stop` is within one step of a value that is tried, up to rounding, and
within half a step if it is half a step (and a rounding error) or more below `stop`. -/
theorem C131_ordered (start stop step x : ℚ) (hstep : 0 < step) (hx1 : start ≤ x) (hx2 : x ≤ stop) :
    ∃ d ∈ generatePrecompensations (fl 53) start stop step true, |x - d| < step + (3 * (stop - start) + |start|) / 2 ^ 52 ∧
      (x - start ≤ (stop - start) * (1 - 1 / 2 ^ 53) - step / 2 → |x - d| ≤ step / 2 + (3 * (stop - start) + |start|) / 2 ^ 52) := by
  obtain ⟨D, hD⟩ : ∃ D, D = fl 53 (stop - start) := ⟨_, rfl⟩
  have hss : 0 ≤ stop - start := by linarith
  have hD0 : 0 ≤ D := by rw [hD]; exact fl_nonneg 53 hss
  have hDe : |D - (stop - start)| ≤ (stop - start) / 2 ^ 53 := by
    have := fl_err 53 (stop - start)
    rw [← hD, abs_of_nonneg hss] at this
    refine this.trans (le_of_eq ?_)
    rw [show ((2 : ℚ) ^ (-((53 : ℕ) : ℤ))) = 1 / 2 ^ 53 by norm_num]
    ring
  have hDe' := abs_le.mp hDe
  obtain ⟨m, hm⟩ : ∃ m : Nat, (m : ℤ) = ⌊D / step⌋ := ⟨_, Int.toNat_of_nonneg (Int.floor_nonneg.mpr (by positivity))⟩
  have h1 : (m : ℚ) ≤ D / step := by
    have := Int.floor_le (D / step)
    rw [← hm] at this
    exact_mod_cast this
  have h2 : D / step < m + 1 := by
    have := Int.lt_floor_add_one (D / step)
    rw [← hm] at this
    exact_mod_cast this
  rw [C36_ordered (fl 53) start stop step m hstep.ne' (by rw [← hD]; exact h1) (by rw [← hD]; exact h2)]
  rw [le_div_iff₀ hstep] at h1
  rw [div_lt_iff₀ hstep] at h2
  -- a point nearby that is covered without rounding
  obtain ⟨x', hx'⟩ : ∃ x', x' = min x (start + D) := ⟨_, rfl⟩
  have hxx : x' ≤ x ∧ x - x' ≤ (stop - start) / 2 ^ 53 := by
    rw [hx']
    refine ⟨min_le_left _ _, ?_⟩
    rcases min_choice x (start + D) with h | h <;> rw [h]
    · rw [sub_self]; positivity
    · linarith
  have hx'0 : start ≤ x' := by rw [hx']; exact le_min hx1 (by linarith)
  have hx'D : x' ≤ start + D := by rw [hx']; exact min_le_right _ _
  have hxa : |x' - start| = x' - start := abs_of_nonneg (by linarith)
  have hmq : (0 : ℚ) ≤ m := Nat.cast_nonneg m
  obtain ⟨k, k1, k2, k3, -⟩ := nearest_tried x' start step m hstep (by rw [hxa]; linarith)
  obtain ⟨k', hk'⟩ : ∃ k' : ℤ, k' = max k 0 := ⟨_, rfl⟩
  have hk0 : |x' - (start + k' * step)| ≤ |x' - (start + k * step)| := by
    rcases le_total 0 k with h | h
    · rw [hk', max_eq_left h]
    · rw [hk', max_eq_right h]
      have : (k : ℚ) * step ≤ 0 := mul_nonpos_of_nonpos_of_nonneg (by exact_mod_cast h) hstep.le
      push_cast
      rw [zero_mul, add_zero, hxa, abs_of_nonneg (by linarith)]
      linarith
  have hk1 : 0 ≤ k' ∧ k' ≤ m := by
    rw [hk']
    exact ⟨le_max_right _ _, max_le ((le_abs_self k).trans k1) (by positivity)⟩
  have hk1q : |(k' : ℚ)| ≤ m := by
    rw [abs_of_nonneg (by exact_mod_cast hk1.1)]
    exact_mod_cast hk1.2
  have e := tried_error start step D k' hstep (by nlinarith)
  refine ⟨_, List.mem_map.mpr ⟨k', mem_increasing.mpr hk1, rfl⟩, ?_⟩
  generalize fl 53 (fl 53 ((k' : ℚ) * step) + start) = d at *
  have tri : |x - d| ≤ (x - x') + |x' - (start + k' * step)| + |d - (start + k' * step)| := by
    rw [abs_sub_comm d]
    have h0 : |x - x'| = x - x' := abs_of_nonneg (by linarith [hxx.1])
    have t := abs_add_three (x - x') (x' - (start + k' * step)) ((start + k' * step) - d)
    rw [h0] at t
    calc |x - d| = |(x - x') + (x' - (start + k' * step)) + ((start + k' * step) - d)| := by ring_nf
      _ ≤ _ := t
  have hE : (stop - start) / 2 ^ 53 + (2 * D + |start|) / 2 ^ 52 ≤ (3 * (stop - start) + |start|) / 2 ^ 52 := by
    have : D ≤ (stop - start) + (stop - start) / 2 ^ 53 := by linarith [hDe'.2]
    have h3 : (2 * D + |start|) / 2 ^ 52 ≤ (2 * ((stop - start) + (stop - start) / 2 ^ 53) + |start|) / 2 ^ 52 := by gcongr
    refine (add_le_add (le_refl ((stop - start) / 2 ^ 53)) h3).trans ?_
    rw [show (stop - start) / 2 ^ 53 = ((stop - start) / 2) / 2 ^ 52 by rw [div_div]; norm_num, ← add_div]
    apply div_le_div_of_nonneg_right _ (by positivity)
    have : (stop - start) / 2 / 2 ^ 52 ≤ (stop - start) / 4 := by
      rw [div_div]
      apply div_le_div_of_nonneg_left hss (by norm_num) (by norm_num)
    linarith
  constructor
  · linarith [hxx.2]
  · intro hxs
    have := k3 (by
      rw [hxa]
      have : x' ≤ x := hxx.1
      linarith [hDe'.1])
    linarith [hxx.2]

/-- The default step and stop of fpfind (fpfind.py:530,533) as doubles. -/
def defaultStep : ℚ := fl 53 (1 / 10 ^ 7)
@[inherit_doc defaultStep] def defaultStop : ℚ := fl 53 (1 / 10 ^ 5)

theorem defaultStep_near : |defaultStep - 1 / 10 ^ 7| ≤ 1 / 10 ^ 22 := by decide +kernel

/-- **C131**: with the defaults 201 values are tried, and every offset up to 10.05 ppm is within 0.05 ppm and 10^-15 of one of them. -/
theorem C131_default (x : ℚ) (hx : |x| ≤ 1005 / 10 ^ 8) :
    (generatePrecompensations (fl 53) 0 defaultStop defaultStep false).length = 201 ∧
    ∃ pre d post, generatePrecompensations (fl 53) 0 defaultStop defaultStep false = pre ++ d :: post ∧
      |x - d| ≤ 5 / 10 ^ 8 + 1 / 10 ^ 15 ∧ (pre.length : ℚ) ≤ 2 * (|x| / defaultStep) + 1 := by
  have h0 : 0 < defaultStep := by decide +kernel
  have h1 : ((100 : Nat) : ℚ) ≤ defaultStop / defaultStep := by decide +kernel
  have h2 : defaultStop / defaultStep < (100 : Nat) + 1 := by decide +kernel
  have h3 : (2 * defaultStop + |(0 : ℚ)|) / 2 ^ 52 ≤ 1 / 10 ^ 19 := by decide +kernel
  have h4 : |defaultStep - 1 / 10 ^ 7| ≤ 1 / 10 ^ 22 := defaultStep_near
  have h5 := abs_le.mp h4
  refine ⟨by rw [C36_alternating (fl 53) 0 defaultStop defaultStep 100 h0.ne' h1 h2, List.length_map, ← alternating_eq]; simp, ?_⟩
  -- a point nearby that is covered without rounding
  obtain ⟨x', hx'⟩ : ∃ x', x' = x * (1 - 1 / 10 ^ 14) := ⟨_, rfl⟩
  have hxx : |x - x'| ≤ 2 / 10 ^ 19 := by
    rw [hx', show x - x * (1 - 1 / 10 ^ 14) = x * (1 / 10 ^ 14) by ring, abs_mul]
    norm_num
    norm_num at hx
    linarith
  have hx'a : |x'| = |x| * (1 - 1 / 10 ^ 14) := by
    rw [hx', abs_mul]
    norm_num
  have hin : |x' - 0| ≤ ((100 : Nat) + 1 / 2) * defaultStep := by
    rw [sub_zero, hx'a]
    push_cast
    norm_num at h5 hx ⊢
    linarith [h5.1]
  obtain ⟨pre, d, post, a1, -, a3, a4⟩ := C131_covered 0 defaultStop defaultStep x' 100 h0 h1 h2 (Or.inr hin)
  refine ⟨pre, d, post, a1, ?_, a4.trans ?_⟩
  · have := a3 hin
    have t : |x - d| ≤ |x - x'| + |x' - d| := abs_sub_le _ _ _
    norm_num at h5 hxx this t h3 ⊢
    linarith [h5.2]
  · rw [sub_zero, hx'a]
    have : |x| * (1 - 1 / 10 ^ 14) ≤ |x| := mul_le_of_le_one_right (abs_nonneg x) (by norm_num)
    have : |x| * (1 - 1 / 10 ^ 14) / defaultStep ≤ |x| / defaultStep := by gcongr
    linarith

/-- **C131** (negation of a part): `--precomp-stop 13e-6` with the default step does not try 13 ppm, although it is 130 steps: the
quotient of the doubles is just below 130.  All values tried are at least 0.0999 ppm away from 13 ppm. -/
theorem C131_end_violated : ∀ d ∈ generatePrecompensations (fl 53) 0 (fl 53 (13 / 10 ^ 6)) defaultStep false,
    999 / 10 ^ 10 ≤ |13 / 10 ^ 6 - d| := by
  have h0 : 0 < defaultStep := by decide +kernel
  have h1 : ((129 : Nat) : ℚ) ≤ fl 53 (13 / 10 ^ 6) / defaultStep := by decide +kernel
  have h2 : fl 53 (13 / 10 ^ 6) / defaultStep < (129 : Nat) + 1 := by decide +kernel
  rw [C36_alternating (fl 53) 0 _ defaultStep 129 h0.ne' h1 h2]
  intro d hd
  obtain ⟨k, hk, rfl⟩ := List.mem_map.mp hd
  have hk' := (mem_alternating 129 k).mp hk
  have hkq : |(k : ℚ)| ≤ 129 := by exact_mod_cast hk'
  have h5 := abs_le.mp defaultStep_near
  have hks : |(k : ℚ)| * defaultStep ≤ 129 * (1 / 10 ^ 7 + 1 / 10 ^ 22) :=
    mul_le_mul hkq (by linarith [h5.2]) h0.le (by norm_num)
  have e := tried_error 0 defaultStep _ k h0 hks
  have h6 : (k : ℚ) * defaultStep ≤ |(k : ℚ)| * defaultStep := mul_le_mul_of_nonneg_right (le_abs_self _) h0.le
  have h7 := (abs_le.mp e).2
  refine le_trans ?_ (le_abs_self _)
  norm_num at h7 hks ⊢
  linarith

/-- **C131**: what is left after the precompensation: a target clock with frequency offset `φ`, a tried value `d` at most `e` away: the
offset `φ'` left is at most `e` and 2^-52, and 0.3% of it. -/
theorem C131_residual (φ d e : ℚ) (hd : |d| ≤ 1 / 2 ^ 10) (he : |φ - d| ≤ e) :
    |fl 53 (1 + d) - 1| ≤ 1 / 2 ^ 9 ∧ ∃ φ', 1 + φ = (1 + φ') * fl 53 (1 + d) ∧ |φ'| ≤ (e + 1 / 2 ^ 52) * (1 + 3 / 1000) := by
  have hd' := abs_le.mp hd
  have h1 : |fl 53 (1 + d) - (1 + d)| ≤ 1 / 2 ^ 52 := by
    refine (fl_err 53 (1 + d)).trans ?_
    have : |1 + d| ≤ 2 := by rw [abs_le]; constructor <;> linarith
    calc |1 + d| * 2 ^ (-((53 : ℕ) : ℤ)) ≤ 2 * 2 ^ (-((53 : ℕ) : ℤ)) := by gcongr
      _ = _ := by norm_num
  generalize fl 53 (1 + d) = f at *
  have h1' := abs_le.mp h1
  have hf : 999 / 1000 ≤ f - 1 / 2 ^ 52 := by norm_num at hd' h1' ⊢; linarith
  have hf0 : 0 < f := by norm_num at hf ⊢; linarith
  refine ⟨by rw [abs_le]; norm_num at hd' h1' ⊢; constructor <;> linarith, (1 + φ) / f - 1, by field_simp; ring, ?_⟩
  rw [show (1 + φ) / f - 1 = ((φ - d) + ((1 + d) - f)) / f by field_simp; ring, abs_div, abs_of_pos hf0, div_le_iff₀ hf0]
  have h2 : |(φ - d) + ((1 + d) - f)| ≤ e + 1 / 2 ^ 52 := by
    refine (abs_add_le _ _).trans (add_le_add he ?_)
    rw [abs_sub_comm]
    exact h1
  have he0 : 0 ≤ e + 1 / 2 ^ 52 := (abs_nonneg _).trans h2
  have h3 : 1 ≤ (1 + 3 / 1000) * f := by norm_num at hf ⊢; linarith
  calc _ ≤ e + 1 / 2 ^ 52 := h2
    _ ≤ (e + 1 / 2 ^ 52) * ((1 + 3 / 1000) * f) := le_mul_of_one_le_right he0 h3
    _ = _ := by ring

/-- **C131** (the program): an alternating scan from 0 over at most 2^-11, and a target clock whose offset `φ` is within the range: one of
the values tried leaves an offset `φ'` of at most one step (half a step if `φ` is not in the last half step) up to 0.3% and rounding,
after at most 2 n + 1 others for an offset of n steps.  This is the value for which C129_scan gives the result. -/
theorem C131_program (env : NumEnv) (henv : env.rnd = fl 53) (args : FpMainArgs) (hen : args.precompEnable = true)
    (hord : args.precompOrdered = false) (hstart : args.precompStart = 0) (hstep : 0 < args.precompStep)
    (hstop : args.precompStop ≤ 1 / 2 ^ 11) (hss : args.precompStep ≤ args.precompStop) (φ : ℚ) (hφ : |φ| ≤ args.precompStop) :
    ∃ pre d post φ', precs env args = pre ++ d :: post ∧ |fl 53 (1 + d) - 1| ≤ 1 / 2 ^ 9 ∧ 1 + φ = (1 + φ') * fl 53 (1 + d) ∧
      (pre.length : ℚ) ≤ 2 * (|φ| / args.precompStep) + 1 ∧
      |φ'| ≤ (args.precompStep + 1 / 2 ^ 51) * (1 + 3 / 1000) ∧
      (|φ| ≤ args.precompStop - args.precompStep / 2 → |φ'| ≤ (args.precompStep / 2 + 1 / 2 ^ 51) * (1 + 3 / 1000)) := by
  have hstop0 : 0 < args.precompStop := lt_of_lt_of_le hstep hss
  obtain ⟨m, hm⟩ : ∃ m : Nat, (m : ℤ) = ⌊args.precompStop / args.precompStep⌋ :=
    ⟨_, Int.toNat_of_nonneg (Int.floor_nonneg.mpr (by positivity))⟩
  have h1 : (m : ℚ) ≤ args.precompStop / args.precompStep := by
    have := Int.floor_le (args.precompStop / args.precompStep)
    rw [← hm] at this
    exact_mod_cast this
  have h2 : args.precompStop / args.precompStep < m + 1 := by
    have := Int.lt_floor_add_one (args.precompStop / args.precompStep)
    rw [← hm] at this
    exact_mod_cast this
  obtain ⟨pre, d, post, a1, a2, a3, a4⟩ := C131_covered 0 args.precompStop args.precompStep φ m hstep h1 h2
    (Or.inl (by rw [sub_zero]; exact hφ))
  rw [sub_zero] at a3 a4
  have hp : precs env args = pre ++ d :: post := by
    unfold precs
    rw [if_pos hen, hstart, hord, henv, a1]
  have hsmall : (2 * args.precompStop + |(0 : ℚ)|) / 2 ^ 52 ≤ 1 / 2 ^ 52 := by
    rw [abs_zero, add_zero]
    gcongr
    norm_num at hstop ⊢
    linarith
  have hd : |d| ≤ 1 / 2 ^ 10 := by
    obtain ⟨k, hk, rfl⟩ : ∃ k ∈ alternating m, d = fl 53 (fl 53 ((k : ℚ) * args.precompStep) + 0) := by
      have : d ∈ generatePrecompensations (fl 53) 0 args.precompStop args.precompStep false := by rw [a1]; simp
      rw [C36_alternating (fl 53) 0 _ _ m hstep.ne' h1 h2] at this
      obtain ⟨k, hk, h⟩ := List.mem_map.mp this
      exact ⟨k, hk, h.symm⟩
    have hkq : |(k : ℚ)| ≤ m := by exact_mod_cast (mem_alternating m k).mp hk
    have hks : |(k : ℚ)| * args.precompStep ≤ args.precompStop := by
      rw [le_div_iff₀ hstep] at h1
      nlinarith
    have e := tried_error 0 args.precompStep _ k hstep hks
    have hks' : |0 + (k : ℚ) * args.precompStep| ≤ args.precompStop := by
      rw [zero_add, abs_mul, abs_of_pos hstep]
      exact hks
    have t := abs_sub_abs_le_abs_sub (fl 53 (fl 53 ((k : ℚ) * args.precompStep) + 0)) (0 + (k : ℚ) * args.precompStep)
    norm_num at hstop hsmall e t hks' ⊢
    linarith
  obtain ⟨r1, φ', r2, r3⟩ := C131_residual φ d |φ - d| hd le_rfl
  refine ⟨pre, d, post, φ', hp, r1, r2, a4, ?_, fun h => ?_⟩
  · refine r3.trans (mul_le_mul_of_nonneg_right ?_ (by norm_num))
    norm_num at a2 hsmall ⊢
    linarith
  · refine r3.trans (mul_le_mul_of_nonneg_right ?_ (by norm_num))
    have := a3 (by rw [div_lt_iff₀ hstep] at h2; linarith)
    norm_num at this hsmall ⊢
    linarith

/-! ## Instance: two files, seven coincidences at the beginning and at the end, default threshold and scan -/

noncomputable def scanEnv : NumEnv := { rnd := fl 53, rndA := fl 64, xcorr := convXcorr, signif := roundedSignif }

/-- The clock of the target runs faster by 10^-5 and is 6 ns ahead; one event is late by 1/4 ns. -/
def scanFiles : FpArgs where
  sendfiles := none
  t1files := none
  reference := some [1, 0, 4, 0, 0, 0, 0, 0, 1, 0, 20, 0, 0, 0, 0, 0, 1, 0, 68, 0, 0, 0, 0, 0, 1, 0, 164, 0, 0, 0, 0, 0, 1, 0, 36, 1, 0, 0, 0, 0, 1,
      0, 116, 1, 0, 0, 0, 0, 1, 0, 148, 1, 0, 0, 0, 0, 1, 0, 68, 18, 122, 0, 0, 0, 1, 0, 84, 18, 122, 0, 0, 0, 1, 0, 132, 18, 122, 0,
      0, 0, 1, 0, 228, 18, 122, 0, 0, 0, 1, 0, 100, 19, 122, 0, 0, 0, 1, 0, 180, 19, 122, 0, 0, 0, 1, 0, 212, 19, 122, 0, 0, 0]
  target := some [1, 0, 0, 0, 0, 0, 0, 0, 1, 0, 28, 0, 0, 0, 0, 0, 1, 0, 45, 0, 0, 0, 0, 0, 1, 0, 92, 0, 0, 0, 0, 0, 1, 0, 188, 0, 0, 0, 0, 0, 1,
      0, 60, 1, 0, 0, 0, 0, 1, 0, 140, 1, 0, 0, 0, 0, 1, 0, 172, 1, 0, 0, 0, 0, 1, 0, 172, 18, 122, 0, 0, 0, 1, 0, 188, 18, 122, 0, 0,
      0, 1, 0, 236, 18, 122, 0, 0, 0, 1, 0, 76, 19, 122, 0, 0, 0, 1, 0, 204, 19, 122, 0, 0, 0, 1, 0, 28, 20, 122, 0, 0, 0, 1, 0, 60,
      20, 122, 0, 0, 0]
  legacy := false
  skipDuration := 0
  firstEpoch := none
  skipEpochs := 0
  initialRes := 2
  bufferOrder := 8
  numWraps := 1
  separation := 15625 / 4

def scanArgs : FpMainArgs where
  toFpArgs := scanFiles
  finalRes := 1
  threshold := 6
  output := 0
  precompEnable := true
  precompStart := 0
  precompStep := defaultStep
  precompStop := defaultStop
  precompOrdered := false
  precompFullscan := false

def scanA : List ℚ := [0, 4, 16, 40, 72, 92, 100, 2000016, 2000020, 2000032, 2000056, 2000088, 2000108, 2000116]

def scanB : List ℚ := [6, 41 / 4, 22, 46, 78, 98, 106, 2000042, 2000046, 2000058, 2000082, 2000114, 2000134, 2000142]

/-- Instance of C131_program: the clock of the target is off by 10^-5 - 10^-9. -/
example : ∃ pre d post φ', precs scanEnv scanArgs = pre ++ d :: post ∧ |fl 53 (1 + d) - 1| ≤ 1 / 2 ^ 9 ∧
    1 + (1 / 10 ^ 5 - 1 / 10 ^ 9) = (1 + φ') * fl 53 (1 + d) ∧ |φ'| ≤ (defaultStep + 1 / 2 ^ 51) * (1 + 3 / 1000) := by
  obtain ⟨pre, d, post, φ', h1, h2, h3, -, h4, -⟩ := C131_program scanEnv rfl scanArgs rfl rfl rfl
    (show (0 : ℚ) < defaultStep by decide +kernel) (show defaultStop ≤ 1 / 2 ^ 11 by decide +kernel)
    (show defaultStep ≤ defaultStop by decide +kernel) (1 / 10 ^ 5 - 1 / 10 ^ 9)
    (show |(1 / 10 ^ 5 - 1 / 10 ^ 9 : ℚ)| ≤ defaultStop by decide +kernel)
  exact ⟨pre, d, post, φ', h1, h2, h3, h4⟩

/-- Instance of C131_ordered. -/
example : ∃ d ∈ generatePrecompensations (fl 53) (1 / 10 ^ 6) (4 / 10 ^ 6) (1 / 10 ^ 6) true, |26 / 10 ^ 7 - d| ≤ 1 / 10 ^ 6 / 2 + 1 / 10 ^ 20 := by
  obtain ⟨d, h1, -, h2⟩ := C131_ordered (1 / 10 ^ 6) (4 / 10 ^ 6) (1 / 10 ^ 6) (26 / 10 ^ 7) (by norm_num) (by norm_num) (by norm_num)
  refine ⟨d, h1, (h2 (by norm_num)).trans ?_⟩
  norm_num [abs_of_pos]

theorem scan_input : Input scanEnv scanArgs scanA scanB := by
  refine ⟨⟨0, fun fuel _ => ?_⟩, by simp [scanA], by simp [scanB]⟩
  have h1 : mainInput (fl 53) (fl 64) fuel scanFiles = mainInput (fl 53) (fl 64) 0 scanFiles := by
    unfold mainInput
    rw [load_fuel (fl 53) scanFiles (Or.inl rfl) fuel]
  show mainInput (fl 53) (fl 64) fuel scanFiles = _
  rw [h1]
  decide +kernel

theorem scan_target : precompensated scanEnv 0 scanB = scanB := by
  show scanB.map (fun t => fl 64 (fl 64 t / fl 53 (1 + 0))) = scanB
  decide +kernel

noncomputable def scanParams : TFParams :=
  { ats := scanA, numBins := 256, target := 1, threshold := 6, sep := 2000000, duration := 512, endTime := 2000116, rnd := fl 53,
    rndA := fl 64, xcorr := convXcorr, signif := roundedSignif }

theorem scan_params : searchParams scanEnv scanArgs scanA scanB = scanParams := by
  have h1 : fl 53 (15625 / 4 * fl 53 ((2 * 2 ^ 8 * 1 : Nat) : ℚ)) = 2000000 := by decide +kernel
  have h2 : min (scanA.getLastD 0) (scanB.getLastD 0) = 2000116 := by decide +kernel
  unfold searchParams scanParams
  rw [h2]
  have h3 : scanEnv.rnd (scanArgs.separation * scanEnv.rnd ((scanArgs.initialRes * 2 ^ scanArgs.bufferOrder * scanArgs.numWraps : Nat) : ℚ)) =
    2000000 := h1
  rw [h3]
  simp only [scanEnv, scanArgs, scanFiles]
  norm_num

theorem scan_numerics : Numerics scanParams (1 / 2000) :=
  ⟨roundedSignif_spec, by norm_num, fun a b _ _ => convXcorr_nonneg a b⟩

theorem scan_early_a : inWindowR (fl 64) 0 (acqDurationFl 256 2 512 2000116) scanA = [0, 4, 16, 40, 72, 92, 100] := by
  decide +kernel

theorem scan_early_b : inWindowR (fl 64) 0 (acqDurationFl 256 2 512 2000116) scanB = [6, 41 / 4, 22, 46, 78, 98, 106] := by
  decide +kernel

theorem scan_first : FirstCounted scanParams scanB 2 0 (1 / 2000) 0 7 1 0 := by
  unfold FirstCounted
  show CountedPeak (inWindowR (fl 64) 0 (acqDurationFl 256 2 512 2000116) scanA)
    (inWindowR (fl 64) 0 (acqDurationFl 256 2 512 2000116) scanB) 256 2 0 (6 + 1 / 2000 + 1 / 2000) 0 7 1 0
  rw [scan_early_a, scan_early_b]
  have hq : ∀ p < 256, 1 < pairsInBlock [0, 4, 16, 40, 72, 92, 100] [6, 41 / 4, 22, 46, 78, 98, 106] 256 2 0 (p : Nat) → p = 3 := by
    decide +kernel
  refine ⟨⟨3, by norm_num, by decide +kernel⟩, by decide +kernel, by norm_num, ⟨le_rfl, by norm_num, by norm_num⟩, by norm_num, ?_⟩
  intro p hp h
  obtain rfl := hq p (by simpa using hp) h
  exact ⟨4, 5, Or.inr (by norm_num), Or.inr (by norm_num), by decide +kernel⟩

theorem scan_resolution : resolutionAt scanParams 2 0 1 = 1 := by
  simp only [resolutionAt, scanParams]
  decide +kernel

theorem scan_resolution_first : resolutionAt scanParams 2 0 0 = 2 := by
  simp only [resolutionAt, scanParams]
  decide +kernel

theorem scan_length : lengthAt scanParams 2 0 1 = 512 := by
  unfold lengthAt
  rw [scan_resolution]
  show acqDurationFl 256 1 512 2000116 = 512
  decide +kernel

/-- The margin in the second iteration. -/
def scanMargin : ℚ := 4 * (2 + 2 / 5 + 512 / 2 ^ 50 + 2 * (2 * (4 * 10 ^ 6 + 2 * (101 * 10 ^ 6)) / 2 ^ 49))

theorem scan_margin : marginAt scanParams 2 0 (fun _ => 2 / 5) (4 * 10 ^ 6) 1 1 = scanMargin := by
  unfold marginAt errorAt roundingOf scanMargin
  rw [scan_resolution_first]
  norm_num [scanParams]

theorem scan_clear_early : ClearMerged scanParams scanB 2 0 6 (2 / 5) 3 := by
  unfold ClearMerged
  show acqDurationFl 256 2 512 2000116 ≤ 2 * 2 ^ 58 ∧
    StandsOutMerged (inWindowR (fl 64) 0 (acqDurationFl 256 2 512 2000116) scanA)
      (inWindowR (fl 64) 0 (acqDurationFl 256 2 512 2000116) scanB) 256 2 0 6 (2 / 5) 3 ∧
    MergedAccurate convXcorr (inWindowR (fl 64) 0 (acqDurationFl 256 2 512 2000116) scanA)
      (inWindowR (fl 64) 0 (acqDurationFl 256 2 512 2000116) scanB) 256 2 0 ∧
    |(6 : ℚ)| + (2 ^ 0 * 2 + 2 / 5) ≤ ((256 : Nat) : ℚ) * 2 / 2
  rw [scan_early_a, scan_early_b]
  exact ⟨by decide +kernel, standsOutMerged_check [2, 3, 4] (by norm_num) (by decide +kernel) (by decide +kernel) (by decide +kernel),
    accurate_unmerged (convXcorr_accurate _ _ (by decide +kernel) (by decide +kernel) 128 (by norm_num) 2), by norm_num [abs_of_pos]⟩

theorem scan_clear_late : ClearIn scanParams scanB (acqDurationFl 256 2 512 2000116) 2 2000000 26 (2 / 5) 3 := by
  have hd : acqDurationFl 256 2 512 2000116 = 512 := by decide +kernel
  rw [hd]
  unfold ClearIn
  show (512 : ℚ) ≤ 2 * 2 ^ 58 ∧
    StandsOut (inWindowR (fl 64) 2000000 512 scanA) (inWindowR (fl 64) 2000000 512 scanB) 256 2 26 (2 / 5) 3 ∧
    XcorrAccurate convXcorr (inWindowR (fl 64) 2000000 512 scanA) (inWindowR (fl 64) 2000000 512 scanB) 256 2 ∧
    |(26 : ℚ)| + (2 + 2 / 5) ≤ ((256 : Nat) : ℚ) * 2 / 2
  exact ⟨by norm_num, standsOut_check [12, 13, 14] (by norm_num) (by decide +kernel) (by decide +kernel) (by decide +kernel),
    convXcorr_accurate _ _ (by decide +kernel) (by decide +kernel) 128 (by norm_num) 2, by norm_num [abs_of_pos]⟩

theorem scan_prominent (start : ℚ) (hs : start = 0 ∨ start = 2000000) :
    Prominent scanA scanB (1 / 100000) 6 256 1 start 512 scanMargin (26 / 100) (2 / 5) 3 := by
  rcases hs with rfl | rfl
  · have hc : coincidences scanA scanB (1 / 100000) 6 (0 + scanMargin + 26 / 100) (0 + 512 - scanMargin - 26 / 100) (26 / 100) = 5 := by
      decide +kernel
    refine ⟨by norm_num, by rw [hc]; norm_num, fun κ _ => ?_⟩
    rw [hc]
    have := pairsAround_one scanA scanB (1 / 100000) 6 (0 - scanMargin) (0 + 512 + scanMargin) (26 / 100)
      ((256 : Nat) * 1) (1 + 2 / 5) (by norm_num) (by decide +kernel) κ
    omega
  · have hc : coincidences scanA scanB (1 / 100000) 6 (2000000 + scanMargin + 26 / 100)
        (2000000 + 512 - scanMargin - 26 / 100) (26 / 100) = 7 := by
      decide +kernel
    refine ⟨by norm_num, by rw [hc]; norm_num, fun κ _ => ?_⟩
    rw [hc]
    have := pairsAround_one scanA scanB (1 / 100000) 6 (2000000 - scanMargin) (2000000 + 512 + scanMargin) (26 / 100)
      ((256 : Nat) * 1) (1 + 2 / 5) (by norm_num) (by decide +kernel) κ
    omega

theorem scan_core : RunCore scanParams scanB 2 0 (1 / 100000) 6 (4 * 10 ^ 6) (26 / 10) (3 / 2) (fun _ => 2 / 5) (fun _ => 3) 1 where
  rnd := rfl
  rndA := rfl
  bins := by norm_num [scanParams]
  target := by norm_num [scanParams]
  duration := by norm_num [scanParams]
  separation := by norm_num [scanParams, resRefineFactor]
  resolution := ⟨by norm_num, by show fl 53 2 = 2; decide +kernel⟩
  merging := ⟨⟨256, by norm_num [scanParams]⟩, Or.inl rfl⟩
  last := scan_resolution
  few := by norm_num
  clearEarly := scan_clear_early
  clearLate := by
    have hD : targetClock (1 / 100000) 6 scanParams.sep - scanParams.sep = 26 := by norm_num [targetClock, scanParams]
    have h1 : (2 : ℚ) ^ 0 * 2 = 2 := by norm_num
    rw [hD, h1]
    exact scan_clear_late
  times := by norm_num [scanParams, targetClock, abs_of_pos]
  errorFirst := by
    unfold errorAt
    rw [scan_resolution_first]
    norm_num [scanParams]
  errorLater := by
    intro k h0 h1
    obtain rfl : k = 1 := by omega
    unfold errorAt
    rw [scan_resolution]
    norm_num [scanParams]
  errors := by norm_num
  rounding := by norm_num
  offset := by norm_num [abs_of_pos]
  frequency := by norm_num [scanParams, abs_of_pos]
  guardDelay := Or.inl (by norm_num [abs_of_pos])
  guardFrequency := Or.inl (by norm_num [scanParams, abs_of_pos])

theorem scan_input_clear : InputClear scanParams scanB 2 0 (1 / 100000) 6 (4 * 10 ^ 6) (26 / 100) (fun _ => 2 / 5) (fun _ => 3) 1 where
  bound := by decide +kernel
  accurate := by
    intro k _ _ a b ha hb _ _
    exact convXcorr_accurate a b ha hb 128 (by norm_num) _
  spread := by
    intro k h0 h1
    obtain rfl : k = 1 := by omega
    rw [scan_margin, scan_length]
    unfold errorAt roundingOf scanMargin
    rw [scan_resolution_first]
    norm_num [scanParams]
  range := by
    intro k h0 h1
    obtain rfl : k = 1 := by omega
    rw [scan_length, scan_resolution]
    unfold errorAt roundingOf
    rw [scan_resolution_first]
    norm_num [scanParams]
  prominent := by
    intro k h0 h1 start hs
    obtain rfl : k = 1 := by omega
    rw [scan_length, scan_resolution, scan_margin]
    exact scan_prominent start hs

/-- Instance of C129_scan (and so of C127_printed), with the default threshold and scan: fpfind prints a correction for the two files that is
right up to 5 ns in the first two milliseconds. -/
example : ∃ line x n, Returns (fun fuel => fpMain scanEnv fuel scanArgs) (.ok (some line)) ∧ Printed ⟨.inl x, some n⟩ line ∧
    ∀ t, 0 ≤ t → t ≤ 2000000 → |corrected n x (targetClock (1 / 100000) 6 t) - t| ≤ 5 := by
  have hF : fl 53 (1 + 0) = 1 := by decide +kernel
  obtain ⟨post, hpost⟩ : ∃ post, precs scanEnv scanArgs = [] ++ 0 :: post := by
    show ∃ post, generatePrecompensations (fl 53) 0 defaultStop defaultStep false = [] ++ 0 :: post
    have h : (generatePrecompensations (fl 53) 0 defaultStop defaultStep false).head? = some 0 := by decide +kernel
    cases hl : generatePrecompensations (fl 53) 0 defaultStop defaultStep false with
    | nil => rw [hl] at h; simp at h
    | cons x l =>
      rw [hl] at h
      obtain rfl : x = 0 := by simpa using h
      exact ⟨l, rfl⟩
  have hres : ((scanArgs.initialRes : Nat) : ℚ) = 2 := by norm_num [scanArgs, scanFiles]
  have hP : scanParams = searchParams scanEnv scanArgs scanA (precompensated scanEnv 0 scanB) := by rw [scan_target, scan_params]
  obtain ⟨line, x, n, k, h1, h2, h3, h4⟩ := C129_scan scanEnv rfl rfl scanArgs rfl rfl scanA scanB scan_input (by decide)
    (by decide) (by decide) [] post 0 hpost (by rw [hF]; norm_num) (1 / 2000)
    (by
      intro d hd
      obtain rfl : d = 0 := by simpa using hd
      rw [← hP]
      exact scan_numerics)
    (by simp) (1 / 100000) 6 (1 / 100000) 6 _ _ _ _ _ _ _ (by rw [hF]; ring) (by rw [hF]; ring) scanParams hP (by show (0 : ℚ) < 6; norm_num)
    (by rw [scan_target, hres]; exact scan_core) (by rw [scan_target, hres]; exact scan_input_clear) _ _ _ _
    (by rw [scan_target, hres]; exact scan_first)
  refine ⟨line, x, n, h1, h2, fun t ht ht' => ?_⟩
  refine (h4 _ _ rfl rfl t ht ?_).trans ?_
  · unfold targetClock
    rw [abs_of_nonneg (by positivity)]
    linarith
  · simp only [scanParams, scanArgs, scanFiles]
    have hk : (k : ℚ) ≤ 1 := by exact_mod_cast h3
    have hk0 : (0 : ℚ) ≤ k := by positivity
    have hR : ((k : ℚ) + 1) * (4 * 10 ^ 6 + (k + 1) * (101 * 10 ^ 6)) / 2 ^ 49 ≤ 1 / 10000 := by
      rw [div_le_iff₀ (by norm_num)]
      nlinarith
    have hR0 : 0 ≤ ((k : ℚ) + 1) * (4 * 10 ^ 6 + (k + 1) * (101 * 10 ^ 6)) / 2 ^ 49 := by positivity
    generalize ((k : ℚ) + 1) * (4 * 10 ^ 6 + (k + 1) * (101 * 10 ^ 6)) / 2 ^ 49 = R at *
    have hq : t / 2000000 ≤ 1 := by rw [div_le_iff₀ (by norm_num)]; linarith
    have hq0 : 0 ≤ t / 2000000 := by positivity
    generalize t / 2000000 = q at *
    norm_num
    nlinarith

end Fp
