import Verif.Props.EpochT1
import Verif.Lemmas.Plot

/-!
# C99: order and resolution of full epoch times
-/
namespace Fp
open Spec

/-- What `read_T1` makes of the full time `T` (units of 4 ps) with `full_epoch`. -/
def fullValue (res : Tsres) (frac : Bool) (T : Nat) : ℚ := if frac then fl 64 (timeIn res T) else ⌊timeIn res T⌋

/-- The smallest difference (units of 4 ps) that is always visible. -/
def visibleStep (res : Tsres) (frac : Bool) : Nat := if frac then 33 else 256 / res.value

theorem fullTime_lt (epoch t : Nat) (he : epoch < 2 ^ 32) (ht : t < 2 ^ 37) : fullTime epoch t < 2 ^ 69 := by
  unfold fullTime; omega

theorem t1Convert_full (epoch t : Nat) (he : epoch < 2 ^ 32) (ht : t < 2 ^ 37) (res : Tsres) (frac : Bool) :
    (t1Convert epoch true res frac (t1Time epoch t)).val = fullValue res frac (fullTime epoch t) := by
  cases frac
  · rw [C15_full_epoch_int epoch t he ht res, fullValue, if_neg (by simp)]
  · rw [t1Convert_full_frac epoch t he ht res, fullValue, if_pos rfl]

theorem fullValue_mono (res : Tsres) (frac : Bool) : Monotone (fullValue res frac) := by
  intro T T' h
  have hq : (T : ℚ) ≤ T' := by exact_mod_cast h
  have ht : timeIn res T ≤ timeIn res T' := by
    unfold timeIn
    exact div_le_div_of_nonneg_right (mul_le_mul_of_nonneg_right hq (Nat.cast_nonneg _)) (by norm_num)
  cases frac
  · simp only [fullValue, Bool.false_eq_true, if_false]
    exact_mod_cast Int.floor_le_floor ht
  · simp only [fullValue, if_true]
    exact fl_mono_nonneg 64 (by norm_num) (by unfold timeIn; positivity) ht

theorem fullValue_err (res : Tsres) (T : Nat) (hT : T < 2 ^ 69) : |fl 64 (timeIn res T) - timeIn res T| ≤ timeIn res 16 := by
  have hnn : 0 ≤ timeIn res T := by unfold timeIn; positivity
  have h69 : (T : ℚ) < 2 ^ 69 := by exact_mod_cast hT
  have := fl_err_abs 64 (timeIn res T) (68 - res.shift) (by
    rw [abs_of_nonneg hnn, timeIn_eq, div_lt_iff₀ (by positivity), ← zpow_natCast (2 : ℚ) res.shift, ← zpow_add₀ (by norm_num)]
    refine lt_of_lt_of_eq h69 ?_
    rw [← zpow_natCast]
    congr 1
    push_cast
    ring)
  refine this.trans (le_of_eq ?_)
  cases res <;> norm_num [timeIn, Tsres.value, Tsres.shift]

theorem fullValue_strict (res : Tsres) (frac : Bool) (T T' : Nat) (h : T + visibleStep res frac ≤ T') (hT : T' < 2 ^ 69) :
    fullValue res frac T < fullValue res frac T' := by
  cases frac
  · simp only [fullValue, Bool.false_eq_true, if_false, visibleStep] at *
    have hs : (0 : ℚ) < res.value := by cases res <;> norm_num [Tsres.value]
    have hstep : timeIn res T + 1 ≤ timeIn res T' := by
      have hd : ((256 / res.value : Nat) : ℚ) * res.value = 256 := by cases res <;> norm_num [Tsres.value]
      have hq : (T : ℚ) + (256 / res.value : Nat) ≤ T' := by exact_mod_cast h
      unfold timeIn
      have := mul_le_mul_of_nonneg_right hq hs.le
      rw [add_mul, hd] at this
      linarith
    have := Int.floor_le_floor hstep
    rw [Int.floor_add_one] at this
    exact_mod_cast (by omega : ⌊timeIn res T⌋ < ⌊timeIn res T'⌋)
  · simp only [fullValue, if_true, visibleStep] at *
    have e := abs_le.mp (fullValue_err res T (by omega))
    have e' := abs_le.mp (fullValue_err res T' hT)
    have hs : (0 : ℚ) < res.value := by cases res <;> norm_num [Tsres.value]
    have hq : (T : ℚ) + 33 ≤ T' := by exact_mod_cast h
    have : timeIn res T + timeIn res 16 + timeIn res 16 < timeIn res T' := by
      unfold timeIn
      have := mul_le_mul_of_nonneg_right hq hs.le
      push_cast
      linarith
    linarith

/-- **C99**: with `full_epoch`, what `read_T1` returns for an event is a function of its full time (epoch and time in the epoch)
that never reverses the order, also between files, and tells times apart that differ by one unit of the resolution (integer
modes) or by 33 units of 4 ps (fractional). -/
theorem C99_order_partial (res : Tsres) (frac : Bool) :
    ∃ val : ℕ → ℚ, Monotone val ∧ (∀ T T', T + (if frac then 33 else 256 / res.value) ≤ T' → T' < 2 ^ 69 → val T < val T') ∧
      ∀ epoch evs, epoch < 2 ^ 32 → (∀ e ∈ evs, T1Valid e) → evs.length < 2 ^ 32 → (∀ e ∈ evs, ¬ ZeroEvent epoch e) →
        ∃ out, Returns (fun fuel => readT1 fuel true res frac (t1File epoch evs)) (.ok out) ∧
          out.map (fun e => (e.1.val, e.2)) = evs.map fun e => (val (fullTime epoch e.1), e.2) := by
  refine ⟨fullValue res frac, fullValue_mono res frac, fullValue_strict res frac, ?_⟩
  intro epoch evs he hv hlen hz
  rw [t1File_eq]
  have := readT1_run epoch he evs.length hlen (evs.map (lineT1 epoch)) (by
      intro n hn
      obtain ⟨e, he', rfl⟩ := List.mem_map.mp hn
      have hp := lineT1_props epoch e (hv e he')
      exact ⟨fun hc => hz e he' (hp.2.1.mp hc), hp.1⟩) (leBytes 4 0 ++ leBytes 4 0)
    (fun acc => by
      have := t1Step_zeros 8 acc [] (Or.inr rfl)
      rwa [List.append_nil] at this) true res frac
  rw [if_neg (by simp)] at this
  refine ⟨_, this, ?_⟩
  rw [List.map_map, List.map_map]
  refine List.map_congr_left fun e he' => ?_
  have hp := lineT1_props epoch e (hv e he')
  simp only [Function.comp, hp.2.2.1, hp.2.2.2]
  rw [t1Convert_full epoch e.1 he (hv e he').1]

/-- **C99** fails for a difference of 32 units (125 ps, the precision stated in tests/parse_epochs/test_limits.py): both times are
half way between two extended precision numbers and become the same one. -/
theorem C99_125ps_violated : ∃ epoch evs, epoch < 2 ^ 32 ∧ (∀ e ∈ evs, T1Valid e) ∧ (∀ e ∈ evs, ¬ ZeroEvent epoch e) ∧
    evs = [(48, 1), (80, 1)] ∧ ∀ res, ∃ x, Returns (fun fuel => readT1 fuel true res true (t1File epoch evs)) (.ok [(x, 1), (x, 1)]) := by
  refine ⟨2 ^ 32 - 1, [(48, 1), (80, 1)], by norm_num, by simp [T1Valid], by simp [ZeroEvent], rfl, ?_⟩
  intro res
  have h : ∀ res, (readT1 5 true res true (t1File (2 ^ 32 - 1) [(48, 1), (80, 1)])) =
      some (.ok [(t1Convert (2 ^ 32 - 1) true res true (t1Time (2 ^ 32 - 1) 48), 1), (t1Convert (2 ^ 32 - 1) true res true (t1Time (2 ^ 32 - 1) 48), 1)]) := by
    intro res
    cases res <;> decide +kernel
  exact ⟨t1Convert (2 ^ 32 - 1) true res true (t1Time (2 ^ 32 - 1) 48), 5, fun fuel hf => readT1_more _ _ _ _ _ _ hf _ (h res)⟩

/-- The test of the repository (tests/parse_epochs/test_limits.py, full epoch in units of 4 ps): the times 0 and 32 of the last
epoch are different, 0 and 16 are not. -/
example : (readT1 6 true .ps4 true (t1File (2 ^ 32 - 1) [(0, 1), (16, 1), (32, 1)])).map (fun r => r.map fun l => l.map fun e => e.1.val) =
    some (.ok [(2 ^ 32 - 1) * 2 ^ 37, (2 ^ 32 - 1) * 2 ^ 37, (2 ^ 32 - 1) * 2 ^ 37 + 32]) := by decide +kernel

/-- Instance of the hypotheses of `C99_order_partial`: events in two epochs. -/
example : (∀ e ∈ [((3 : Nat), (1 : Nat)), (2 ^ 37 - 1, 8)], T1Valid e) ∧ (∀ e ∈ [((3 : Nat), (1 : Nat)), (2 ^ 37 - 1, 8)], ¬ ZeroEvent (2 ^ 17) e) ∧
    fullTime (2 ^ 17) (2 ^ 37 - 1) + 33 ≤ fullTime (2 ^ 17 + 1) 32 ∧ fullTime (2 ^ 17 + 1) 32 < 2 ^ 69 := by
  refine ⟨by simp [T1Valid], by simp [ZeroEvent], by decide, by decide⟩

end Fp
