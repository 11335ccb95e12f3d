import Verif.Lemmas.FpScanRounded

/-! # C76 for the scan over precompensations -/
namespace Fp
open Spec

/-- **C76** for `fpfind`: the result of a scan over precompensations is that of one of them: its frequency is applied first, then
the corrections of the iterations of `time_freq`, one after the other, in rounded arithmetic.  The returned correction agrees
with these up to the given rounding errors. -/
theorem C76_fpfind (rnd rndA : ℚ → ℚ) (hr : RelErr rnd) (hra : RelErr rndA) (P : List ℚ → TFParams) (hP : ∀ b, (P b).rnd = rnd)
    (hPa : ∀ b, (P b).rndA = rndA) (res : ℚ) (tf : List ℚ → Except PyErr (ℚ × ℚ))
    (htf : ∀ b r, tf b = .ok r → ∃ trace, trace.length ≤ 2 ^ 35 ∧
      Returns (fun fuel => timeFreq (P b) fuel b res) (.ok (r.1, r.2, trace)))
    (bob precs tried : List ℚ) (hp : ∀ df0 ∈ precs, |df0| ≤ 1 / 2 ^ 10) (dt df : ℚ)
    (h : fpfindScan rnd rndA tf bob false precs = (.ok (dt, df), tried)) :
    ∃ df0 ∈ precs, ∃ dt1 df1 trace, tf (bob.map fun t => rndA (rndA (t - 0) / rnd (1 + df0))) = .ok (dt1, df1) ∧
      Returns (fun fuel => timeFreq (P (bob.map fun t => rndA (rndA (t - 0) / rnd (1 + df0)))) fuel
        (bob.map fun t => rndA (rndA (t - 0) / rnd (1 + df0))) res) (.ok (dt1, df1, trace)) ∧
      ∀ t, |corrected dt df t - composedR rnd rndA trace (rndA (rndA (t - 0) / rnd (1 + df0)))| ≤
        (trace.length + 1) * (|t| * (1 + 1 / 2 ^ 8) + trace.length * (101 * 10 ^ 6)) / 2 ^ 49 := by
  induction precs generalizing tried with
  | nil => simp [fpfindScan] at h
  | cons df0 rest ih =>
    unfold fpfindScan at h
    simp only at h
    have hih : ∀ tried', fpfindScan rnd rndA tf bob false rest = (.ok (dt, df), tried') →
        _ := fun tried' h' => ih tried' (fun d hd => hp d (by simp [hd])) h'
    split at h
    · simp only [Prod.mk.injEq] at h
      obtain ⟨d, hd, r⟩ := hih _ (Prod.ext h.1 rfl)
      exact ⟨d, by simp [hd], r⟩
    · simp at h
    · rename_i dt1 df1 hok
      simp only [Bool.false_eq_true, if_false, Prod.mk.injEq, Except.ok.injEq] at h
      obtain ⟨⟨rfl, rfl⟩, -⟩ := h
      obtain ⟨trace, hlen, hret⟩ := htf _ _ hok
      refine ⟨df0, by simp, dt1, df1, trace, hok, hret, fun t => ?_⟩
      have hb := C33_bounded _ _ _ _ _ _ hret
      have g1 := scan_error rnd rndA hr hra df0 dt1 df1 t (hp df0 (by simp)) hb.1.le
      have hr' : RelErr (P (bob.map fun t => rndA (rndA (t - 0) / rnd (1 + df0)))).rnd := by rw [hP]; exact hr
      have hra' : RelErr (P (bob.map fun t => rndA (rndA (t - 0) / rnd (1 + df0)))).rndA := by rw [hPa]; exact hra
      obtain ⟨F, hinv, -, -⟩ := run_inv _ hr' hra' _ _ _ _ _ hret
      have hdt1 := (hinv.2.1 hlen).1
      have g2 := (C76_rounded _ hr' hra' _ _ _ _ _ hret hlen).2 (rndA (rndA (t - 0) / rnd (1 + df0)))
      rw [hP, hPa] at g2
      have g3 := precomp_abs rnd rndA hr hra df0 t (hp df0 (by simp))
      have g4 := abs_sub_le (corrected (rnd (0 + rnd (rnd (1 + df0) * dt1))) (rnd (rnd (rnd (1 + df0) * rnd (1 + df1)) - 1)) t)
        (corrected dt1 df1 (rndA (rndA (t - 0) / rnd (1 + df0)))) (composedR rnd rndA trace (rndA (rndA (t - 0) / rnd (1 + df0))))
      refine g4.trans ((add_le_add g1 g2).trans ?_)
      rw [← add_div]
      apply div_le_div_of_nonneg_right _ (by positivity)
      have hn : (0 : ℚ) ≤ trace.length := by positivity
      generalize (trace.length : ℚ) = n at *
      have g5 : n * (|rndA (rndA (t - 0) / rnd (1 + df0))| + n * (101 * 10 ^ 6)) ≤
          n * (|t| * (1 + 1 / 2 ^ 8) + n * (101 * 10 ^ 6)) := by gcongr
      have ht : |t| ≤ |t| * (1 + 1 / 2 ^ 8) := le_mul_of_one_le_right (abs_nonneg _) (by norm_num)
      linarith

/-- Instance of `C76_fpfind`: the run of `C76_example` after a first precompensation without result. -/
example : ∃ (P : List ℚ → TFParams) (tf : List ℚ → Except PyErr (ℚ × ℚ)) (bob precs tried : List ℚ) (dt df : ℚ),
    (∀ b, (P b).rnd = fl 53 ∧ (P b).rndA = fl 64) ∧
    (∀ b r, tf b = .ok r → ∃ trace, trace.length ≤ 2 ^ 35 ∧ Returns (fun fuel => timeFreq (P b) fuel b 4) (.ok (r.1, r.2, trace))) ∧
    (∀ df0 ∈ precs, |df0| ≤ 1 / 2 ^ 10) ∧ precs.length = 2 ∧ dt ≠ 0 ∧ df ≠ 0 ∧
    fpfindScan (fl 53) (fl 64) tf bob false precs = (.ok (dt, df), tried) := by
  refine ⟨fun _ => { exampleParams with rnd := fl 53, rndA := fl 64 },
    fun b => if b = [0, 5, 1000000, 1000004, 2000000] then .ok (-3377704224127499 / 562949953421312, 27021633793 / 4503599627370496)
      else .error .valueError,
    [0, 5, 1000000, 1000004, 2000000], [1 / 2 ^ 20, 0], [1 / 2 ^ 20, 0], -3377704224127499 / 562949953421312,
    27021633793 / 4503599627370496, fun b => ⟨rfl, rfl⟩, ?_, ?_, rfl, by norm_num, by norm_num, by decide +kernel⟩
  · intro b r h
    simp only at h
    split at h
    · rename_i hb
      simp only [Except.ok.injEq] at h
      subst h hb
      exact ⟨_, by norm_num, C76_example⟩
    · simp at h
  · intro df0 h
    simp only [List.mem_cons, List.not_mem_nil, or_false] at h
    rcases h with rfl | rfl <;> norm_num

end Fp
