import Verif.Props.FpRun

/-! # C86 for the line that `main` prints -/
namespace Fp
open Spec

/-- A result of the scan has passed a rounding. -/
theorem scanF_rounded (rndA : ℚ → ℚ) (tf : List ℚ → Option (Except PyErr (ℚ × ℚ))) (bob : List ℚ) (full : Bool) (dt df : ℚ) :
    ∀ l, fpfindScanF (fl 53) rndA tf bob full l = some (.ok (dt, df)) → fl 53 dt = dt ∧ fl 53 df = df
  | [], h => by simp [fpfindScanF] at h
  | d :: rest, h => by
    unfold fpfindScanF at h
    simp only [] at h
    split at h
    · simp at h
    · exact scanF_rounded rndA tf bob full dt df rest h
    · simp at h
    · split at h
      · exact scanF_rounded rndA tf bob full dt df rest h
      · simp only [Option.some.injEq, Except.ok.injEq, Prod.mk.injEq] at h
        rw [← h.1, ← h.2]
        exact ⟨fl_idem 53 (by norm_num) _, fl_idem 53 (by norm_num) _⟩

/-- **C86** (the program): whatever the input and the options, a line that `main` prints shows one result, in the format asked for with
`-V`, and no other result is shown by the same line. -/
theorem C86_program (env : NumEnv) (henv : env.rnd = fl 53) (fuel : Nat) (args : FpMainArgs) (line : List Char)
    (h : fpMain env fuel args = some (.ok (some line))) :
    ∃ dt df, fl 53 dt = dt ∧ fl 53 df = df ∧ Printed (fpOutput (fl 53) args.output dt df) line ∧
      ∀ o, Printed o line → o = fpOutput (fl 53) args.output dt df := by
  unfold fpMain at h
  split at h
  · simp at h
  · simp at h
  · simp at h
  · simp only [] at h
    split at h
    · simp at h
    · split at h
      · simp at h
      · simp at h
      · rename_i dt df hs
        simp only [Option.some.injEq, Except.ok.injEq] at h
        rw [henv] at hs h
        obtain ⟨h1, h2⟩ := scanF_rounded _ _ _ _ _ _ _ hs
        have hp := C86_output args.output dt df h2
        rw [h] at hp
        exact ⟨dt, df, h1, h2, hp, fun o ho => C86_unique _ _ line ho hp⟩

/-- Instance of C86_program: a run that finds a correction; its line can be read in one way. -/
example : ∃ dt df, Printed (fpOutput (fl 53) 0 dt df) "6.00000799999556e-06\t-6\n".toList ∧
    ∀ o, Printed o "6.00000799999556e-06\t-6\n".toList → o = fpOutput (fl 53) 0 dt df := by
  obtain ⟨N, hN⟩ := C88_example_plain
  obtain ⟨dt, df, -, -, h1, h2⟩ := C86_program fpDemoEnv rfl N (fpDemoArgs false false 0) _ (hN N le_rfl)
  exact ⟨dt, df, h1, h2⟩

end Fp
