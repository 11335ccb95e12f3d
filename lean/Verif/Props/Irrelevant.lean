import Verif.Spec.Irrelevant
import Verif.Props.Shell
import Verif.Lemmas.Plot

/-! # Options without effect: C137 -/
namespace Fp
open Spec

theorem sameEvents_load (rnd : ℚ → ℚ) (a a' : FpMainArgs) (he : SameEvents a a') (hs : SameSearch a a') (fuel : Nat) :
    loadInput rnd fuel a.toFpArgs = loadInput rnd fuel a'.toFpArgs := by
  obtain ⟨s1, s2, s3, s4, -⟩ := hs
  rcases he with ⟨d1, d2, h1, h2, h3, h4, h5, h6⟩ | ⟨h1, h2, h3⟩
  · have hreq : a.toFpArgs.requiredEpochs rnd = a'.toFpArgs.requiredEpochs rnd := by
      unfold FpArgs.requiredEpochs FpArgs.minDuration FpArgs.ta
      rw [s1, s2, s3, s4, h6]
    unfold loadInput
    rw [h1, h2, h3, h4]
    simp only [hreq, h5, h6]
  · have key : ∀ x : FpMainArgs, x.sendfiles = none ∨ x.t1files = none → loadInput rnd fuel x.toFpArgs =
        match x.target, x.reference with
        | some target, some reference =>
          match readA1 64 x.legacy .ns1 true reference, readA1 64 x.legacy .ns1 true target with
          | .error e, _ => some (.error e)
          | _, .error e => some (.error e)
          | .ok alice, .ok bob => some (.ok (some (alice.map (·.1.val), bob.map (·.1.val), x.skipDuration)))
        | _, _ => some (.ok none) := by
      intro x hx
      unfold loadInput
      split
      · rename_i d1 d2 _ _ g1 g2
        rcases hx with hx | hx
        · rw [hx] at g1; simp at g1
        · rw [hx] at g2; simp at g2
      · rename_i g1 g2 _
        rw [g1, g2]
        rfl
      · rename_i g2
        split
        · rename_i t r g3 g4
          exact absurd g4 (g2 t r g3)
        · rfl
    rw [key a h1, key a' h2]
    rcases h3 with ⟨A, B, h4, h5, h6, h7, h8, h9⟩ | ⟨h4, h5⟩
    · rw [h4, h5, h6, h7, h8, h9]
    · have none_ : ∀ x : FpMainArgs, x.reference = none ∨ x.target = none → (match x.target, x.reference with
          | some target, some reference =>
            match readA1 64 x.legacy .ns1 true reference, readA1 64 x.legacy .ns1 true target with
            | .error e, _ => some (.error e)
            | _, .error e => some (.error e)
            | .ok alice, .ok bob => some (.ok (some (alice.map (·.1.val), bob.map (·.1.val), x.skipDuration)))
          | _, _ => some (.ok none) : Option (Except PyErr (Option (List ℚ × List ℚ × ℚ)))) = some (.ok none) := by
        intro x hx
        split
        · rename_i g1 g2
          rcases hx with hx | hx
          · rw [hx] at g2; simp at g2
          · rw [hx] at g1; simp at g1
        · rfl
      rw [none_ a h4, none_ a' h5]

/-- What `main` computes before it prints. -/
def beforePrint (env : NumEnv) (fuel : Nat) (args : FpMainArgs) : Option (Except PyErr (Option (ℚ × ℚ))) :=
  match mainInput env.rnd env.rndA fuel args.toFpArgs with
  | none => none
  | some (.error e) => some (.error e)
  | some (.ok none) => some (.ok none)
  | some (.ok (some arrays)) =>
    if arrays.getD 0 [] = [] ∨ arrays.getD 1 [] = [] then some (.error .indexError)
    else (fpfindScanF env.rnd env.rndA (args.call env fuel (arrays.getD 0 [])) (arrays.getD 1 []) args.precompFullscan
      (args.precompensations env)).map fun r => r.map some

theorem fpMain_before (env : NumEnv) (fuel : Nat) (args : FpMainArgs) :
    fpMain env fuel args = (beforePrint env fuel args).map fun r => r.map fun r => r.map fun r =>
      fpLine (fpOutput env.rnd args.output r.1 r.2) := by
  unfold fpMain beforePrint
  cases mainInput env.rnd env.rndA fuel args.toFpArgs with
  | none => rfl
  | some r =>
    rcases r with e | _ | arrays
    · rfl
    · rfl
    · simp only
      split
      · rfl
      · cases fpfindScanF env.rnd env.rndA (args.call env fuel (arrays.getD 0 [])) (arrays.getD 1 []) args.precompFullscan
            (args.precompensations env) with
        | none => rfl
        | some r => rcases r with e | ⟨dt, df⟩ <;> rfl

theorem same_before (env : NumEnv) (a a' : FpMainArgs) (he : SameEvents a a') (hs : SameSearch a a') (fuel : Nat) :
    beforePrint env fuel a = beforePrint env fuel a' := by
  have h1 : mainInput env.rnd env.rndA fuel a.toFpArgs = mainInput env.rnd env.rndA fuel a'.toFpArgs := by
    unfold mainInput
    rw [sameEvents_load env.rnd a a' he hs fuel]
  obtain ⟨s1, s2, s3, s4, s5, s6, s7, s8, s9⟩ := hs
  have h2 : a.precompensations env = a'.precompensations env := by
    unfold FpMainArgs.precompensations
    rw [← s8]
    split
    · rename_i hp
      obtain ⟨g1, g2, g3, g4⟩ := s9 hp
      rw [g1, g2, g3, g4]
    · rfl
  have h3 : ∀ alice bob, a.call env fuel alice bob = a'.call env fuel alice bob := by
    intro alice bob
    unfold FpMainArgs.call FpMainArgs.params FpArgs.ta
    rw [s1, s2, s3, s4, s5, s6]
  unfold beforePrint
  rw [h1, h2, s7]
  simp only [funext (h3 _)]

/-- **C137**: what `fpfind` does is determined by the events asked for, the search asked for and the form of the output: timestamp files,
`-X` and `-t` do not matter if epochs are used, options about epochs do not matter otherwise, and the options of the precompensations do
not matter unless they are enabled. -/
theorem C137_irrelevant (env : NumEnv) (a a' : FpMainArgs) (he : SameEvents a a') (hs : SameSearch a a') (ho : a.output = a'.output)
    (fuel : Nat) : fpMain env fuel a = fpMain env fuel a' := by
  rw [fpMain_before, fpMain_before, same_before env a a' he hs fuel, ho]

theorem load_more (rnd : ℚ → ℚ) (args : FpArgs) (N M : Nat) (hNM : N ≤ M) (r : Except PyErr (Option (List ℚ × List ℚ × ℚ)))
    (h : loadInput rnd N args = some r) : loadInput rnd M args = some r := by
  by_cases hd : args.sendfiles = none ∨ args.t1files = none
  · rw [load_fuel rnd args hd M, ← load_fuel rnd args hd N]
    exact h
  · push Not at hd
    obtain ⟨d1, h1⟩ := Option.ne_none_iff_exists'.mp hd.1
    obtain ⟨d2, h2⟩ := Option.ne_none_iff_exists'.mp hd.2
    unfold loadInput at h ⊢
    rw [h1, h2] at h ⊢
    simp only at h ⊢
    cases ho : getFirstOverlappingEpoch N d1.names d2.names args.firstEpoch with
    | none => rw [ho] at h; simp at h
    | some v =>
      rw [overlap_more _ _ _ N M hNM v ho]
      rw [ho] at h
      rcases v with e | ⟨first, k⟩
      · exact h
      simp only at h ⊢
      cases ha : getTimestampFrom N d1.file false first args.skipEpochs (args.requiredEpochs rnd - args.skipEpochs) with
      | none => rw [ha] at h; simp at h
      | some v =>
        rw [getFrom_more _ _ _ _ _ N M hNM v ha]
        rw [ha] at h
        rcases v with e | alice
        · exact h
        simp only at h ⊢
        cases hb : getTimestampFrom N d2.file true first args.skipEpochs (args.requiredEpochs rnd - args.skipEpochs) with
        | none => rw [hb] at h; simp at h
        | some v =>
          rw [getFrom_more _ _ _ _ _ N M hNM v hb]
          rw [hb] at h
          exact h

theorem call_more (env : NumEnv) (args : FpMainArgs) (alice bob : List ℚ) (N M : Nat) (hNM : N ≤ M) (r : Except PyErr (ℚ × ℚ))
    (h : args.call env N alice bob = some r) : args.call env M alice bob = some r := by
  unfold FpMainArgs.call at h ⊢
  cases ht : tfEndTime alice bob with
  | error e => rw [ht] at h; exact h
  | ok t =>
    rw [ht] at h
    simp only [Option.map_eq_some_iff] at h ⊢
    obtain ⟨v, h1, h2⟩ := h
    exact ⟨v, runLoop_more _ N M hNM _ _ h1, h2⟩

theorem scanF_more (rnd rndA : ℚ → ℚ) (tf tf' : List ℚ → Option (Except PyErr (ℚ × ℚ))) (htf : ∀ b r, tf b = some r → tf' b = some r)
    (bob : List ℚ) (full : Bool) (ps : List ℚ) (r : Except PyErr (ℚ × ℚ)) (h : fpfindScanF rnd rndA tf bob full ps = some r) :
    fpfindScanF rnd rndA tf' bob full ps = some r := by
  induction ps with
  | nil => exact h
  | cons p ps ih =>
    unfold fpfindScanF at h ⊢
    simp only at h ⊢
    cases hc : tf (bob.map fun t => rndA (rndA (t - 0) / rnd (1 + p))) with
    | none => rw [hc] at h; simp at h
    | some v =>
      rw [htf _ v hc]
      rw [hc] at h
      rcases v with e | ⟨dt1, df1⟩
      · cases e <;> first | exact ih h | exact h
      · simp only at h ⊢
        split
        · rename_i hf
          rw [if_pos hf] at h
          exact ih h
        · rename_i hf
          rw [if_neg hf] at h
          exact h

theorem before_more (env : NumEnv) (args : FpMainArgs) (N M : Nat) (hNM : N ≤ M) (r : Except PyErr (Option (ℚ × ℚ)))
    (h : beforePrint env N args = some r) : beforePrint env M args = some r := by
  unfold beforePrint at h ⊢
  cases hm : mainInput env.rnd env.rndA N args.toFpArgs with
  | none => rw [hm] at h; simp at h
  | some v =>
    have hm' : mainInput env.rnd env.rndA M args.toFpArgs = some v := by
      unfold mainInput at hm ⊢
      cases hl : loadInput env.rnd N args.toFpArgs with
      | none => rw [hl] at hm; simp at hm
      | some w =>
        rw [load_more env.rnd args.toFpArgs N M hNM w hl]
        rw [hl] at hm
        exact hm
    rw [hm'] 
    rw [hm] at h
    rcases v with e | _ | arrays
    · exact h
    · exact h
    · simp only at h ⊢
      split
      · rename_i hne
        rw [if_pos hne] at h
        exact h
      · rename_i hne
        rw [if_neg hne, Option.map_eq_some_iff] at h
        obtain ⟨v, h1, h2⟩ := h
        rw [scanF_more env.rnd env.rndA _ (args.call env M (arrays.getD 0 [])) (fun b r hb => call_more env args _ b N M hNM r hb) _ _ _ v h1,
          Option.map_some, h2]

/-- **C137**: the form of the output does not change the result.  Two runs that differ in it (only) both print a result, and the lines
describe the same time and frequency, or both end in the same way without one. -/
theorem C137_output (env : NumEnv) (a a' : FpMainArgs) (he : SameEvents a a') (hs : SameSearch a a') (r : Except PyErr (Option (List Char)))
    (hr : Returns (fun fuel => fpMain env fuel a) r) :
    ((∃ e, r = .error e) ∨ r = .ok none) ∧ Returns (fun fuel => fpMain env fuel a') r ∨
    ∃ dt df, r = .ok (some (fpLine (fpOutput env.rnd a.output dt df))) ∧
      Returns (fun fuel => fpMain env fuel a') (.ok (some (fpLine (fpOutput env.rnd a'.output dt df)))) := by
  obtain ⟨N, hN⟩ := hr
  have h1 : fpMain env N a = some r := hN N le_rfl
  rw [fpMain_before, Option.map_eq_some_iff] at h1
  obtain ⟨v, h1, h2⟩ := h1
  have h3 : Returns (fun fuel => fpMain env fuel a') (v.map fun r => r.map fun r => fpLine (fpOutput env.rnd a'.output r.1 r.2)) := by
    refine ⟨N, fun fuel hf => ?_⟩
    show fpMain env fuel a' = _
    rw [fpMain_before, ← same_before env a a' he hs fuel, before_more env a N fuel hf v h1]
    rfl
  rcases v with e | _ | ⟨dt, df⟩
  · exact Or.inl ⟨Or.inl ⟨e, h2.symm⟩, h2 ▸ h3⟩
  · exact Or.inl ⟨Or.inr h2.symm, h2 ▸ h3⟩
  · exact Or.inr ⟨dt, df, h2.symm, h3⟩

/-- **C137** (the result is final): what a run has printed after some number of steps is what it returns. -/
theorem C137_final (env : NumEnv) (args : FpMainArgs) (fuel : Nat) (r : Except PyErr (Option (List Char)))
    (h : fpMain env fuel args = some r) : Returns (fun fuel => fpMain env fuel args) r := by
  refine ⟨fuel, fun M hM => ?_⟩
  show fpMain env M args = _
  rw [fpMain_before, Option.map_eq_some_iff] at h ⊢
  obtain ⟨v, h1, h2⟩ := h
  exact ⟨v, before_more env args fuel M hM v h1, h2⟩

/-- **C137** fails for `--precomp-fullscan`, an option of the precompensations: also if these are not enabled, a run that prints a result
ends with an error when the option is added. -/
theorem C137_fullscan_violated (env : NumEnv) (args : FpMainArgs) (line : List Char) (hoff : args.precompEnable = false)
    (h : Returns (fun fuel => fpMain env fuel args) (.ok (some line))) :
    Returns (fun fuel => fpMain env fuel { args with precompFullscan := true }) (.error .valueError) := by
  obtain ⟨N, hN⟩ := h
  refine ⟨N, fun fuel hf => ?_⟩
  have h1 : fpMain env fuel args = some (.ok (some line)) := hN fuel hf
  have h2 : args.precompFullscan = false := by
    by_contra hc
    exact C88_fullscan_negation env args (by simpa using hc) fuel line h1
  have hp : args.precompensations env = [0] := by simp [FpMainArgs.precompensations, hoff]
  have hp' : FpMainArgs.precompensations env { args with precompFullscan := true } = [0] := by
    simp [FpMainArgs.precompensations, hoff]
  show fpMain env fuel { args with precompFullscan := true } = _
  rw [fpMain_before, Option.map_eq_some_iff] at h1 ⊢
  obtain ⟨v, h3, h4⟩ := h1
  refine ⟨.error .valueError, ?_, rfl⟩
  unfold beforePrint at h3 ⊢
  have e1 : ({ args with precompFullscan := true } : FpMainArgs).toFpArgs = args.toFpArgs := rfl
  rw [e1, hp']
  rw [hp, h2] at h3
  cases hm : mainInput env.rnd env.rndA fuel args.toFpArgs with
  | none => rw [hm] at h3; simp at h3
  | some w =>
    rw [hm] at h3
    rcases w with e | _ | arrays
    · simp only [Option.some.injEq] at h3
      subst h3
      simp [Except.map] at h4
    · simp only [Option.some.injEq] at h3
      subst h3
      simp [Except.map] at h4
    · simp only at h3 ⊢
      split
      · rename_i hne
        rw [if_pos hne] at h3
        simp only [Option.some.injEq] at h3
        subst h3
        simp [Except.map] at h4
      · rename_i hne
        rw [if_neg hne, Option.map_eq_some_iff] at h3
        obtain ⟨u, h5, h6⟩ := h3
        have e2 : FpMainArgs.call env fuel { args with precompFullscan := true } (arrays.getD 0 []) = args.call env fuel (arrays.getD 0 []) := rfl
        rw [e2]
        unfold fpfindScanF at h5 ⊢
        simp only at h5 ⊢
        generalize args.call env fuel (arrays.getD 0 [])
          ((arrays.getD 1 []).map fun t => env.rndA (env.rndA (t - 0) / env.rnd (1 + 0))) = c at h5 ⊢
        rcases c with _ | e | ⟨dt, df⟩
        · simp at h5
        · cases e <;> simp only [fpfindScanF, Option.some.injEq] at h5 <;> subst h5 <;> subst h6 <;> simp [Except.map] at h4
        · simp [fpfindScanF, Except.map]

/-- **C137** from the shell: two command lines that ask for the same events, search and form of the output print the same. -/
theorem C137_shell (env : NumEnv) (files files' : Files) (dirs dirs' : Word → EpochDir) (l l' : List Setting)
    (hne : l ≠ [] ∧ l' ≠ []) (hl : (∀ s ∈ l, s.Ok fpSpec) ∧ ∀ s ∈ l', s.Ok fpSpec)
    (hno : ∀ d ∈ ["help", "config", "save"], ¬ Given l d ∧ ¬ Given l' d)
    (hw : ∀ d ∈ ["num_wraps", "buffer_order", "initial_res", "final_res", "output", "skip_epochs"], GivenDigits l d ∧ GivenDigits l' d)
    (hn : ∀ d ∈ ["skip_duration", "separation", "threshold", "precomp_start", "precomp_step", "precomp_stop"],
      GivenNumeral l d ∧ GivenNumeral l' d)
    (hfiles : ∀ d ∈ ["reference", "target"], ∀ v, (lastSet l d = some v → (files v).isSome = true) ∧
      (lastSet l' d = some v → (files' v).isSome = true))
    (a a' : FpMainArgs) (ha : FpMeaning files dirs l a) (ha' : FpMeaning files' dirs' l' a') (he : SameEvents a a') (hs : SameSearch a a')
    (ho : a.output = a'.output) (r : Except PyErr (Option (List Char))) :
    FpPrints env (cmdWords l) files dirs r ↔ FpPrints env (cmdWords l') files' dirs' r := by
  rw [C133_prints env files dirs _ a (C133_fpfind env files dirs l hne.1 hl.1 (fun d hd => (hno d hd).1) (fun d hd => (hw d hd).1)
      (fun d hd => (hn d hd).1) (fun d hd v hv => (hfiles d hd v).1 hv) a ha) r,
    C133_prints env files' dirs' _ a' (C133_fpfind env files' dirs' l' hne.2 hl.2 (fun d hd => (hno d hd).2) (fun d hd => (hw d hd).2)
      (fun d hd => (hn d hd).2) (fun d hd v hv => (hfiles d hd v).2 hv) a' ha') r]
  unfold Returns
  simp only [C137_irrelevant env a a' he hs ho]

/-- Instance of C137: options about epochs and precompensations change nothing for timestamp files. -/
theorem C137_instance (env : NumEnv) (args : FpMainArgs) (h1 : args.sendfiles = none) (h2 : args.t1files = none) (A B : Bytes)
    (h3 : args.reference = some A) (h4 : args.target = some B) (h5 : args.precompEnable = false) (d : EpochDir) (fuel : Nat) :
    fpMain env fuel args = fpMain env fuel { args with
      sendfiles := some d, firstEpoch := some "zz".toList, skipEpochs := 7, precompStart := 5, precompStep := 1, precompOrdered := true } := by
  refine C137_irrelevant env _ _ ?_ ?_ ?_ fuel
  · exact Or.inr ⟨Or.inl h1, Or.inr h2, Or.inl ⟨A, B, h3, h3, h4, h4, rfl, rfl⟩⟩
  · exact ⟨rfl, rfl, rfl, rfl, rfl, rfl, rfl, rfl, fun h => by rw [h5] at h; simp at h⟩
  · rfl

/-- The recordings of C106: they lead to a result, which all forms of the output describe. -/
example (d : EpochDir) (r : Except PyErr (Option (List Char))) (h : Returns (fun fuel => fpMain printEnv fuel printArgs) r) :
    Returns (fun fuel => fpMain printEnv fuel { printArgs with
      sendfiles := some d, firstEpoch := some "zz".toList, skipEpochs := 7, precompStart := 5, precompStep := 1, precompOrdered := true }) r := by
  obtain ⟨N, hN⟩ := h
  obtain ⟨A, hA⟩ := Option.isSome_iff_exists.mp (show printArgs.reference.isSome = true from rfl)
  obtain ⟨B, hB⟩ := Option.isSome_iff_exists.mp (show printArgs.target.isSome = true from rfl)
  exact ⟨N, fun fuel hf => (C137_instance printEnv printArgs rfl rfl A B hA hB rfl d fuel).symm.trans (hN fuel hf)⟩

end Fp
