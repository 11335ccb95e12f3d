import Verif.Lemmas.PlotCli
import Verif.Spec.Pipeline

/-! # C138: `fpplot` called from the shell with what `fpfind` printed -/
namespace Fp
open Spec

/-- **C138**: `fpplot` runs with exactly what its options mean, in any order and form. -/
theorem C138_options (rnd rndA : ℚ → ℚ) (files : Files) (dirs : Word → EpochDir) (l : List Setting) (hc : PlotCall files l)
    (a : PlotArgs) (ha : PlotMeaning files dirs l a) (fuel : Nat) :
    plotCli rnd rndA fuel (cmdWords l) files dirs = .ran (plotArrays rnd rndA fuel a) := by
  obtain ⟨hne, hl, hno, hw, hn, hfiles⟩ := hc
  have hparse := parse_tail (ws := []) (tail := []) plotSpec_good hl rfl rfl
  have hcp : consumePos plotSpec.pos [] = ([], [], []) := rfl
  rw [hcp, if_neg] at hparse
  swap
  · rintro (⟨o, ho, hr, _⟩ | ⟨p, hp, _⟩ | h)
    · exact absurd hr ((by decide : ∀ o ∈ plotSpec.opts, ¬ o.required = true) o ho)
    · simp at hp
    · simp at h
  simp only [List.append_nil] at hparse
  have flag : ∀ d : String, argFlag (cmdSets l) d = true ↔ Given l d := fun d => by
    have := argFlag_sets l [] d (by simp)
    rwa [List.append_nil] at this
  have val : ∀ d : String, argValue (cmdSets l) d = lastSet l d := fun d => by
    have := argValue_sets l [] d (by simp)
    rwa [List.append_nil] at this
  have flo : ∀ (d : String) (y : ℚ), FloatSet l d (some y) (some ((argFloat (cmdSets l) d).getD y)) := fun d y => by
    have := argFloat_set l (cmdSets l) d (val d) (some y)
    cases h : argFloat (cmdSets l) d with
    | none => rw [h] at this; simpa using this
    | some x => rw [h] at this; simpa using this
  have flo' : ∀ d : String, FloatSet l d none (argFloat (cmdSets l) d) := fun d => by
    have := argFloat_set l (cmdSets l) d (val d) none
    cases h : argFloat (cmdSets l) d with
    | none => rw [h] at this; simpa using this
    | some x => rw [h] at this; simpa using this
  have f1 := argFile_set files l "reference" (hfiles _ (by decide))
  have f2 := argFile_set files l "target" (hfiles _ (by decide))
  have i1 := argInt_set hl "num_epochs" (by simp [plotSpec, argSwitch, argStore]) 1
  have i2 := argInt_set hl "skip_epochs" (by simp [plotSpec, argSwitch, argStore]) 0
  unfold plotCli
  rw [hparse]
  simp only
  rw [if_neg]
  swap
  · rintro (h | h | h | h | h)
    · exact hno _ (by decide) ((flag _).mp h)
    · exact hno _ (by decide) ((flag _).mp h)
    · exact hno _ (by decide) ((flag _).mp h)
    · exact hno _ (by decide) ((flag _).mp h)
    · obtain ⟨s, l', rfl⟩ := List.exists_cons_of_ne_nil hne
      have : s.words ≠ [] := by cases s <;> simp [Setting.words]
      exact this (by simpa [cmdWords] using (List.append_eq_nil_iff.mp (by simpa [cmdWords] using h : s.words ++ cmdWords l' = [])).1)
  have hargs : plotArgs files dirs (cmdSets l) = some a := by
    unfold plotArgs
    rw [f1, f2]
    simp only [Option.bind_eq_bind, Option.bind_some, Option.pure_def, Option.some.injEq]
    obtain ⟨a1, a2, a3, a4, a5, a6, a7, a8, a9, a10, a11, a12⟩ := a
    have num : ∀ (d : String) (x y : Int) (c : Int), GivenDigits l d → ((lastSet l d = none → x = c) ∧ ∀ v n, lastSet l d = some v → Digits v n → x = n) →
        ((lastSet l d = none → y = c) ∧ ∀ v n, lastSet l d = some v → Digits v n → y = n) → x = y := by
      intro d x y c hg h1 h2
      cases e : lastSet l d with
      | none => rw [h1.1 e, h2.1 e]
      | some v =>
        obtain ⟨n, hn⟩ := hg v e
        rw [h1.2 v n e hn, h2.2 v n e hn]
    congr 1
    · rw [val]; exact ha.sendfiles.symm
    · rw [val]; exact ha.t1files.symm
    · exact ha.reference.symm
    · exact ha.target.symm
    · exact bool_iff (flag _) ha.legacy
    · exact Option.some.inj (floatSet_unique (hn _ (by decide)) (flo _ _) ha.skipDuration)
    · rw [val]; exact ha.firstEpoch.symm
    · rw [val]; exact num _ _ _ _ (hw _ (by decide)) i1 ha.numEpochs
    · rw [val]; exact num _ _ _ _ (hw _ (by decide)) i2 ha.skipEpochs
    · exact Option.some.inj (floatSet_unique (hn _ (by decide)) (flo _ _) ha.freq)
    · exact Option.some.inj (floatSet_unique (hn _ (by decide)) (flo _ _) ha.time)
    · exact floatSet_unique (hn _ (by decide)) (flo' _) ha.duration
  rw [hargs]

theorem plot_shows (rnd rndA : ℚ → ℚ) (files : Files) (dirs : Word → EpochDir) (l : List Setting) (hc : PlotCall files l)
    (a : PlotArgs) (ha : PlotMeaning files dirs l a) (r : Except PyErr (Option (List ℚ × List ℚ))) :
    PlotShows rnd rndA (cmdWords l) files dirs r ↔ Returns (fun fuel => plotArrays rnd rndA fuel a) r := by
  unfold PlotShows Returns
  simp only [C138_options rnd rndA files dirs l hc a ha, CliOut.ran.injEq]

/-- The same options about the events mean the same input. -/
theorem sameSource_input (files : Files) (dirs : Word → EpochDir) (l l' : List Setting) (hc : FpCall files l) (hs : SameSource l l')
    (A : FpMainArgs) (B : PlotArgs) (hA : FpMeaning files dirs l A) (hB : PlotMeaning files dirs l' B) : SameInput A.toFpArgs B := by
  obtain ⟨hs1, hs2⟩ := hs
  refine ⟨?_, ?_, ?_, ?_, ?_, ?_, ?_, ?_⟩
  · rw [hB.sendfiles, hs1 _ (by decide)]; exact hA.sendfiles.symm
  · rw [hB.t1files, hs1 _ (by decide)]; exact hA.t1files.symm
  · rw [hB.reference, hs1 _ (by decide)]; exact hA.reference.symm
  · rw [hB.target, hs1 _ (by decide)]; exact hA.target.symm
  · exact bool_iff (hB.legacy.trans hs2) hA.legacy
  · have e := hs1 "skip_duration" (by decide)
    have h1 := hB.skipDuration
    unfold FloatSet at h1
    rw [e] at h1
    exact Option.some.inj (floatSet_unique (hc.numerals _ (by decide)) h1 hA.skipDuration)
  · rw [hB.firstEpoch, hs1 _ (by decide)]; exact hA.firstEpoch.symm
  · have e := hs1 "skip_epochs" (by decide)
    have h1 := hB.skipEpochs
    rw [e] at h1
    cases e : lastSet l "skip_epochs" with
    | none => rw [h1.1 e]; exact (hA.skipEpochs.1 e).symm
    | some v =>
      obtain ⟨n, hn⟩ := hc.digits _ (by decide) v e
      rw [h1.2 v n e hn]
      exact (hA.skipEpochs.2 v n e hn).symm

/-- **C138** (events): called with the same files or directories as `fpfind`, and at most as many epochs, `fpplot` makes the histogram of
the beginning of the events that `fpfind` works on (all of them for timestamp files) up to `--duration`; the times of the reference are
unchanged.  Only for directories can it end with an `IndexError` instead. -/
theorem C138_events (env : NumEnv) (henv : env.rndA = fl 64) (files : Files) (dirs : Word → EpochDir) (l l' : List Setting)
    (hc : FpCall files l) (hc' : PlotCall files l') (hs : SameSource l l') (A : FpMainArgs) (B : PlotArgs) (hA : FpMeaning files dirs l A)
    (hB : PlotMeaning files dirs l' B) (hn : A.sendfiles = none ∨ A.t1files = none ∨ B.numEpochs ≤ A.requiredEpochs env.rnd - A.skipEpochs)
    (a b : List ℚ) (hin : Input env A a b) :
    (A.sendfiles ≠ none ∧ A.t1files ≠ none ∧ PlotShows env.rnd env.rndA (cmdWords l') files dirs (.error .indexError)) ∨
    ∃ a' b', a' <+: a ∧ b' <+: b ∧ (A.sendfiles = none ∨ A.t1files = none → a' = a ∧ b' = b) ∧
      PlotShows env.rnd env.rndA (cmdWords l') files dirs
        (.ok (some (a'.filter fun t => Within (B.duration.map fun d => env.rnd (d * 10 ^ 9)) t,
          (b'.filter fun t => Within (B.duration.map fun d => env.rnd (d * 10 ^ 9)) t).map
            (plotCorrect env.rnd env.rndA B.freq B.time)))) := by
  obtain ⟨h1, h2, h3⟩ := hin
  rcases C79_input env.rnd env.rndA (by rw [henv]; exact fl_idem 64 (by norm_num)) A.toFpArgs B
    (sameSource_input files dirs l l' hc hs A B hA hB) hn a b h1 with ⟨g1, N, g2⟩ | ⟨a', b', g1, g2, g3, N, g4⟩
  · left
    rcases g1 with g1 | g1 | g1
    · refine ⟨g1.1, g1.2, (plot_shows _ _ files dirs l' hc' B hB _).mpr ⟨N, fun fuel hf => ?_⟩⟩
      have := g2 fuel hf
      simp only at this
      show plotArrays env.rnd env.rndA fuel B = _
      rw [plotArrays, this]
      rfl
    · exact absurd g1 h2
    · exact absurd g1 h3
  · right
    refine ⟨a', b', g1, g2, g3, (plot_shows _ _ files dirs l' hc' B hB _).mpr ⟨N, fun fuel hf => ?_⟩⟩
    have := g4 fuel hf
    simp only at this
    show plotArrays env.rnd env.rndA fuel B = _
    rw [plotArrays, this]
    rfl

/-- **C138** (whole chain): `fpfind` called on two timestamp files with coincidences prints a frequency and a time.  `fpplot` called with
the same files, the frequency in ppm (a numeral `w` for `r`, off by at most `ρ`) and the time as printed, makes the histogram of the
events of the reference and those of the target up to `--duration`, where the event of the target that belongs to the time `s` of the
reference clock is within the accuracy of C106 of `s`. -/
theorem C138_chain (env : NumEnv) (henv : env.rnd = fl 53) (henvA : env.rndA = fl 64) (files : Files) (dirs : Word → EpochDir)
    (l : List Setting) (hc : FpCall files l) (hfull : ¬ Given l "precomp_fullscan")
    (hV : lastSet l "output" = none ∨ lastSet l "output" = some ['0']) (hraw : lastSet l "sendfiles" = none ∨ lastSet l "t1files" = none)
    (args : FpMainArgs) (ha : FpMeaning files dirs l args)
    (a b : List ℚ) (hin : Input env args a b) (pre post : List ℚ) (d : ℚ)
    (hp : precs env args = pre ++ d :: post) (hd : |fl 53 (1 + d) - 1| ≤ 1 / 2 ^ 9)
    (hpre : ∀ d' ∈ pre, Search env args a (precompensated env d' b) (.error .valueError))
    (j : Nat) (φ τ φ' τ' B E0 E1 : ℚ) (δ : Nat → ℚ) (w : Nat → Nat) (L : Nat)
    (hφ : 1 + φ = (1 + φ') * fl 53 (1 + d)) (hτ : τ = τ' * fl 53 (1 + d))
    (C : ClearRun (searchParams env args a (precompensated env d b)) (precompensated env d b) args.initialRes j φ' τ' B E0 E1 δ w L) :
    ∃ freq time x n k, FpPrints env (cmdWords l) files dirs (.ok (some (freq ++ '\t' :: time ++ ['\n']))) ∧ DoubleText freq x ∧
      IntText time n ∧ k ≤ L ∧
      ∀ (l' : List Setting) (w : Word) (r ρ : ℚ), PlotCall files l' → SameSource l l' → lastSet l' "freq" = some w → Denotes w r →
        |r - x * 10 ^ 6| ≤ ρ → |r| ≤ 7000 → lastSet l' "time" = some time →
        ∀ dur : Option ℚ, FloatSet l' "duration" none dur →
        ∀ a1 b1, a1 = a.filter (fun t => Within (dur.map fun d => fl 53 (d * 10 ^ 9)) t) →
          b1 = b.filter (fun t => Within (dur.map fun d => fl 53 (d * 10 ^ 9)) t) →
        ∃ b2, PlotShows env.rnd env.rndA (cmdWords l') files dirs (.ok (some (a1, b2))) ∧
          List.Forall₂ (fun t t' => ∀ s q, 0 ≤ s → |targetClock φ' τ' s| ≤ B → |t - targetClock φ τ s| ≤ q →
            |t' - s| ≤ pipelineError args (searchParams env args a (precompensated env d b)).sep B (δ k) k s + (1 / 2 + 1 / 2 ^ 8) +
              q * (1 + 1 / 2 ^ 7) + (|t| + |(n : ℚ)|) * (ρ / 10 ^ 6 * (1 + 1 / 2 ^ 6) + 1 / 2 ^ 48)) b1 b2 := by
  have hout : args.output = 0 := by
    rcases hV with hV | hV
    · exact Option.some.inj (ha.output.1 hV)
    · exact Option.some.inj (ha.output.2 _ 0 hV ⟨[0], by simp, by simp⟩)
  have hfull' : args.precompFullscan = false := by
    have := (not_congr ha.precompFullscan).mpr hfull
    simpa using this
  have hraw' : args.sendfiles = none ∨ args.t1files = none := by
    rcases hraw with h | h
    · left; rw [ha.sendfiles, h]; rfl
    · right; rw [ha.t1files, h]; rfl
  obtain ⟨line, x, n, k, h1, ⟨freq, h2, ⟨h3, -⟩ | ⟨n', time, h3, h4, rfl⟩⟩, hx, hk, h5⟩ :=
    printed_line env henv args hfull' hout a b hin pre post d hp hd hpre j φ τ φ' τ' B E0 E1 δ w L hφ hτ C
  · simp at h3
  obtain rfl := Option.some.inj h3
  refine ⟨freq, time, x, n, k, ?_, h2, h4, hk, ?_⟩
  · rw [C133_prints env files dirs _ args]
    · exact h1
    · exact C133_fpfind env files dirs l hc.some_ hc.ok hc.inside hc.digits hc.numerals hc.files args ha
  intro l' w r ρ hc' hs hfreq hw hρ hr7 htime dur hdur a1 b1 ha1 hb1
  have hdval : ∀ y, FloatSet l' "skip_duration" (some 0) (some y) ↔ FloatSet l "skip_duration" (some 0) (some y) := by
    intro y
    unfold FloatSet
    rw [hs.1 _ (by decide)]
  have hnum : ∃ m : Int, (lastSet l' "num_epochs" = none → m = 1) ∧ ∀ v n, lastSet l' "num_epochs" = some v → Digits v n → m = n := by
    cases e : lastSet l' "num_epochs" with
    | none => exact ⟨1, fun _ => rfl, fun v n h => by simp at h⟩
    | some v =>
      obtain ⟨m, hm⟩ := hc'.digits _ (by decide) v e
      refine ⟨m, fun h => by simp at h, fun v' n h hn => ?_⟩
      obtain rfl := Option.some.inj h
      have := digitsVal_spec hm
      rw [digitsVal_spec hn] at this
      simpa using this.symm
  obtain ⟨m, hm⟩ := hnum
  let Bp : PlotArgs :=
  { sendfiles := args.sendfiles, t1files := args.t1files, reference := args.reference, target := args.target, legacy := args.legacy,
    skipDuration := args.skipDuration, firstEpoch := args.firstEpoch, numEpochs := m, skipEpochs := args.skipEpochs,
    freq := fl 53 r, time := fl 53 n, duration := dur }
  have hset : ∀ (d : String) (v : Word) (y : ℚ) (c : Option ℚ), lastSet l' d = some v → Denotes v y → FloatSet l' d c (some (fl 53 y)) := by
    intro d v y c h hv
    refine ⟨fun e => by simp [h] at e, fun w m e hw => ?_⟩
    rw [h] at e
    obtain rfl := Option.some.inj e
    have := decimalOf_spec hv
    rw [decimalOf_spec hw] at this
    rw [Option.some.inj this]
  have hBp : PlotMeaning files dirs l' Bp := {
    sendfiles := by rw [hs.1 _ (by decide)]; exact ha.sendfiles
    t1files := by rw [hs.1 _ (by decide)]; exact ha.t1files
    reference := by rw [hs.1 _ (by decide)]; exact ha.reference
    target := by rw [hs.1 _ (by decide)]; exact ha.target
    legacy := ha.legacy.trans hs.2.symm
    skipDuration := (hdval _).mpr ha.skipDuration
    firstEpoch := by rw [hs.1 _ (by decide)]; exact ha.firstEpoch
    numEpochs := hm
    skipEpochs := by rw [hs.1 _ (by decide)]; exact ha.skipEpochs
    freq := hset _ _ _ _ hfreq hw
    time := hset _ _ _ _ htime (intText_denotes h4)
    duration := hdur }
  rcases C138_events env henvA files dirs l l' hc hc' hs args Bp ha hBp (hraw'.imp_right Or.inl) a b hin with ⟨q1, q2, -⟩ | ⟨a', b', -, -, q, hshow⟩
  · rcases hraw' with h | h
    · exact absurd h q1
    · exact absurd h q2
  obtain ⟨rfl, rfl⟩ := q hraw'
  rw [henv] at hshow
  refine ⟨b1.map (plotCorrect (fl 53) env.rndA (fl 53 r) (fl 53 n)), ?_, ?_⟩
  · rw [ha1, hb1, henv]
    exact hshow
  rw [List.forall₂_map_right_iff]
  refine List.forall₂_same.mpr fun t _ s q hs0 hBs hq => ?_
  have k1 := plot_given (fl 53) env.rndA C76_arithmetic.1 (by rw [henvA]; exact C76_arithmetic.2) r x ρ n t hx hρ hr7
  have k2 := h5 _ _ rfl rfl s hs0 hBs
  have hx0 : 0 < 1 + x := lt_of_lt_of_le (by norm_num) hx
  have hq0 : 0 ≤ q := (abs_nonneg _).trans hq
  have k3 : |corrected n x t - corrected n x (targetClock φ τ s)| ≤ q * (1 + 1 / 2 ^ 7) := by
    unfold corrected
    rw [← sub_div, abs_div, abs_of_pos hx0, div_le_iff₀ hx0, show t - n - (targetClock φ τ s - n) = t - targetClock φ τ s by ring]
    refine hq.trans ?_
    have e1 : (1 : ℚ) ≤ (1 + 1 / 2 ^ 7) * (1 + x) := by
      have := mul_le_mul_of_nonneg_left hx (by norm_num : (0 : ℚ) ≤ 1 + 1 / 2 ^ 7)
      refine le_trans ?_ this
      norm_num
    have := mul_le_mul_of_nonneg_left e1 hq0
    rw [mul_one] at this
    refine this.trans (le_of_eq ?_)
    ring
  have s1 := abs_sub_le (plotCorrect (fl 53) env.rndA (fl 53 r) (fl 53 n) t) (corrected n x t) s
  have s2 := abs_sub_le (corrected n x t) (corrected n x (targetClock φ τ s)) s
  unfold pipelineError
  linarith

/-! ## Instance: the recordings of C106 -/

/-- The options of `-t A -T B --freq=w --time=u`. -/
def plotSettings (A B w u : Word) : List Setting :=
  [.pair (argStore ["-t", "--reference"] "reference" anyText) ['-', 't'] A, .pair (argStore ["-T", "--target"] "target" anyText) ['-', 'T'] B,
    .equals (argStore ["--freq"] "freq" isFloat) "--freq".toList w, .equals (argStore ["--time"] "time" isFloat) "--time".toList u]

theorem plotSettings_sets (A B w u : Word) :
    cmdSets (plotSettings A B w u) = [("reference", [A]), ("target", [B]), ("freq", [w]), ("time", [u])] := rfl

theorem plotSettings_none (A B w u : Word) (d : String) (hd : d ∉ ["reference", "target", "freq", "time"]) :
    lastSet (plotSettings A B w u) d = none ∧ ¬ Given (plotSettings A B w u) d := by
  simp only [List.mem_cons, List.not_mem_nil, or_false, not_or] at hd
  obtain ⟨h1, h2, h3, h4⟩ := hd
  constructor
  · rw [lastSet, plotSettings_sets]
    simp [Ne.symm h1, Ne.symm h2, Ne.symm h3, Ne.symm h4]
  · show ¬ ∃ x ∈ cmdSets (plotSettings A B w u), x.1 = d
    rw [plotSettings_sets]
    simp [Ne.symm h1, Ne.symm h2, Ne.symm h3, Ne.symm h4]

theorem denotes_isFloat {w : Word} {r : ℚ} (h : Denotes w r) : isFloat w = true := by
  unfold isFloat
  rw [decimalOf_spec h]
  rfl

theorem plotSettings_call (files : Files) (A B w u : Word) (hA : PlainWord A) (hB : PlainWord B) (h1 : (files A).isSome = true)
    (h2 : (files B).isSome = true) (r y : ℚ) (hw : Denotes w r) (hu : Denotes u y) : PlotCall files (plotSettings A B w u) := by
  have some_of : ∀ d v, ((cmdSets (plotSettings A B w u)).reverse.find? fun x => x.1 = d).bind (fun x => x.2.head?) = some v →
      lastSet (plotSettings A B w u) d = some v := fun d v h => h
  have lt : lastSet (plotSettings A B w u) "reference" = some A := some_of _ _ (by rw [plotSettings_sets]; simp)
  have lT : lastSet (plotSettings A B w u) "target" = some B := some_of _ _ (by rw [plotSettings_sets]; simp)
  have lf : lastSet (plotSettings A B w u) "freq" = some w := some_of _ _ (by rw [plotSettings_sets]; simp)
  have lu : lastSet (plotSettings A B w u) "time" = some u := some_of _ _ (by rw [plotSettings_sets]; simp)
  have no := fun d hd => (plotSettings_none A B w u d hd).1
  refine ⟨by simp [plotSettings], ?_, ?_, ?_, ?_, ?_⟩
  · intro s hs
    simp only [plotSettings, List.mem_cons, List.not_mem_nil, or_false] at hs
    rcases hs with rfl | rfl | rfl | rfl
    · exact ⟨by simp [plotSpec], by decide, rfl, rfl, hA⟩
    · exact ⟨by simp [plotSpec], by decide, rfl, rfl, hB⟩
    · exact ⟨by simp [plotSpec], by decide, rfl, denotes_isFloat hw⟩
    · exact ⟨by simp [plotSpec], by decide, rfl, denotes_isFloat hu⟩
  · intro d hd
    refine (plotSettings_none A B w u d ?_).2
    exact (by decide : ∀ d ∈ ["help", "config", "save", "experiment"], d ∉ ["reference", "target", "freq", "time"]) d hd
  · intro d hd v hv
    rw [no d ((by decide : ∀ d ∈ ["num_epochs", "skip_epochs"], d ∉ ["reference", "target", "freq", "time"]) d hd)] at hv
    simp at hv
  · intro d hd v hv
    simp only [List.mem_cons, List.not_mem_nil, or_false] at hd
    rcases hd with rfl | rfl | rfl | rfl
    · rw [no _ (by decide)] at hv; simp at hv
    · rw [lf] at hv; obtain rfl := Option.some.inj hv; exact ⟨_, hw⟩
    · rw [lu] at hv; obtain rfl := Option.some.inj hv; exact ⟨_, hu⟩
    · rw [no _ (by decide)] at hv; simp at hv
  · intro d hd v hv
    simp only [List.mem_cons, List.not_mem_nil, or_false] at hd
    rcases hd with rfl | rfl
    · rw [lt] at hv; obtain rfl := Option.some.inj hv; exact h1
    · rw [lT] at hv; obtain rfl := Option.some.inj hv; exact h2

/-- The recordings of C106, in which the clock of the target is fast by 10 ppm: `fpfind -t A -T B -q6 -R 2 -s 7812.5 -V0 --precomp-step=0
--precomp-stop=0` prints a frequency and a time; `fpplot -t A -T B --freq=F --time=T` with the frequency in ppm, right to 1 ppb, and the time
makes the histogram of all events, and moves every event of the target to within 5 ns of its time on the reference clock. -/
theorem C138_instance (files : Files) (dirs : Word → EpochDir) (A B : Word) (hA : PlainWord A) (hB : PlainWord B)
    (h1 : files A = printArgs.reference) (h2 : files B = printArgs.target) :
    ∃ freq time x n, FpPrints printEnv ["-t".toList, A, "-T".toList, B, "-q6".toList, "-R".toList, "2".toList, "-s".toList, "7812.5".toList,
        "-V0".toList, "--precomp-step=0".toList, "--precomp-stop=0".toList] files dirs (.ok (some (freq ++ '\t' :: time ++ ['\n']))) ∧
      DoubleText freq x ∧ IntText time n ∧
      ∀ (w : Word) (r : ℚ), Denotes w r → |r - x * 10 ^ 6| ≤ 1 / 1000 → |r| ≤ 7000 →
        ∃ b2, PlotShows (fl 53) (fl 64) ["-t".toList, A, "-T".toList, B, "--freq=".toList ++ w, "--time=".toList ++ time] files dirs
          (.ok (some (printA, b2))) ∧
        List.Forall₂ (fun t t' => ∀ s, 0 ≤ s → s ≤ 1000100 → |t| ≤ 2 * 10 ^ 6 → |t - targetClock (1 / 100000) 3 s| ≤ 1 / 5 →
          |t' - s| ≤ 5 + |(n : ℚ)| / 10 ^ 8) printB b2 := by
  have hF : fl 53 (1 + 0) = 1 := by decide +kernel
  have hc := shellFp_call files A B hA hB h1 h2 '0' 0 (by decide) (by decide)
  have hm := shellFp_meaning files dirs A B h1 h2 '0' 0 (by decide)
  have hout : lastSet (shellFp A B '0') "output" = some ['0'] := by rw [lastSet, shellFp_sets]; simp
  obtain ⟨freq, time, x, n, k, g1, g2, g3, hk, g4⟩ := C138_chain printEnv rfl rfl files dirs (shellFp A B '0') hc
    (shellFp_none A B '0' _ (by decide)).2 (Or.inr hout) (Or.inl (shellFp_none A B '0' _ (by decide)).1) printArgs hm printA printB print_input [] [] 0 rfl
    (by rw [hF]; norm_num) (by simp) 0 (1 / 100000) 3 (1 / 100000) 3 _ _ _ _ _ _ (by rw [hF]; ring) (by rw [hF]; ring)
    (by
      rw [print_params, print_target]
      have : ((printArgs.initialRes : Nat) : ℚ) = 2 := by norm_num [printArgs]
      rw [this]
      exact print_run)
  refine ⟨freq, time, x, n, g1, g2, g3, fun w r hw hr hr7 => ?_⟩
  have no := fun d hd => (plotSettings_none A B w time d hd).1
  have noG := fun d hd => (plotSettings_none A B w time d hd).2
  have lt : lastSet (plotSettings A B w time) "reference" = some A := by rw [lastSet, plotSettings_sets]; simp
  have lT : lastSet (plotSettings A B w time) "target" = some B := by rw [lastSet, plotSettings_sets]; simp
  have lf : lastSet (plotSettings A B w time) "freq" = some w := by rw [lastSet, plotSettings_sets]; simp
  have lu : lastSet (plotSettings A B w time) "time" = some time := by rw [lastSet, plotSettings_sets]; simp
  have mt : lastSet (shellFp A B '0') "reference" = some A := by rw [lastSet, shellFp_sets]; simp
  have mT : lastSet (shellFp A B '0') "target" = some B := by rw [lastSet, shellFp_sets]; simp
  obtain ⟨b2, p1, p2⟩ := g4 (plotSettings A B w time) w r (1 / 1000)
    (plotSettings_call files A B w time hA hB (by rw [h1]; rfl) (by rw [h2]; rfl) r n hw (intText_denotes g3))
    ⟨by
      intro d hd
      simp only [List.mem_cons, List.not_mem_nil, or_false] at hd
      rcases hd with rfl | rfl | rfl | rfl | rfl | rfl | rfl
      · rw [no _ (by decide), (shellFp_none A B '0' _ (by decide)).1]
      · rw [no _ (by decide), (shellFp_none A B '0' _ (by decide)).1]
      · rw [lt, mt]
      · rw [lT, mT]
      · rw [no _ (by decide), (shellFp_none A B '0' _ (by decide)).1]
      · rw [no _ (by decide), (shellFp_none A B '0' _ (by decide)).1]
      · rw [no _ (by decide), (shellFp_none A B '0' _ (by decide)).1],
      iff_of_false (noG _ (by decide)) (shellFp_none A B '0' _ (by decide)).2⟩ lf hw hr hr7 lu none
    ⟨fun _ => rfl, fun v x e => by rw [no _ (by decide)] at e; simp at e⟩ printA printB
    (by simp [Within]) (by simp [Within])
  refine ⟨b2, ?_, ?_⟩
  · have e : cmdWords (plotSettings A B w time) = ["-t".toList, A, "-T".toList, B, "--freq=".toList ++ w, "--time=".toList ++ time] := rfl
    rw [← e]
    exact p1
  · refine List.Forall₂.imp (fun t t' h s hs hs' ht hq => ?_) p2
    have hB' : |targetClock (1 / 100000) 3 s| ≤ 2 * 10 ^ 6 := by
      unfold targetClock
      rw [abs_of_nonneg (by positivity)]
      linarith
    refine (h s (1 / 5) hs hB' hq).trans ?_
    have hsep : (searchParams printEnv printArgs printA (precompensated printEnv 0 printB)).sep = 1000000 := by
      rw [print_params]
      rfl
    rw [hsep]
    have herr : pipelineError printArgs 1000000 (2 * 10 ^ 6) (1 / 5) k s ≤ 4 := by
      unfold pipelineError
      have hk : (k : ℚ) ≤ 1 := by exact_mod_cast hk
      have hk0 : (0 : ℚ) ≤ k := by positivity
      have hR : ((k : ℚ) + 1) * (2 * 10 ^ 6 + (k + 1) * (101 * 10 ^ 6)) / 2 ^ 49 ≤ 1 / 10000 := by
        rw [div_le_iff₀ (by norm_num)]
        nlinarith
      have hR0 : 0 ≤ ((k : ℚ) + 1) * (2 * 10 ^ 6 + (k + 1) * (101 * 10 ^ 6)) / 2 ^ 49 := by positivity
      generalize ((k : ℚ) + 1) * (2 * 10 ^ 6 + (k + 1) * (101 * 10 ^ 6)) / 2 ^ 49 = R at *
      have hq : s / 1000000 ≤ 1 + 1 / 10000 := by rw [div_le_iff₀ (by norm_num)]; norm_num; linarith
      have hq0 : 0 ≤ s / 1000000 := by positivity
      generalize s / 1000000 = q at *
      simp only [printArgs]
      norm_num
      nlinarith
    have hn0 := abs_nonneg (n : ℚ)
    clear hm hc g1 g4 p1 p2 h hB' hq hr
    generalize pipelineError printArgs 1000000 (2 * 10 ^ 6) (1 / 5) k s = E at *
    generalize |(n : ℚ)| = M at *
    generalize |t| = T at *
    norm_num at ht ⊢
    linarith

end Fp
