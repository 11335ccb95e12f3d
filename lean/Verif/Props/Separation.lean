import Verif.Lemmas.Separation
import Verif.Props.FpAccuracy
import Verif.Props.FpRun
import Verif.Props.Shell

/-! # Small separations: C136 -/
namespace Fp
open Spec

theorem grow_factor (P : TFParams) (hr : RelErr P.rnd) (hd : 0 < P.duration) (hs0 : 0 < P.sep)
    (hs : P.sep ≤ resRefineFactor * (1 - 1 / 2 ^ 50) * P.duration) (x : ℚ) (hx : 0 < x) :
    x * (1 + 1 / 2 ^ 52) ≤ P.rnd (x / P.rnd (P.rnd (P.sep / P.duration) / resRefineFactor)) := by
  refine quotient_ge P.rnd hr P.sep P.duration _ hd hs0 ?_ x hx
  have hR : (0 : ℚ) < resRefineFactor := by unfold resRefineFactor; norm_num
  have h1 : (1 + 1 / 2 ^ 52) * P.sep * (1 + 1 / 2 ^ 53) ^ 2 ≤
      (1 + 1 / 2 ^ 52) * (resRefineFactor * (1 - 1 / 2 ^ 50) * P.duration) * (1 + 1 / 2 ^ 53) ^ 2 :=
    mul_le_mul_of_nonneg_right (mul_le_mul_of_nonneg_left hs (by norm_num)) (by norm_num)
  refine h1.trans ?_
  have h2 : (1 + 1 / 2 ^ 52) * (resRefineFactor * (1 - 1 / 2 ^ 50) * P.duration) * (1 + 1 / 2 ^ 53) ^ 2 =
      resRefineFactor * P.duration * ((1 + 1 / 2 ^ 52) * (1 - 1 / 2 ^ 50) * (1 + 1 / 2 ^ 53) ^ 2) := by ring
  rw [h2]
  exact mul_le_mul_of_nonneg_left (by norm_num) (by positivity)

/-- **C136** (termination): `time_freq` also ends if the separation is less than √2 durations (by a relative 2^-50).  With C34, it may
only run for ever for separations next to √2 durations. -/
theorem C136_ends (P : TFParams) (hr : RelErr P.rnd) (hra : RelErr P.rndA) (hd : 0 < P.duration) (ht : 0 < P.target) (hN : 0 < P.numBins)
    (hs0 : 0 < P.sep) (hs : P.sep ≤ resRefineFactor * (1 - 1 / 2 ^ 50) * P.duration) (bts : List ℚ) (res : ℚ) (h0 : 0 < res) :
    ∃ r, Returns (fun fuel => timeFreq P fuel bts res) r := by
  have hρ : (1 : ℚ) < 1 + 1 / 2 ^ 52 := by norm_num
  have hN' : (0 : ℚ) < P.numBins := by exact_mod_cast hN
  obtain ⟨n, hn⟩ := pow_unbounded_of_one_lt (3 * P.duration / (P.target * P.numBins)) hρ
  rw [div_lt_iff₀ (by positivity)] at hn
  obtain ⟨N, r, h1, -⟩ := ends_growing P hr hra _ hρ hd ht (grow_factor P hr hd hs0 hs) n (by linarith)
    { bts := bts, res := res, dt := 0, f := 1, iter := 1, phase := .begin, trace := [] } rfl rfl h0
  exact ⟨r, N, fun fuel hf => runLoop_more _ N fuel hf _ _ h1⟩

/-- **C136** fails: with such a separation the resolution is made coarser in every iteration, so that the final resolution that was
asked for (finer than the initial one) is never reached and has no effect at all. -/
theorem C136_resolution_violated (P : TFParams) (hr : RelErr P.rnd) (hd : 0 < P.duration) (hs0 : 0 < P.sep)
    (hs : P.sep ≤ resRefineFactor * (1 - 1 / 2 ^ 50) * P.duration) (a b : ℚ) (fuel : Nat) (bts : List ℚ) (res : ℚ) (h0 : 0 < res)
    (ha : a < res) (hb : b < res) :
    timeFreq { P with target := a } fuel bts res = timeFreq { P with target := b } fuel bts res := by
  refine run_target P hr (fun x hx => ?_) a b fuel _ h0 ha hb
  have := grow_factor P hr hd hs0 hs x hx
  nlinarith

/-- **C136** fails: under the conditions of C64 (the target timestamps are the reference timestamps with a delay, the delay is found),
where `time_freq` returns the delay for larger separations, it always raises an error. -/
theorem C136_delay_violated (P : TFParams) (hr : P.rnd = id) (hra : P.rndA = id) (hx : P.xcorr = exactXcorr) (h : Nat) (hh : 0 < h)
    (hN : P.numBins = 2 * h) (ht : 0 < P.target) (res : ℚ) (hres : P.target < res) (k : ℤ) (hk : |k| < h)
    (hd : 0 < P.duration) (hs0 : 0 < P.sep) (hs : P.sep ≤ resRefineFactor * (1 - 1 / 2 ^ 50) * P.duration)
    (hearly : Peak (inWindow 0 (acqDuration (2 * h) res P.duration P.endTime) P.ats)
      (inWindow 0 (acqDuration (2 * h) res P.duration P.endTime) (P.ats.map (· + k * res))) (2 * h) res k)
    (hlate : Peak (inWindow P.sep (acqDuration (2 * h) res P.duration P.endTime) P.ats)
      (inWindow P.sep (acqDuration (2 * h) res P.duration P.endTime) (P.ats.map (· + k * res))) (2 * h) res k)
    (hsig : ∀ ys sig, P.signif ys res = .ok sig → sig ≠ 0 ∧ P.threshold ≤ sig) :
    ∃ e, Returns (fun fuel => timeFreq P fuel (P.ats.map (· + k * res)) res) (.error e) := by
  have hres0 : 0 < res := ht.trans hres
  have hrr : RelErr P.rnd := by rw [hr]; exact C34_relErr.2
  obtain ⟨r, N, hret⟩ := C136_ends P hrr (by rw [hra]; exact C34_relErr.2) hd ht (by omega) hs0 hs (P.ats.map (· + k * res)) res hres0
  rcases r with e | v
  · exact ⟨e, N, hret⟩
  exfalso
  have hdur : ∀ r, tfDuration P r = acqDuration (2 * h) r P.duration P.endTime := by
    intro r; rw [duration_id P hr hra, hN]
  refine delay_never P hrr (k * res) res (delayExact_id P hr hra _) (fun r => P.target < r) hres ?_ (fun r hr' => ne_of_gt hr') ?_ ?_ hsig
    v N (hret N le_rfl)
  · intro r hr'
    have h1 := grow_factor P hrr hd hs0 hs r (ht.trans hr')
    have h2 : r * 1 ≤ r * (1 + 1 / 2 ^ 52) := mul_le_mul_of_nonneg_left (by norm_num) (ht.trans hr').le
    unfold nextRes
    exact lt_max_of_lt_left (by linarith)
  · intro start hst ys d' hc
    rw [hdur] at hc
    rcases hst with rfl | rfl
    · exact correlate_peak P hr hra hx h hh hN _ res 0 _ hres0 k hk hearly ys d' hc
    · exact correlate_peak P hr hra hx h hh hN _ res P.sep _ hres0 k hk hlate ys d' hc
  · intro r start hr0 _ ys d' hc
    exact correlate_self P hr hra hx h hh hN r start _ (ht.trans hr0) ys d' hc

theorem sep_bound (env : NumEnv) (henv : RelErr env.rnd) (args : FpMainArgs) (hres : 0 < args.initialRes) (hwraps : 0 < args.numWraps)
    (hs0 : 0 < args.separation) (hs : args.separation ≤ 7 / 5) (a b : List ℚ) :
    0 < (searchParams env args a b).duration ∧ 0 < (searchParams env args a b).sep ∧
      (searchParams env args a b).sep ≤ resRefineFactor * (1 - 1 / 2 ^ 50) * (searchParams env args a b).duration := by
  have hta : 0 < args.initialRes * 2 ^ args.bufferOrder * args.numWraps := by positivity
  have htp : (0 : ℚ) < ((args.initialRes * 2 ^ args.bufferOrder * args.numWraps : Nat) : ℚ) := by exact_mod_cast hta
  refine ⟨htp, ?_, ?_⟩
  all_goals
    simp only [searchParams]
    generalize ((args.initialRes * 2 ^ args.bufferOrder * args.numWraps : Nat) : ℚ) = t at *
    have g1 := relErr_le env.rnd henv t htp.le
    have g3 : 0 < env.rnd t := lt_of_lt_of_le (mul_pos htp (by norm_num)) g1.2
    have g2 := relErr_le env.rnd henv (args.separation * env.rnd t) (by positivity)
  · exact lt_of_lt_of_le (mul_pos (by positivity) (by norm_num)) g2.2
  · have g4 : args.separation * env.rnd t ≤ 7 / 5 * env.rnd t := mul_le_mul_of_nonneg_right hs g3.le
    unfold resRefineFactor
    norm_num at g1 g2 ⊢
    linarith

/-- **C136** (termination) for `fpfind`: separations up to 1.4. -/
theorem C136_fpfind_ends (env : NumEnv) (henv : RelErr env.rnd) (henvA : RelErr env.rndA) (args : FpMainArgs) (hres : 0 < args.initialRes)
    (hwraps : 0 < args.numWraps) (hfin : 0 < args.finalRes) (hs0 : 0 < args.separation) (hs : args.separation ≤ 7 / 5)
    (hin : (∃ r, Returns (fun fuel => mainInput env.rnd env.rndA fuel args.toFpArgs) r) ∨ args.sendfiles = none ∨ args.t1files = none) :
    ∃ r, Returns (fun fuel => fpMain env fuel args) r := by
  refine fpMain_ends env args (fun a b _ _ => ?_) hin
  obtain ⟨h1, h2, h3⟩ := sep_bound env henv args hres hwraps hs0 hs a b
  exact C136_ends (searchParams env args a b) henv henvA h1 (show (0 : ℚ) < (args.finalRes : ℚ) by exact_mod_cast hfin)
    (show 0 < 2 ^ args.bufferOrder by positivity) h2 h3 b args.initialRes (by exact_mod_cast hres)

/-- **C136** fails for `fpfind`: with separations up to 1.4 all final resolutions below the initial one give the same. -/
theorem C136_fpfind_violated (env : NumEnv) (henv : RelErr env.rnd) (args : FpMainArgs) (hres : 0 < args.initialRes)
    (hwraps : 0 < args.numWraps) (hs0 : 0 < args.separation) (hs : args.separation ≤ 7 / 5) (m n : Nat)
    (hm : m < args.initialRes) (hn : n < args.initialRes) (fuel : Nat) :
    fpMain env fuel { args with finalRes := m } = fpMain env fuel { args with finalRes := n } := by
  have hcall : ∀ a b, a ≠ [] → FpMainArgs.call env fuel { args with finalRes := m } a b =
      FpMainArgs.call env fuel { args with finalRes := n } a b := by
    intro a b ha
    by_cases hb : b = []
    · subst hb
      have he : tfEndTime a [] = .error .indexError := by
        unfold tfEndTime
        split
        · rename_i h
          simp at h
        · rfl
      unfold FpMainArgs.call
      rw [he]
    · rw [call_eq env _ ha hb, call_eq env _ ha hb]
      obtain ⟨h1, h2, h3⟩ := sep_bound env henv args hres hwraps hs0 hs a b
      have := C136_resolution_violated (searchParams env args a b) henv h1 h2 h3 (m : ℚ) (n : ℚ) fuel b args.initialRes
        (by exact_mod_cast hres) (by exact_mod_cast hm) (by exact_mod_cast hn)
      exact congrArg _ this
  unfold fpMain
  have e1 : ({ args with finalRes := m } : FpMainArgs).toFpArgs = ({ args with finalRes := n } : FpMainArgs).toFpArgs := rfl
  rw [e1]
  split
  · rfl
  · rfl
  · rfl
  · rename_i arrays _
    simp only
    split
    · rfl
    · rename_i hne
      push Not at hne
      have e2 : FpMainArgs.call env fuel { args with finalRes := m } (arrays.getD 0 []) =
          FpMainArgs.call env fuel { args with finalRes := n } (arrays.getD 0 []) := funext fun b => hcall _ b hne.1
      rw [e2]
      rfl

/-- **C136** fails from the shell: two calls of `fpfind` that differ only in the final resolution `-r` print the same. -/
theorem C136_shell_violated (env : NumEnv) (henv : RelErr env.rnd) (files : Files) (dirs : Word → EpochDir) (l l' : List Setting)
    (hne : l ≠ [] ∧ l' ≠ []) (hl : (∀ s ∈ l, s.Ok fpSpec) ∧ ∀ s ∈ l', s.Ok fpSpec)
    (hno : ∀ d ∈ ["help", "config", "save"], ¬ Given l d ∧ ¬ Given l' d)
    (hw : ∀ d ∈ ["num_wraps", "buffer_order", "initial_res", "final_res", "output", "skip_epochs"], GivenDigits l d ∧ GivenDigits l' d)
    (hn : ∀ d ∈ ["skip_duration", "separation", "threshold", "precomp_start", "precomp_step", "precomp_stop"],
      GivenNumeral l d ∧ GivenNumeral l' d)
    (hfiles : ∀ d ∈ ["reference", "target"], ∀ v, lastSet l d = some v ∨ lastSet l' d = some v → (files v).isSome = true)
    (args : FpMainArgs) (ha : FpMeaning files dirs l args) (n : Nat) (ha' : FpMeaning files dirs l' { args with finalRes := n })
    (hres : args.finalRes < args.initialRes) (hres' : n < args.initialRes) (hwraps : 0 < args.numWraps)
    (hs0 : 0 < args.separation) (hs : args.separation ≤ 7 / 5) (r : Except PyErr (Option (List Char))) :
    FpPrints env (cmdWords l) files dirs r ↔ FpPrints env (cmdWords l') files dirs r := by
  rw [C133_prints env files dirs _ args (C133_fpfind env files dirs l hne.1 hl.1 (fun d hd => (hno d hd).1) (fun d hd => (hw d hd).1)
      (fun d hd => (hn d hd).1) (fun d hd v hv => hfiles d hd v (Or.inl hv)) args ha) r,
    C133_prints env files dirs _ _ (C133_fpfind env files dirs l' hne.2 hl.2 (fun d hd => (hno d hd).2) (fun d hd => (hw d hd).2)
      (fun d hd => (hn d hd).2) (fun d hd v hv => hfiles d hd v (Or.inr hv)) _ ha') r]
  have : ∀ fuel, fpMain env fuel args = fpMain env fuel { args with finalRes := n } := fun fuel =>
    C136_fpfind_violated env henv args (by omega) hwraps hs0 hs args.finalRes n hres hres' fuel
  unfold Returns
  simp only [this]

/-- Parameters with a separation of 5/4 durations. -/
noncomputable def smallSep : TFParams :=
  { delayParams with ats := [0, 1, 1, 5, 6, 6, 14], sep := 5 }

/-- Instance of C136: a delay of one bin with coincidences in both windows, and no result. -/
theorem C136_delay_instance :
    ∃ e, Returns (fun fuel => timeFreq smallSep fuel (smallSep.ats.map (· + ((1 : ℤ) : ℚ) * 1)) 1) (.error e) := by
  have hd : acqDuration (2 * 2) 1 smallSep.duration smallSep.endTime = 4 := delayParams_dur
  apply C136_delay_violated smallSep rfl rfl rfl 2 (by norm_num) rfl (by norm_num [smallSep, delayParams]) 1
    (by norm_num [smallSep, delayParams]) 1 (by norm_num) (by norm_num [smallSep, delayParams]) (by norm_num [smallSep])
    (by norm_num [smallSep, delayParams, resRefineFactor])
  · rw [hd]
    simp only [smallSep]
    exact peak_of_range _ _ 4 (by norm_num) 1 1 (by decide +kernel) (by norm_num)
  · rw [hd]
    simp only [smallSep]
    exact peak_of_range _ _ 4 (by norm_num) 1 1 (by decide +kernel) (by norm_num)
  · intro ys sig h
    simp only [smallSep, delayParams, Except.ok.injEq] at h
    subst h
    norm_num [smallSep, delayParams]

/-- The options of `-t A -T B -s 1 -r c`. -/
def sepFp (A B : Word) (c : Char) : List Setting :=
  [.pair (argStore ["-t", "--reference"] "reference" anyText) ['-', 't'] A, .pair (argStore ["-T", "--target"] "target" anyText) ['-', 'T'] B,
    .pair (argStore ["-s", "--separation"] "separation" isFloat) ['-', 's'] ['1'],
    .pair (argStore ["-r", "--final-res"] "final_res" isInt) ['-', 'r'] [c]]

theorem sepFp_sets (A B : Word) (c : Char) : cmdSets (sepFp A B c) =
    [("reference", [A]), ("target", [B]), ("separation", [['1']]), ("final_res", [[c]])] := rfl

theorem sepFp_none (A B : Word) (c : Char) (d : String) (hd : d ∉ ["reference", "target", "separation", "final_res"]) :
    lastSet (sepFp A B c) d = none ∧ ¬ Given (sepFp A B c) d := by
  simp only [List.mem_cons, List.not_mem_nil, or_false, not_or] at hd
  obtain ⟨h1, h2, h3, h4⟩ := hd
  constructor
  · rw [lastSet, sepFp_sets]
    simp [Ne.symm h1, Ne.symm h2, Ne.symm h3, Ne.symm h4]
  · show ¬ ∃ x ∈ cmdSets (sepFp A B c), x.1 = d
    rw [sepFp_sets]
    simp [Ne.symm h1, Ne.symm h2, Ne.symm h3, Ne.symm h4]

/-- What `-t A -T B -s 1 -r n` means. -/
def sepArgs (files : Files) (A B : Word) (n : Nat) : FpMainArgs :=
  { sendfiles := none, t1files := none, reference := files A, target := files B, legacy := false, skipDuration := 0, firstEpoch := none,
    skipEpochs := 0, initialRes := 16, bufferOrder := 26, numWraps := 1, separation := 1, finalRes := n, threshold := 6, output := 0,
    precompEnable := false, precompStart := 0, precompStep := fl 53 (1 / 10 ^ 7), precompStop := fl 53 (1 / 10 ^ 5),
    precompOrdered := false, precompFullscan := false }

theorem denotes_one : Denotes ['1'] 1 :=
  ⟨[], ['1'], [], [], 1, 0, rfl, by decide, ⟨[1], by simp, by norm_num [Nat.ofDigits]⟩, Or.inl ⟨rfl, rfl⟩, Or.inl ⟨rfl, by norm_num⟩⟩

theorem sepFp_ok (A B : Word) (hA : PlainWord A) (hB : PlainWord B) (c : Char) (n : Nat) (hc : "0123456789".toList[n]? = some c)
    (hdash : c ≠ '-') (hint : isInt [c] = true) : ∀ s ∈ sepFp A B c, s.Ok fpSpec := by
  intro s hs
  simp only [sepFp, List.mem_cons, List.not_mem_nil, or_false] at hs
  rcases hs with rfl | rfl | rfl | rfl
  · exact ⟨by simp [fpSpec], by decide, rfl, rfl, hA⟩
  · exact ⟨by simp [fpSpec], by decide, rfl, rfl, hB⟩
  · exact ⟨by simp [fpSpec], by decide, rfl, by decide, Or.inl (by decide)⟩
  · exact ⟨by simp [fpSpec], by decide, rfl, hint, Or.inl (by simpa using hdash)⟩

theorem sepFp_last (A B : Word) (c : Char) : lastSet (sepFp A B c) "reference" = some A ∧ lastSet (sepFp A B c) "target" = some B ∧
    lastSet (sepFp A B c) "separation" = some ['1'] ∧ lastSet (sepFp A B c) "final_res" = some [c] := by
  refine ⟨?_, ?_, ?_, ?_⟩ <;> rw [lastSet, sepFp_sets] <;> simp

theorem sepFp_meaning (files : Files) (dirs : Word → EpochDir) (A B : Word) (c : Char) (n : Nat) (hc : "0123456789".toList[n]? = some c) :
    FpMeaning files dirs (sepFp A B c) (sepArgs files A B n) := by
  obtain ⟨lt, lT, ls, lr⟩ := sepFp_last A B c
  have one : fl 53 1 = 1 := by decide +kernel
  have no := fun d hd => (sepFp_none A B c d hd).1
  have noG := fun d hd => (sepFp_none A B c d hd).2
  have flag : ∀ d, d ∉ ["reference", "target", "separation", "final_res"] → (false = true ↔ Given (sepFp A B c) d) :=
    fun d hd => by simpa using noG d hd
  have def_ : ∀ d (y : Option ℚ), d ∉ ["reference", "target", "separation", "final_res"] → FloatSet (sepFp A B c) d y y :=
    fun d y hd => ⟨fun _ => rfl, fun v x e => by rw [no d hd] at e; simp at e⟩
  have defN : ∀ d (y : Option ℕ), d ∉ ["reference", "target", "separation", "final_res"] → NatSet (sepFp A B c) d y y :=
    fun d y hd => ⟨fun _ => rfl, fun v x e => by rw [no d hd] at e; simp at e⟩
  exact {
    sendfiles := by rw [no _ (by decide)]; rfl
    t1files := by rw [no _ (by decide)]; rfl
    reference := by rw [lt]; rfl
    target := by rw [lT]; rfl
    legacy := flag _ (by decide)
    skipDuration := def_ _ _ (by decide)
    firstEpoch := by rw [no _ (by decide)]; rfl
    skipEpochs := ⟨fun _ => rfl, fun v x e => by rw [no _ (by decide)] at e; simp at e⟩
    initialRes := defN _ _ (by decide)
    bufferOrder := defN _ _ (by decide)
    numWraps := defN _ _ (by decide)
    separation := floatSet_of ls denotes_one one
    finalRes := natSet_of lr (digit_digits c n hc)
    threshold := def_ _ _ (by decide)
    output := defN _ _ (by decide)
    precompEnable := flag _ (by decide)
    precompStart := def_ _ _ (by decide)
    precompStep := def_ _ _ (by decide)
    precompStop := def_ _ _ (by decide)
    precompOrdered := flag _ (by decide)
    precompFullscan := flag _ (by decide)
    sizes := ⟨by show (16 : ℕ) ≠ 0; norm_num, by show (1 : ℚ) ≠ 0; norm_num⟩ }

/-- Instance of C136: `fpfind -t A -T B -s 1 -r 1` and `fpfind -t A -T B -s 1 -r 9` print the same for all recordings A and B, and they
end. -/
theorem C136_shell_instance (env : NumEnv) (henv : RelErr env.rnd) (henvA : RelErr env.rndA) (files : Files) (dirs : Word → EpochDir)
    (A B : Word) (hA : PlainWord A) (hB : PlainWord B) (h1 : (files A).isSome) (h2 : (files B).isSome) :
    ∃ r, FpPrints env ["-t".toList, A, "-T".toList, B, "-s".toList, "1".toList, "-r".toList, "1".toList] files dirs r ∧
      FpPrints env ["-t".toList, A, "-T".toList, B, "-s".toList, "1".toList, "-r".toList, "9".toList] files dirs r := by
  have hex : ∃ r, FpPrints env (cmdWords (sepFp A B '1')) files dirs r ∧ FpPrints env (cmdWords (sepFp A B '9')) files dirs r := by
    have ok1 := sepFp_ok A B hA hB '1' 1 rfl (by decide) (by decide)
    have ok9 := sepFp_ok A B hA hB '9' 9 rfl (by decide) (by decide)
    have m1 := sepFp_meaning files dirs A B '1' 1 rfl
    have m9 := sepFp_meaning files dirs A B '9' 9 rfl
    have g0 : ∀ c, ∀ d ∈ ["help", "config", "save"], ¬ Given (sepFp A B c) d := by
      intro c d hd
      have sub : ∀ d ∈ ["help", "config", "save"], d ∉ ["reference", "target", "separation", "final_res"] := by decide
      exact (sepFp_none A B c d (sub d hd)).2
    have g1 : ∀ (c : Char) (n : Nat), "0123456789".toList[n]? = some c →
        ∀ d ∈ ["num_wraps", "buffer_order", "initial_res", "final_res", "output", "skip_epochs"], GivenDigits (sepFp A B c) d := by
      intro c n hc d hd v hv
      by_cases he : d = "final_res"
      · subst he
        rw [(sepFp_last A B c).2.2.2] at hv
        obtain rfl := Option.some.inj hv
        exact ⟨n, digit_digits c n hc⟩
      · have sub : ∀ d ∈ ["num_wraps", "buffer_order", "initial_res", "final_res", "output", "skip_epochs"], d ≠ "final_res" →
          d ∉ ["reference", "target", "separation", "final_res"] := by decide
        rw [(sepFp_none A B c d (sub d hd he)).1] at hv
        simp at hv
    have g2 : ∀ c, ∀ d ∈ ["skip_duration", "separation", "threshold", "precomp_start", "precomp_step", "precomp_stop"],
        GivenNumeral (sepFp A B c) d := by
      intro c d hd v hv
      by_cases he : d = "separation"
      · subst he
        rw [(sepFp_last A B c).2.2.1] at hv
        obtain rfl := Option.some.inj hv
        exact ⟨1, denotes_one⟩
      · have sub : ∀ d ∈ ["skip_duration", "separation", "threshold", "precomp_start", "precomp_step", "precomp_stop"], d ≠ "separation" →
          d ∉ ["reference", "target", "separation", "final_res"] := by decide
        rw [(sepFp_none A B c d (sub d hd he)).1] at hv
        simp at hv
    have g3 : ∀ c, ∀ d ∈ ["reference", "target"], ∀ v, lastSet (sepFp A B c) d = some v → (files v).isSome = true := by
      intro c d hd v hv
      simp only [List.mem_cons, List.not_mem_nil, or_false] at hd
      rcases hd with rfl | rfl
      · rw [(sepFp_last A B c).1] at hv; obtain rfl := Option.some.inj hv; exact h1
      · rw [(sepFp_last A B c).2.1] at hv; obtain rfl := Option.some.inj hv; exact h2
    obtain ⟨r, hr⟩ := C136_fpfind_ends env henv henvA (sepArgs files A B 1) (show 0 < 16 by decide) (show 0 < 1 by decide) (show 0 < 1 by decide)
      (show (0 : ℚ) < 1 by norm_num) (show (1 : ℚ) ≤ 7 / 5 by norm_num) (Or.inr (Or.inl rfl))
    have p1 := (C133_prints env files dirs _ (sepArgs files A B 1) (C133_fpfind env files dirs (sepFp A B '1') (by simp [sepFp]) ok1 (g0 _)
      (g1 '1' 1 rfl) (g2 _) (g3 _) _ m1) r).mpr hr
    refine ⟨r, p1, ?_⟩
    exact (C136_shell_violated env henv files dirs (sepFp A B '1') (sepFp A B '9') ⟨by simp [sepFp], by simp [sepFp]⟩ ⟨ok1, ok9⟩
      (fun d hd => ⟨g0 _ d hd, g0 _ d hd⟩) (fun d hd => ⟨g1 '1' 1 rfl d hd, g1 '9' 9 rfl d hd⟩) (fun d hd => ⟨g2 _ d hd, g2 _ d hd⟩)
      (fun d hd v hv => hv.elim (g3 _ d hd v) (g3 _ d hd v)) (sepArgs files A B 1) m1 9 m9 (show 1 < 16 by decide) (show 9 < 16 by decide) (show 0 < 1 by decide)
      (show (0 : ℚ) < 1 by norm_num) (show (1 : ℚ) ≤ 7 / 5 by norm_num) r).mp p1
  exact hex

end Fp
