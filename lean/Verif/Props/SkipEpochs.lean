import Verif.Props.PlotSame
import Verif.Props.EpochNames
import Verif.Spec.SkipEpochs

/-! # C144: skipped epochs -/
namespace Fp
open Spec

theorem first_common (names1 names2 : List (List Char)) (e1 e2 : List Int) (h1 : EpochsOf names1 e1) (h2 : EpochsOf names2 e2)
    (first : Option (List Char)) (f : Option Int) (hf : first.map epoch2int = f.map Except.ok) (m : Int) (hm : IsLeast {v | Common e1 e2 f v} m) :
    ∃ n, Returns (fun fuel => getFirstOverlappingEpoch fuel names1 names2 first) (.ok (some (int2epoch m), n)) := by
  rcases C24_exhaustive e1 e2 f with h | ⟨m', n, h1', h2', h3'⟩
  · exact absurd hm.1 (h m)
  · obtain rfl : m' = m := h1'.unique hm
    exact ⟨n, C24_first_overlap names1 names2 e1 e2 h1 h2 first f hf m' n h1' h2' h3'⟩

theorem getTimestamp_skip (fuel : Nat) (dir : List Char → Option Bytes) (t : Bool) (m k num : ℕ) :
    getTimestamp fuel dir t (int2epoch (m : ℤ)) (k : ℤ) num = getTimestamp fuel dir t (int2epoch ((m + k : ℕ) : ℤ)) 0 num := by
  unfold getTimestamp
  simp only [C23_number_name_number]
  simp only [Nat.cast_add, add_zero]

/-- Both ways find the epochs. -/
theorem both_starts {d1 d2 : EpochDir} {first : Option Word} {m k : ℕ} (h : CommonStart d1 d2 first m k) (w : Word)
    (hw : epoch2int w = .ok ((m + k : ℕ) : ℤ)) :
    ∃ n n', Returns (fun fuel => getFirstOverlappingEpoch fuel d1.names d2.names first) (.ok (some (int2epoch (m : ℤ)), n)) ∧
      Returns (fun fuel => getFirstOverlappingEpoch fuel d1.names d2.names (some w)) (.ok (some (int2epoch ((m + k : ℕ) : ℤ)), n')) := by
  obtain ⟨e1, e2, f, h1, h2, h3, h4, h5, h6⟩ := h.epochs
  obtain ⟨n, hn⟩ := first_common d1.names d2.names e1 e2 h1 h2 first f h3 m h4
  obtain ⟨n', hn'⟩ := first_common d1.names d2.names e1 e2 h1 h2 (some w) (some ((m + k : ℕ) : ℤ)) (by rw [Option.map_some, hw]; rfl) _
    ⟨⟨h5, h6, fun g hg => (Option.some.inj hg).ge⟩, fun v hv => hv.2.2 _ rfl⟩
  exact ⟨n, n', hn, hn'⟩

/-- **C144** Skipping `k` epochs is beginning `k` epochs later: `fpfind` does the same. -/
theorem C144_skip (env : NumEnv) (args : FpMainArgs) (d1 d2 : EpochDir) (h1 : args.sendfiles = some d1) (h2 : args.t1files = some d2)
    (m k : ℕ) (hk : args.skipEpochs = k) (h : CommonStart d1 d2 args.firstEpoch m k) (w : Word) (hw : epoch2int w = .ok ((m + k : ℕ) : ℤ)) :
    ∃ N, ∀ fuel, N ≤ fuel → fpMain env fuel args =
      fpMain env fuel { args with toFpArgs := { args.toFpArgs with firstEpoch := some w, skipEpochs := 0 } } := by
  obtain ⟨n, n', ⟨N, hN⟩, ⟨N', hN'⟩⟩ := both_starts h w hw
  refine ⟨max N N', fun fuel hf => ?_⟩
  have a := hN fuel (by omega)
  have a' := hN' fuel (by omega)
  simp only at a a'
  have e : loadInput env.rnd fuel args.toFpArgs = loadInput env.rnd fuel { args.toFpArgs with firstEpoch := some w, skipEpochs := 0 } := by
    unfold loadInput
    simp only [h1, h2, a, a', getTimestampFrom, FpArgs.requiredEpochs, FpArgs.minDuration, FpArgs.ta, hk, getTimestamp_skip]
    have e1 : ∀ c : ℤ, c + (k : ℤ) + 1 - (k : ℤ) = c + 0 + 1 - 0 := fun c => by ring
    simp only [e1]
  unfold fpMain mainInput
  simp only [e]
  rfl

/-- **C144** The same for `fpplot`. -/
theorem C144_plot (rnd rndA : ℚ → ℚ) (args : PlotArgs) (d1 d2 : EpochDir) (h1 : args.sendfiles = some d1) (h2 : args.t1files = some d2)
    (m k : ℕ) (hk : args.skipEpochs = k) (h : CommonStart d1 d2 args.firstEpoch m k) (w : Word) (hw : epoch2int w = .ok ((m + k : ℕ) : ℤ)) :
    ∃ N, ∀ fuel, N ≤ fuel → plotArrays rnd rndA fuel args = plotArrays rnd rndA fuel { args with firstEpoch := some w, skipEpochs := 0 } := by
  obtain ⟨n, n', ⟨N, hN⟩, ⟨N', hN'⟩⟩ := both_starts h w hw
  refine ⟨max N N', fun fuel hf => ?_⟩
  have a := hN fuel (by omega)
  have a' := hN' fuel (by omega)
  simp only at a a'
  unfold plotArrays plotInput plotLoad
  simp only [h1, h2, a, a', getTimestampFrom, hk, getTimestamp_skip]

/-- **C144** from the shell: `fpfind -d S -D T -z k` and `fpfind -d S -D T -e w` are the same if `w` names the epoch `k` later than the first
one in both directories. -/
theorem C144_shell (env : NumEnv) (files : Files) (dirs : Word → EpochDir) (l l' : List Setting) (hc : FpCall files l) (hc' : FpCall files l')
    (S T w : Word) (m k : ℕ) (h : SkipAndStart l l' S T w k) (hm : CommonStart (dirs S) (dirs T) (lastSet l "first_epoch") m k)
    (hw : epoch2int w = .ok ((m + k : ℕ) : ℤ)) :
    ∃ N, ∀ fuel, N ≤ fuel → fpCli env fuel (cmdWords l) files dirs = fpCli env fuel (cmdWords l') files dirs := by
  obtain ⟨a, -, ha⟩ := C132_fpfind env 0 files dirs l hc.some_ hc.ok hc.inside (fun d hd => hc.digits d (by
    simp only [List.mem_cons, List.not_mem_nil, or_false] at hd ⊢
    tauto)) hc.files hc.sizes
  obtain ⟨v, hv, hd⟩ := h.skips
  have s := h.same
  have ha' : FpMeaning files dirs l' { a with toFpArgs := { a.toFpArgs with firstEpoch := some w, skipEpochs := 0 } } :=
    { sendfiles := by rw [← (s "sendfiles" (by decide)).1]; exact ha.sendfiles
      t1files := by rw [← (s "t1files" (by decide)).1]; exact ha.t1files
      reference := by rw [← (s "reference" (by decide)).1]; exact ha.reference
      target := by rw [← (s "target" (by decide)).1]; exact ha.target
      legacy := ha.legacy.trans (s "legacy" (by decide)).2
      skipDuration := floatSet_same (s "skip_duration" (by decide)).1 ha.skipDuration
      firstEpoch := h.starts.symm
      skipEpochs := ⟨fun _ => rfl, fun u n hu hn => by
        obtain rfl := Option.some.inj ((digitsVal_spec (h.none u hu)).symm.trans (digitsVal_spec hn))
        rfl⟩
      initialRes := natSet_same (s "initial_res" (by decide)).1 ha.initialRes
      bufferOrder := natSet_same (s "buffer_order" (by decide)).1 ha.bufferOrder
      numWraps := natSet_same (s "num_wraps" (by decide)).1 ha.numWraps
      separation := floatSet_same (s "separation" (by decide)).1 ha.separation
      finalRes := natSet_same (s "final_res" (by decide)).1 ha.finalRes
      threshold := floatSet_same (s "threshold" (by decide)).1 ha.threshold
      output := natSet_same (s "output" (by decide)).1 ha.output
      precompEnable := ha.precompEnable.trans (s "precomp_enable" (by decide)).2
      precompStart := floatSet_same (s "precomp_start" (by decide)).1 ha.precompStart
      precompStep := floatSet_same (s "precomp_step" (by decide)).1 ha.precompStep
      precompStop := floatSet_same (s "precomp_stop" (by decide)).1 ha.precompStop
      precompOrdered := ha.precompOrdered.trans (s "precomp_ordered" (by decide)).2
      precompFullscan := ha.precompFullscan.trans (s "precomp_fullscan" (by decide)).2
      sizes := ha.sizes }
  obtain ⟨N, hN⟩ := C144_skip env a (dirs S) (dirs T) (by rw [ha.sendfiles, h.dirs.1]; rfl) (by rw [ha.t1files, h.dirs.2]; rfl) m k
    (ha.skipEpochs.2 v k hv hd) (by rw [ha.firstEpoch]; exact hm) w hw
  refine ⟨N, fun fuel hf => ?_⟩
  rw [C133_fpfind env files dirs l hc.some_ hc.ok hc.inside hc.digits hc.numerals hc.files a ha fuel,
    C133_fpfind env files dirs l' hc'.some_ hc'.ok hc'.inside hc'.digits hc'.numerals hc'.files _ ha' fuel, hN fuel hf]

/-- **C144** from the shell for `fpplot`. -/
theorem C144_plot_shell (rnd rndA : ℚ → ℚ) (files : Files) (dirs : Word → EpochDir) (l l' : List Setting) (hc : PlotCall files l)
    (hc' : PlotCall files l') (S T w : Word) (m k : ℕ) (h : SkipAndStart l l' S T w k)
    (hm : CommonStart (dirs S) (dirs T) (lastSet l "first_epoch") m k) (hw : epoch2int w = .ok ((m + k : ℕ) : ℤ)) :
    ∃ N, ∀ fuel, N ≤ fuel → plotCli rnd rndA fuel (cmdWords l) files dirs = plotCli rnd rndA fuel (cmdWords l') files dirs := by
  classical
  obtain ⟨skip, h1⟩ := floatSet_some (hc.numerals "skip_duration" (by decide)) 0
  obtain ⟨freq, h2⟩ := floatSet_some (hc.numerals "freq" (by decide)) 0
  obtain ⟨time, h3⟩ := floatSet_some (hc.numerals "time" (by decide)) 0
  obtain ⟨dur, h4, -⟩ := floatSet_exists (hc.numerals "duration" (by decide)) none
  obtain ⟨n, hn⟩ := intSet_exists (hc.digits "num_epochs" (by decide)) 1
  obtain ⟨z, hz⟩ := intSet_exists (hc.digits "skip_epochs" (by decide)) 0
  obtain ⟨v, hv, hd⟩ := h.skips
  have s := h.same
  have ha : PlotMeaning files dirs l ⟨some (dirs S), some (dirs T), (lastSet l "reference").bind files, (lastSet l "target").bind files,
      decide (Given l "legacy"), skip, lastSet l "first_epoch", n, z, freq, time, dur⟩ :=
    { sendfiles := by rw [h.dirs.1]; rfl
      t1files := by rw [h.dirs.2]; rfl
      reference := rfl
      target := rfl
      legacy := decide_eq_true_iff
      skipDuration := h1
      firstEpoch := rfl
      numEpochs := hn
      skipEpochs := hz
      freq := h2
      time := h3
      duration := h4 }
  have ha' : PlotMeaning files dirs l' ⟨some (dirs S), some (dirs T), (lastSet l "reference").bind files, (lastSet l "target").bind files,
      decide (Given l "legacy"), skip, some w, n, 0, freq, time, dur⟩ :=
    { sendfiles := by rw [← (s "sendfiles" (by decide)).1, h.dirs.1]; rfl
      t1files := by rw [← (s "t1files" (by decide)).1, h.dirs.2]; rfl
      reference := by rw [← (s "reference" (by decide)).1]
      target := by rw [← (s "target" (by decide)).1]
      legacy := decide_eq_true_iff.trans (s "legacy" (by decide)).2
      skipDuration := floatSet_same (s "skip_duration" (by decide)).1 h1
      firstEpoch := h.starts.symm
      numEpochs := by
        rw [← (s "num_epochs" (by decide)).1]
        exact hn
      skipEpochs := ⟨fun _ => rfl, fun u n hu hn => by
        obtain rfl := Option.some.inj ((digitsVal_spec (h.none u hu)).symm.trans (digitsVal_spec hn))
        rfl⟩
      freq := floatSet_same (s "freq" (by decide)).1 h2
      time := floatSet_same (s "time" (by decide)).1 h3
      duration := floatSet_same (s "duration" (by decide)).1 h4 }
  obtain ⟨N, hN⟩ := C144_plot rnd rndA ⟨some (dirs S), some (dirs T), (lastSet l "reference").bind files, (lastSet l "target").bind files,
      decide (Given l "legacy"), skip, lastSet l "first_epoch", n, z, freq, time, dur⟩ (dirs S) (dirs T) rfl rfl m k (hz.2 v k hv hd) hm w hw
  refine ⟨N, fun fuel hf => ?_⟩
  rw [C138_options rnd rndA files dirs l hc _ ha fuel, C138_options rnd rndA files dirs l' hc' _ ha' fuel, hN fuel hf]

/-- **C144**, the other way: an epoch that is skipped to has to exist; `fpfind` does not look for a later one, as it does for `-e`. -/
theorem C144_missing (env : NumEnv) (args : FpMainArgs) (d1 d2 : EpochDir) (h1 : args.sendfiles = some d1) (h2 : args.t1files = some d2)
    (e1 e2 : List Int) (n1 : EpochsOf d1.names e1) (n2 : EpochsOf d2.names e2) (f : Option Int)
    (hf : args.firstEpoch.map epoch2int = f.map Except.ok) (m k : ℕ) (hm : IsLeast {v | Common e1 e2 f v} (m : ℤ)) (hk : args.skipEpochs = k)
    (hreq : args.skipEpochs < args.requiredEpochs env.rnd) (hmiss : d1.file (int2epoch ((m + k : ℕ) : ℤ)) = none) :
    Returns (fun fuel => fpMain env fuel args) (.error .fileNotFound) := by
  obtain ⟨n, N, hN⟩ := first_common d1.names d2.names e1 e2 n1 n2 args.firstEpoch f hf m hm
  obtain ⟨N', hN'⟩ := C25_missing d1.file false (int2epoch (m : ℤ)) m k (args.requiredEpochs env.rnd - k).toNat 0 (C23_number_name_number m)
    (fun _ => []) (fun i hi => absurd hi (by omega)) (by omega) (by simpa using hmiss)
  refine ⟨max N N', fun fuel hfuel => ?_⟩
  have a := hN fuel (by omega)
  have a' := hN' fuel (by omega)
  simp only at a a'
  have e : loadInput env.rnd fuel args.toFpArgs = some (.error .fileNotFound) := by
    unfold loadInput
    simp only [h1, h2, a, getTimestampFrom, hk, a']
  unfold fpMain mainInput
  simp only [e]

/-- Instance of `C144_missing`: both directories have the epochs 5 and 7, and one epoch is skipped. -/
theorem C144_missing_instance (env : NumEnv) (henv : env.rnd = fl 53) (d1 d2 : EpochDir) (args : FpMainArgs)
    (n1 : d1.names = ["00000005".toList, "00000007".toList]) (n2 : d2.names = ["00000007".toList, "00000005".toList])
    (hfile : d1.file (int2epoch 6) = none) (ha : args.toFpArgs = { wArgs d1 d2 with skipEpochs := 1 }) :
    Returns (fun fuel => fpMain env fuel args) (.error .fileNotFound) := by
  have hr : (wArgs d1 d2).requiredEpochs (fl 53) = 2 := wArgs_req d1 d2
  have hr' : args.requiredEpochs (fl 53) = 3 := by
    rw [ha]
    have : ({ wArgs d1 d2 with skipEpochs := 1 } : FpArgs).requiredEpochs (fl 53) = (wArgs d1 d2).requiredEpochs (fl 53) + 1 := by
      unfold FpArgs.requiredEpochs
      have e : ∀ c : ℤ, c + 1 + 1 = c + 0 + 1 + 1 := fun c => by ring
      exact e _
    rw [this, hr]
    rfl
  refine C144_missing env args d1 d2 (by rw [ha]; rfl) (by rw [ha]; rfl) [5, 7] [7, 5] ?_ ?_ none (by rw [ha]; rfl) 5 1 ⟨?_, ?_⟩
    (by rw [ha]; rfl) ?_ ?_
  · rw [n1]; unfold EpochsOf; decide +kernel
  · rw [n2]; unfold EpochsOf; decide +kernel
  · exact ⟨by decide, by decide, fun f hf => by simp at hf⟩
  · rintro v ⟨a, -, -⟩
    simp only [List.mem_cons, List.not_mem_nil, or_false] at a
    push_cast
    omega
  · rw [henv, hr', ha]; exact (by decide : (1 : ℤ) < 3)
  · exact hfile

/-- The command lines of the instance: `fpfind -d S -D T -z 1` and `fpfind -d S -D T -e b7f05ea2`. -/
def skipFp (S T : Word) : List Setting :=
  [.pair (argStore ["-d", "--sendfiles"] "sendfiles" anyText) ['-', 'd'] S, .pair (argStore ["-D", "--t1files"] "t1files" anyText) ['-', 'D'] T,
    .pair (argStore ["-z", "--skip-epochs"] "skip_epochs" isInt) ['-', 'z'] ['1']]

@[inherit_doc skipFp] def startFp (S T : Word) : List Setting :=
  [.pair (argStore ["-d", "--sendfiles"] "sendfiles" anyText) ['-', 'd'] S, .pair (argStore ["-D", "--t1files"] "t1files" anyText) ['-', 'D'] T,
    .pair (argStore ["-e", "--first-epoch"] "first_epoch" anyText) ['-', 'e'] "b7f05ea2".toList]

theorem skipFp_sets (S T : Word) : cmdSets (skipFp S T) = [("sendfiles", [S]), ("t1files", [T]), ("skip_epochs", [['1']])] := rfl
theorem startFp_sets (S T : Word) : cmdSets (startFp S T) = [("sendfiles", [S]), ("t1files", [T]), ("first_epoch", ["b7f05ea2".toList])] := rfl

theorem skipFp_none (S T : Word) (d : String) (hd : d ∉ ["sendfiles", "t1files", "skip_epochs"]) :
    lastSet (skipFp S T) d = none ∧ ¬ Given (skipFp S T) d := by
  simp only [List.mem_cons, List.not_mem_nil, or_false, not_or] at hd
  obtain ⟨h1, h2, h3⟩ := hd
  constructor
  · rw [lastSet, skipFp_sets]
    simp [Ne.symm h1, Ne.symm h2, Ne.symm h3]
  · show ¬ ∃ x ∈ cmdSets (skipFp S T), x.1 = d
    rw [skipFp_sets]
    simp [Ne.symm h1, Ne.symm h2, Ne.symm h3]

theorem startFp_none (S T : Word) (d : String) (hd : d ∉ ["sendfiles", "t1files", "first_epoch"]) :
    lastSet (startFp S T) d = none ∧ ¬ Given (startFp S T) d := by
  simp only [List.mem_cons, List.not_mem_nil, or_false, not_or] at hd
  obtain ⟨h1, h2, h3⟩ := hd
  constructor
  · rw [lastSet, startFp_sets]
    simp [Ne.symm h1, Ne.symm h2, Ne.symm h3]
  · show ¬ ∃ x ∈ cmdSets (startFp S T), x.1 = d
    rw [startFp_sets]
    simp [Ne.symm h1, Ne.symm h2, Ne.symm h3]

theorem sizes_default {l : List Setting} (h1 : lastSet l "initial_res" = none) (h2 : lastSet l "separation" = none) : SizesNotZero l := by
  refine ⟨fun v hv => by rw [h1] at hv; simp at hv, fun x hx => ?_⟩
  rw [Option.some.inj (hx.1 h2)]
  norm_num

theorem skipFp_call (files : Files) (S T : Word) (hS : PlainWord S) (hT : PlainWord T) : FpCall files (skipFp S T) := by
  have no := fun d hd => (skipFp_none S T d hd).1
  refine ⟨by simp [skipFp], ?_, ?_, ?_, ?_, ?_, sizes_default (no _ (by decide)) (no _ (by decide))⟩
  · intro s hs
    simp only [skipFp, List.mem_cons, List.not_mem_nil, or_false] at hs
    rcases hs with rfl | rfl | rfl
    · exact ⟨by simp [fpSpec], by decide, rfl, rfl, hS⟩
    · exact ⟨by simp [fpSpec], by decide, rfl, rfl, hT⟩
    · exact ⟨by simp [fpSpec], by decide, rfl, by decide, Or.inl (by decide)⟩
  · intro d hd
    exact (skipFp_none S T d ((by decide : ∀ d ∈ ["help", "config", "save"], d ∉ ["sendfiles", "t1files", "skip_epochs"]) d hd)).2
  · intro d hd u hu
    by_cases e : d = "skip_epochs"
    · subst e
      obtain rfl : ['1'] = u := Option.some.inj (Eq.trans (by rw [lastSet, skipFp_sets]; simp) hu)
      exact ⟨1, digit_digits _ _ (by decide)⟩
    · rw [no d ((by decide : ∀ d ∈ ["num_wraps", "buffer_order", "initial_res", "final_res", "output", "skip_epochs"], d ≠ "skip_epochs" →
        d ∉ ["sendfiles", "t1files", "skip_epochs"]) d hd e)] at hu
      simp at hu
  · intro d hd u hu
    rw [no d ((by decide : ∀ d ∈ ["skip_duration", "separation", "threshold", "precomp_start", "precomp_step", "precomp_stop"],
      d ∉ ["sendfiles", "t1files", "skip_epochs"]) d hd)] at hu
    simp at hu
  · intro d hd u hu
    rw [no d ((by decide : ∀ d ∈ ["reference", "target"], d ∉ ["sendfiles", "t1files", "skip_epochs"]) d hd)] at hu
    simp at hu

theorem startFp_call (files : Files) (S T : Word) (hS : PlainWord S) (hT : PlainWord T) : FpCall files (startFp S T) := by
  have no := fun d hd => (startFp_none S T d hd).1
  refine ⟨by simp [startFp], ?_, ?_, ?_, ?_, ?_, sizes_default (no _ (by decide)) (no _ (by decide))⟩
  · intro s hs
    simp only [startFp, List.mem_cons, List.not_mem_nil, or_false] at hs
    rcases hs with rfl | rfl | rfl
    · exact ⟨by simp [fpSpec], by decide, rfl, rfl, hS⟩
    · exact ⟨by simp [fpSpec], by decide, rfl, rfl, hT⟩
    · exact ⟨by simp [fpSpec], by decide, rfl, rfl, Or.inl (by decide)⟩
  · intro d hd
    exact (startFp_none S T d ((by decide : ∀ d ∈ ["help", "config", "save"], d ∉ ["sendfiles", "t1files", "first_epoch"]) d hd)).2
  · intro d hd u hu
    rw [no d ((by decide : ∀ d ∈ ["num_wraps", "buffer_order", "initial_res", "final_res", "output", "skip_epochs"],
      d ∉ ["sendfiles", "t1files", "first_epoch"]) d hd)] at hu
    simp at hu
  · intro d hd u hu
    rw [no d ((by decide : ∀ d ∈ ["skip_duration", "separation", "threshold", "precomp_start", "precomp_step", "precomp_stop"],
      d ∉ ["sendfiles", "t1files", "first_epoch"]) d hd)] at hu
    simp at hu
  · intro d hd u hu
    rw [no d ((by decide : ∀ d ∈ ["reference", "target"], d ∉ ["sendfiles", "t1files", "first_epoch"]) d hd)] at hu
    simp at hu

/-- **C144**, instance: the first directory has the epochs b7f05ea0 to b7f05ea2, the second one b7f05ea1 to b7f05ea3, in any order.  Then
`fpfind -d S -D T -z 1` is `fpfind -d S -D T -e b7f05ea2`, whatever is in the files. -/
theorem C144_instance (env : NumEnv) (files : Files) (dirs : Word → EpochDir) (S T : Word) (hS : PlainWord S) (hT : PlainWord T)
    (h1 : (dirs S).names = ["b7f05ea1".toList, "b7f05ea0".toList, "b7f05ea2".toList])
    (h2 : (dirs T).names = ["b7f05ea3".toList, "b7f05ea2".toList, "b7f05ea1".toList]) :
    ∃ N, ∀ fuel, N ≤ fuel → fpCli env fuel ["-d".toList, S, "-D".toList, T, "-z".toList, "1".toList] files dirs =
      fpCli env fuel ["-d".toList, S, "-D".toList, T, "-e".toList, "b7f05ea2".toList] files dirs := by
  refine C144_shell env files dirs (skipFp S T) (startFp S T) (skipFp_call files S T hS hT) (startFp_call files S T hS hT) S T
    "b7f05ea2".toList 0xb7f05ea1 1 ⟨?_, ⟨by rw [lastSet, skipFp_sets]; simp, by rw [lastSet, skipFp_sets]; simp⟩,
      ⟨['1'], by rw [lastSet, skipFp_sets]; simp, digit_digits _ _ (by decide)⟩, ?_, by rw [lastSet, startFp_sets]; simp⟩
    ⟨[0xb7f05ea1, 0xb7f05ea0, 0xb7f05ea2], [0xb7f05ea3, 0xb7f05ea2, 0xb7f05ea1], none, ?_, ?_, ?_, ⟨?_, ?_⟩, by decide, by decide⟩ (by decide +kernel)
  · intro d hd
    by_cases e1 : d = "sendfiles"
    · subst e1
      refine ⟨by rw [lastSet, lastSet, skipFp_sets, startFp_sets]; simp, ?_⟩
      show (∃ x ∈ cmdSets (skipFp S T), _) ↔ ∃ x ∈ cmdSets (startFp S T), _
      rw [skipFp_sets, startFp_sets]
      simp
    · by_cases e2 : d = "t1files"
      · subst e2
        refine ⟨by rw [lastSet, lastSet, skipFp_sets, startFp_sets]; simp, ?_⟩
        show (∃ x ∈ cmdSets (skipFp S T), _) ↔ ∃ x ∈ cmdSets (startFp S T), _
        rw [skipFp_sets, startFp_sets]
        simp
      · simp only [List.mem_cons, List.not_mem_nil, or_false, not_or] at hd
        have a := skipFp_none S T d (by simp [e1, e2, hd.2])
        have b := startFp_none S T d (by simp [e1, e2, hd.1])
        exact ⟨a.1.trans b.1.symm, iff_of_false a.2 b.2⟩
  · intro v hv
    rw [(startFp_none S T _ (by decide)).1] at hv
    simp at hv
  · rw [h1]; unfold EpochsOf; decide +kernel
  · rw [h2]; unfold EpochsOf; decide +kernel
  · rw [(skipFp_none S T _ (by decide)).1]; rfl
  · exact ⟨by decide, by decide, fun f hf => by simp at hf⟩
  · rintro v ⟨a, b, -⟩
    simp only [List.mem_cons, List.not_mem_nil, or_false] at a b
    push_cast
    omega

end Fp
