import Verif.Props.SkipEpochs
import Verif.Props.EpochT1
import Verif.Props.EpochBits
import Verif.Spec.EpochRun

/-! # C145: epoch directories compared with timestamp files -/
namespace Fp
open Spec

theorem held_t2 {d : EpochDir} {e : ℕ} {ts : List ℕ} (h : HoldsT2 d e ts) :
    ∃ es, EpochTimes d.file false (e : ℤ) es ∧ es.map ENum.val = ts.map fun t : ℕ => (t : ℚ) / 256 := by
  obtain ⟨tag, len, tw, bb, proto, es, body, hf, ⟨h1, h2, h3, h4, h5, h6, h7⟩, hes, hlen, hs, rfl, hb⟩ := h
  have hsum : ∀ x ∈ runningSums (e % 2 ^ 17 * 2 ^ 32) es, x.1 < 2 ^ 53 := by
    intro x hx
    have := hb (32 * x.1) (List.mem_map.mpr ⟨x, hx, rfl⟩)
    omega
  refine ⟨_, ⟨_, _, hf, by simpa using C18_t2_decode tag e len tw bb proto h1 h2 h3 h4 h5 h6 h7 es hes hlen body hs false (by simpa using hsum) .ns1, rfl⟩, ?_⟩
  rw [List.map_map, List.map_map, List.map_map]
  refine List.map_congr_left fun x _ => ?_
  simp only [Function.comp, ENum.val, Tsres.value]
  push_cast
  ring

theorem held_t1 {d : EpochDir} {e : ℕ} {ts : List ℕ} (h : HoldsT1 d e ts) :
    ∃ es, EpochTimes d.file true (e : ℤ) es ∧ es.map ENum.val = ts.map fun t : ℕ => (t : ℚ) / 256 := by
  obtain ⟨evs, hf, he, hv, hlen, rfl⟩ := h
  have he' : (((e : Nat) : Int) % 2 ^ 32).toNat = e := by omega
  obtain ⟨name, file, hw, hr⟩ := C14_t1_roundtrip_partial (e : Int) evs (fun x hx => (hv x hx).1) hlen (by rw [he']; exact fun x hx => (hv x hx).2) .ns1 true
  have hfile := C14_t1_file (e : Int) evs (fun x hx => (hv x hx).1) hlen
  rw [hw, he'] at hfile
  have hfile' : file = t1File e evs := by
    simp only [Except.ok.injEq, Prod.mk.injEq] at hfile
    exact hfile.2.1
  rw [hfile', he'] at hr
  refine ⟨_, ⟨t1File e evs, _, hf, hr, rfl⟩, ?_⟩
  rw [List.map_map, List.map_map, List.map_map]
  refine List.map_congr_left fun x _ => ?_
  simp [Function.comp, eValue, ENum.val, timeIn, Tsres.value]

theorem flatMap_vals (num : ℕ) (es : ℕ → List ENum) (ts : ℕ → List ℕ)
    (h : ∀ i < num, (es i).map ENum.val = (ts i).map fun t : ℕ => (t : ℚ) / 256) :
    ((List.range num).flatMap es).map ENum.val = ((List.range num).flatMap ts).map fun t : ℕ => (t : ℚ) / 256 := by
  rw [List.map_flatMap, List.map_flatMap]
  exact List.flatMap_congr fun i hi => h i (List.mem_range.mp hi)

/-- The times read from the epochs. -/
theorem epochs_read {d1 d2 : EpochDir} {m k num : ℕ} {ta tb : List ℕ} (h : EpochsHold d1 d2 (m + k) num ta tb) :
    ∃ ea eb, Returns (fun fuel => getTimestamp fuel d1.file false (int2epoch (m : ℤ)) (k : ℤ) num) (.ok ea) ∧
      Returns (fun fuel => getTimestamp fuel d2.file true (int2epoch (m : ℤ)) (k : ℤ) num) (.ok eb) ∧
      ea.map ENum.val = (ta.map fun t : ℕ => (t : ℚ) / 256) ∧ eb.map ENum.val = tb.map fun t : ℕ => (t : ℚ) / 256 := by
  classical
  obtain ⟨xs, ys, hh, rfl, rfl⟩ := h
  have e2 : ∀ i, ∃ es, i < num → EpochTimes d1.file false ((m : ℤ) + (k : ℤ) + (i : ℤ)) es ∧ es.map ENum.val = (xs i).map fun t : ℕ => (t : ℚ) / 256 := by
    intro i
    by_cases hi : i < num
    · obtain ⟨es, h1, h2⟩ := held_t2 (hh i hi).1
      exact ⟨es, fun _ => ⟨by simpa using h1, h2⟩⟩
    · exact ⟨[], fun h => absurd h hi⟩
  have e1 : ∀ i, ∃ es, i < num → EpochTimes d2.file true ((m : ℤ) + (k : ℤ) + (i : ℤ)) es ∧ es.map ENum.val = (ys i).map fun t : ℕ => (t : ℚ) / 256 := by
    intro i
    by_cases hi : i < num
    · obtain ⟨es, h1, h2⟩ := held_t1 (hh i hi).2
      exact ⟨es, fun _ => ⟨by simpa using h1, h2⟩⟩
    · exact ⟨[], fun h => absurd h hi⟩
  choose fa ha using e2
  choose fb hb using e1
  refine ⟨_, _, C25_concatenation d1.file false _ m k num (C23_number_name_number m) fa (fun i hi => (ha i hi).1),
    C25_concatenation d2.file true _ m k num (C23_number_name_number m) fb (fun i hi => (hb i hi).1), ?_, ?_⟩
  · exact flatMap_vals num fa xs fun i hi => (ha i hi).2
  · exact flatMap_vals num fb ys fun i hi => (hb i hi).2

/-- All times are 54-bit times. -/
theorem epochs_bounded {d1 d2 : EpochDir} {first num : ℕ} {ta tb : List ℕ} (h : EpochsHold d1 d2 first num ta tb) :
    (∀ t ∈ ta, t < 2 ^ 54) ∧ ∀ t ∈ tb, t < 2 ^ 54 := by
  obtain ⟨xs, ys, hh, rfl, rfl⟩ := h
  constructor
  · intro t ht
    obtain ⟨i, hi, ht⟩ := List.mem_flatMap.mp ht
    obtain ⟨_, _, _, _, _, _, _, _, _, _, _, _, _, hb⟩ := (hh i (List.mem_range.mp hi)).1
    exact hb t ht
  · intro t ht
    obtain ⟨i, hi, ht⟩ := List.mem_flatMap.mp ht
    obtain ⟨evs, _, _, hv, _, e⟩ := (hh i (List.mem_range.mp hi)).2
    rw [e] at ht
    obtain ⟨x, hx, rfl⟩ := List.mem_map.mp ht
    have := (hv x hx).1.1
    unfold t1Time
    omega

theorem nsTimes_pairs (ts : List ℕ) : nsTimes (ts.map fun t => (t, 0)) = ts.map fun t : ℕ => (t : ℚ) / 256 := by
  unfold nsTimes
  rw [List.map_map]
  rfl

/-- **C145** (`main`): `fpfind` on epoch directories does what it does on timestamp files with the times of the epochs it reads, all of them
perhaps later by the same amount. -/
theorem C145_main (env : NumEnv) (hr : env.rnd = fl 53) (hra : env.rndA = fl 64) (args : FpMainArgs) (d1 d2 : EpochDir)
    (h1 : args.sendfiles = some d1) (h2 : args.t1files = some d2) (m k num : ℕ) (hm : FirstCommon d1 d2 args.firstEpoch m)
    (hk : args.skipEpochs = k) (hnum : args.requiredEpochs env.rnd = ((k + num : ℕ) : ℤ)) (ta tb : List ℕ)
    (hh : EpochsHold d1 d2 (m + k) num ta tb) (a b : List (Nat × Nat)) (hv : ∀ e ∈ a ++ b, Valid e) (c : ℤ)
    (ea : a.map (fun e => (e.1 : ℤ)) = ta.map fun t : ℕ => (t : ℤ) + c) (eb : b.map (fun e => (e.1 : ℤ)) = tb.map fun t : ℕ => (t : ℤ) + c)
    (x : Bool) (f : Option Word) (z : ℤ) :
    ∃ N, ∀ fuel, N ≤ fuel → fpMain env fuel args =
      fpMain env fuel (rawArgs { args with toFpArgs := { args.toFpArgs with skipDuration := 0, firstEpoch := f, skipEpochs := z } } x a b) := by
  obtain ⟨e1, e2, g, n1, n2, n3, n4⟩ := hm
  obtain ⟨n, N0, g0⟩ := first_common d1.names d2.names e1 e2 n1 n2 args.firstEpoch g n3 m n4
  obtain ⟨va, vb, ⟨N1, g1⟩, ⟨N2, g2⟩, p1, p2⟩ := epochs_read hh
  obtain ⟨b1, b2⟩ := epochs_bounded hh
  refine ⟨max N0 (max N1 N2), fun fuel hf => ?_⟩
  have a0 := g0 fuel (by omega)
  have a1 := g1 fuel (by omega)
  have a2 := g2 fuel (by omega)
  simp only at a0 a1 a2
  have en : (((k + num : ℕ) : ℤ) - (k : ℤ)).toNat = num := by omega
  have ve : ∀ ts : List ℕ, (∀ t ∈ ts, t < 2 ^ 54) → ∀ e ∈ ts.map (fun t => (t, 0)), Valid e := by
    intro ts hts e he
    obtain ⟨t, ht, rfl⟩ := List.mem_map.mp he
    exact ⟨hts t ht, by norm_num⟩
  have key := C97_invariant_partial env hr hra fuel { args with toFpArgs := { args.toFpArgs with skipDuration := 0, firstEpoch := f, skipEpochs := z } }
    x x (ta.map fun t => (t, 0)) (tb.map fun t => (t, 0)) a b c (ve ta b1) (ve tb b2) (fun e he => hv e (by simp [he]))
    (fun e he => hv e (by simp [he])) (by rw [ea, List.map_map]; rfl) (by rw [eb, List.map_map]; rfl) 0 (by norm_num) (by norm_num)
  rw [key]
  have le : loadInput env.rnd fuel args.toFpArgs =
      some (.ok (some (nsTimes (ta.map fun t => (t, 0)), nsTimes (tb.map fun t => (t, 0)), 0))) := by
    unfold loadInput
    simp only [h1, h2, a0, hnum, hk, getTimestampFrom, en, a1, a2, p1, p2, nsTimes_pairs]
  unfold fpMain mainInput
  rw [load_raw _ _ _ _ _ _ (ve ta b1) (ve tb b2), le]
  rfl

/-- **C145** from the shell. -/
theorem C145_fpfind (env : NumEnv) (hr : env.rnd = fl 53) (hra : env.rndA = fl 64) (files files' : Files) (dirs dirs' : Word → EpochDir)
    (l l' : List Setting) (hc : FpCall files l) (S T : Word) (hS : lastSet l "sendfiles" = some S) (hT : lastSet l "t1files" = some T)
    (hsame : SameApart ["sendfiles", "t1files", "reference", "target", "legacy", "first_epoch", "skip_epochs", "skip_duration"] l l')
    (m k num : ℕ) (hm : FirstCommon (dirs S) (dirs T) (lastSet l "first_epoch") m)
    (hnum : ∀ args, FpMeaning files dirs l args → args.skipEpochs = k ∧ args.requiredEpochs env.rnd = ((k + num : ℕ) : ℤ))
    (ta tb : List ℕ) (hh : EpochsHold (dirs S) (dirs T) (m + k) num ta tb) (a b : List (Nat × Nat)) (hon : FpOn files' l' a b)
    (hskip : SkipsNs l' 0) (hv : ∀ e ∈ a ++ b, Valid e) (c : ℤ)
    (ea : a.map (fun e => (e.1 : ℤ)) = ta.map fun t : ℕ => (t : ℤ) + c) (eb : b.map (fun e => (e.1 : ℤ)) = tb.map fun t : ℕ => (t : ℤ) + c) :
    ∃ N, ∀ fuel, N ≤ fuel → fpCli env fuel (cmdWords l) files dirs = fpCli env fuel (cmdWords l') files' dirs' := by
  obtain ⟨args, -, h⟩ := C132_fpfind env 0 files dirs l hc.some_ hc.ok hc.inside (fun d hd => hc.digits d (by
    simp only [List.mem_cons, List.not_mem_nil, or_false] at hd ⊢
    tauto)) hc.files hc.sizes
  obtain ⟨q1, q2⟩ := hnum args h
  obtain ⟨A, B, x, k1, k2, k3, k4, k5⟩ := hon.files
  obtain ⟨sk, hsk⟩ := floatSet_some (hon.call.numerals "skip_duration" (by decide)) 0
  obtain rfl : sk = 0 := by
    have := hskip sk hsk
    simpa using this
  obtain ⟨z, hz⟩ := intSet_exists (hon.call.digits "skip_epochs" (by decide)) 0
  obtain ⟨N, hN⟩ := C145_main env hr hra args (dirs S) (dirs T) (by rw [h.sendfiles, hS]; rfl) (by rw [h.t1files, hT]; rfl) m k num
    (by rw [h.firstEpoch]; exact hm) q1 q2 ta tb hh a b hv c ea eb x (lastSet l' "first_epoch") z
  have s := hsame
  have hm' : FpMeaning files' dirs' l' (rawArgs { args with toFpArgs :=
      { args.toFpArgs with skipDuration := 0, firstEpoch := lastSet l' "first_epoch", skipEpochs := z } } x a b) :=
    { sendfiles := by rw [hon.nodirs.1]; rfl
      t1files := by rw [hon.nodirs.2]; rfl
      reference := by rw [k1, Option.bind_some, k4]; rfl
      target := by rw [k2, Option.bind_some, k5]; rfl
      legacy := k3
      skipDuration := hsk
      firstEpoch := rfl
      skipEpochs := hz
      initialRes := natSet_same (s "initial_res" (by decide)).1 h.initialRes
      bufferOrder := natSet_same (s "buffer_order" (by decide)).1 h.bufferOrder
      numWraps := natSet_same (s "num_wraps" (by decide)).1 h.numWraps
      separation := floatSet_same (s "separation" (by decide)).1 h.separation
      finalRes := natSet_same (s "final_res" (by decide)).1 h.finalRes
      threshold := floatSet_same (s "threshold" (by decide)).1 h.threshold
      output := natSet_same (s "output" (by decide)).1 h.output
      precompEnable := h.precompEnable.trans (s "precomp_enable" (by decide)).2
      precompStart := floatSet_same (s "precomp_start" (by decide)).1 h.precompStart
      precompStep := floatSet_same (s "precomp_step" (by decide)).1 h.precompStep
      precompStop := floatSet_same (s "precomp_stop" (by decide)).1 h.precompStop
      precompOrdered := h.precompOrdered.trans (s "precomp_ordered" (by decide)).2
      precompFullscan := h.precompFullscan.trans (s "precomp_fullscan" (by decide)).2
      sizes := h.sizes }
  refine ⟨N, fun fuel hf => ?_⟩
  rw [C133_fpfind env files dirs l hc.some_ hc.ok hc.inside hc.digits hc.numerals hc.files args h fuel,
    C133_fpfind env files' dirs' l' hon.call.some_ hon.call.ok hon.call.inside hon.call.digits hon.call.numerals hon.call.files _ hm' fuel,
    hN fuel hf]

/-- **C145** for `fpplot`, which reads as many epochs as `-n` says. -/
theorem C145_fpplot (files files' : Files) (dirs dirs' : Word → EpochDir) (l l' : List Setting) (hc : PlotCall files l) (S T : Word)
    (hS : lastSet l "sendfiles" = some S) (hT : lastSet l "t1files" = some T)
    (hsame : SameApart ["sendfiles", "t1files", "reference", "target", "legacy", "first_epoch", "num_epochs", "skip_epochs", "skip_duration"] l l')
    (m k num : ℕ) (hm : FirstCommon (dirs S) (dirs T) (lastSet l "first_epoch") m)
    (hk : (lastSet l "skip_epochs" = none → k = 0) ∧ ∀ v n, lastSet l "skip_epochs" = some v → Digits v n → k = n)
    (hnum : (lastSet l "num_epochs" = none → num = 1) ∧ ∀ v n, lastSet l "num_epochs" = some v → Digits v n → num = n)
    (ta tb : List ℕ) (hh : EpochsHold (dirs S) (dirs T) (m + k) num ta tb) (a b : List (Nat × Nat)) (hon : PlotOn files' l' a b)
    (hskip : SkipsNs l' 0) (c : ℤ)
    (ea : a.map (fun e => (e.1 : ℤ)) = ta.map fun t : ℕ => (t : ℤ) + c) (eb : b.map (fun e => (e.1 : ℤ)) = tb.map fun t : ℕ => (t : ℤ) + c) :
    ∃ N, ∀ fuel, N ≤ fuel → plotCli (fl 53) (fl 64) fuel (cmdWords l) files dirs = plotCli (fl 53) (fl 64) fuel (cmdWords l') files' dirs' := by
  classical
  obtain ⟨skip, h1⟩ := floatSet_some (hc.numerals "skip_duration" (by decide)) 0
  obtain ⟨freq, h2⟩ := floatSet_some (hc.numerals "freq" (by decide)) 0
  obtain ⟨time, h3⟩ := floatSet_some (hc.numerals "time" (by decide)) 0
  obtain ⟨dur, h4, -⟩ := floatSet_exists (hc.numerals "duration" (by decide)) none
  obtain ⟨sk, hsk⟩ := floatSet_some (hon.call.numerals "skip_duration" (by decide)) 0
  obtain rfl : sk = 0 := by
    have := hskip sk hsk
    simpa using this
  have ha : PlotMeaning files dirs l ⟨some (dirs S), some (dirs T), (lastSet l "reference").bind files, (lastSet l "target").bind files,
      decide (Given l "legacy"), skip, lastSet l "first_epoch", num, k, freq, time, dur⟩ :=
    { sendfiles := by rw [hS]; rfl
      t1files := by rw [hT]; rfl
      reference := rfl
      target := rfl
      legacy := decide_eq_true_iff
      skipDuration := h1
      firstEpoch := rfl
      numEpochs := ⟨fun h => by rw [hnum.1 h]; rfl, fun v n hv hn => by rw [hnum.2 v n hv hn]⟩
      skipEpochs := ⟨fun h => by rw [hk.1 h]; rfl, fun v n hv hn => by rw [hk.2 v n hv hn]⟩
      freq := h2
      time := h3
      duration := h4 }
  obtain ⟨e1, e2, g, n1, n2, n3, n4⟩ := hm
  obtain ⟨n, N0, g0⟩ := first_common _ _ e1 e2 n1 n2 _ g n3 m n4
  obtain ⟨va, vb, ⟨N1, g1⟩, ⟨N2, g2⟩, p1, p2⟩ := epochs_read hh
  obtain ⟨b1, b2⟩ := epochs_bounded hh
  have ve : ∀ ts : List ℕ, (∀ t ∈ ts, t < 2 ^ 54) → ∀ e ∈ ts.map (fun t => (t, 0)), Valid e := by
    intro ts hts e he
    obtain ⟨t, ht, rfl⟩ := List.mem_map.mp he
    exact ⟨hts t ht, by norm_num⟩
  have key := normalize_shifted (ta.map fun t => (t, 0)) (tb.map fun t => (t, 0)) a b c (ve ta b1) (ve tb b2) (fun e he => hon.valid e (by simp [he]))
    (fun e he => hon.valid e (by simp [he])) (by rw [ea, List.map_map]; rfl) (by rw [eb, List.map_map]; rfl) 0 0 (by norm_num) (by norm_num)
  have s := hsame
  refine ⟨max N0 (max N1 N2), fun fuel hf => ?_⟩
  have a0 := g0 fuel (by omega)
  have a1 := g1 fuel (by omega)
  have a2 := g2 fuel (by omega)
  simp only at a0 a1 a2
  rw [C138_options (fl 53) (fl 64) files dirs l hc _ ha fuel,
    plot_on (fl 53) (fl 64) fuel files' dirs' hon hsk (floatSet_same (s "freq" (by decide)).1 h2) (floatSet_same (s "time" (by decide)).1 h3)
      (floatSet_same (s "duration" (by decide)).1 h4), key]
  unfold plotArrays plotInput plotLoad
  simp only [a0, getTimestampFrom, Int.toNat_natCast, a1, a2, p1, p2, nsTimes_pairs]
  rfl

/-- The command lines of the instance: `fpfind -d S -D T -q 24 -s 1` and `fpfind -t A -T B -q 24 -s 1`. -/
def epochFp (S T : Word) : List Setting :=
  [.pair (argStore ["-d", "--sendfiles"] "sendfiles" anyText) ['-', 'd'] S, .pair (argStore ["-D", "--t1files"] "t1files" anyText) ['-', 'D'] T,
    .pair (argStore ["-q", "--buffer-order"] "buffer_order" isInt) ['-', 'q'] "24".toList,
    .pair (argStore ["-s", "--separation"] "separation" isFloat) ['-', 's'] ['1']]

@[inherit_doc epochFp] def fileFp (A B : Word) : List Setting :=
  [.pair (argStore ["-t", "--reference"] "reference" anyText) ['-', 't'] A, .pair (argStore ["-T", "--target"] "target" anyText) ['-', 'T'] B,
    .pair (argStore ["-q", "--buffer-order"] "buffer_order" isInt) ['-', 'q'] "24".toList,
    .pair (argStore ["-s", "--separation"] "separation" isFloat) ['-', 's'] ['1']]

theorem epochFp_sets (S T : Word) :
    cmdSets (epochFp S T) = [("sendfiles", [S]), ("t1files", [T]), ("buffer_order", ["24".toList]), ("separation", [['1']])] := rfl
theorem fileFp_sets (A B : Word) :
    cmdSets (fileFp A B) = [("reference", [A]), ("target", [B]), ("buffer_order", ["24".toList]), ("separation", [['1']])] := rfl

theorem epochFp_none (S T : Word) (d : String) (hd : d ∉ ["sendfiles", "t1files", "buffer_order", "separation"]) :
    lastSet (epochFp S T) d = none ∧ ¬ Given (epochFp S T) d := by
  simp only [List.mem_cons, List.not_mem_nil, or_false, not_or] at hd
  obtain ⟨h1, h2, h3, h4⟩ := hd
  constructor
  · rw [lastSet, epochFp_sets]
    simp [Ne.symm h1, Ne.symm h2, Ne.symm h3, Ne.symm h4]
  · show ¬ ∃ x ∈ cmdSets (epochFp S T), x.1 = d
    rw [epochFp_sets]
    simp [Ne.symm h1, Ne.symm h2, Ne.symm h3, Ne.symm h4]

theorem fileFp_none (A B : Word) (d : String) (hd : d ∉ ["reference", "target", "buffer_order", "separation"]) :
    lastSet (fileFp A B) d = none ∧ ¬ Given (fileFp A B) d := by
  simp only [List.mem_cons, List.not_mem_nil, or_false, not_or] at hd
  obtain ⟨h1, h2, h3, h4⟩ := hd
  constructor
  · rw [lastSet, fileFp_sets]
    simp [Ne.symm h1, Ne.symm h2, Ne.symm h3, Ne.symm h4]
  · show ¬ ∃ x ∈ cmdSets (fileFp A B), x.1 = d
    rw [fileFp_sets]
    simp [Ne.symm h1, Ne.symm h2, Ne.symm h3, Ne.symm h4]

theorem epochFp_last (S T : Word) : lastSet (epochFp S T) "sendfiles" = some S ∧ lastSet (epochFp S T) "t1files" = some T ∧
    lastSet (epochFp S T) "buffer_order" = some "24".toList ∧ lastSet (epochFp S T) "separation" = some ['1'] := by
  refine ⟨?_, ?_, ?_, ?_⟩ <;> rw [lastSet, epochFp_sets] <;> simp

theorem fileFp_last (A B : Word) : lastSet (fileFp A B) "reference" = some A ∧ lastSet (fileFp A B) "target" = some B ∧
    lastSet (fileFp A B) "buffer_order" = some "24".toList ∧ lastSet (fileFp A B) "separation" = some ['1'] := by
  refine ⟨?_, ?_, ?_, ?_⟩ <;> rw [lastSet, fileFp_sets] <;> simp

theorem digits_24 : Digits "24".toList 24 := ⟨[2, 4], by simp, by norm_num [Nat.ofDigits]⟩

theorem fl_cast_one : fl 53 ((1 : ℕ) : ℚ) = 1 := by decide +kernel

theorem sizes_one {l : List Setting} (h1 : lastSet l "initial_res" = none) (h2 : lastSet l "separation" = some ['1']) : SizesNotZero l := by
  refine ⟨fun v hv => by rw [h1] at hv; simp at hv, fun x hx => ?_⟩
  rw [Option.some.inj (hx.2 _ _ h2 (denotes_digit '1' 1 (by decide))), fl_cast_one]
  norm_num

/-- A call with the options of the instance, whatever the two first ones are. -/
theorem four_call {files : Files} {l : List Setting} (hne : l ≠ []) (hok : ∀ s ∈ l, s.Ok fpSpec) (lq : lastSet l "buffer_order" = some "24".toList)
    (ls : lastSet l "separation" = some ['1'])
    (no : ∀ d, d ∉ ["reference", "target", "sendfiles", "t1files", "buffer_order", "separation"] → lastSet l d = none ∧ ¬ Given l d)
    (hf : ∀ d ∈ ["reference", "target"], ∀ v, lastSet l d = some v → (files v).isSome = true) : FpCall files l := by
  refine ⟨hne, hok, ?_, ?_, ?_, hf, sizes_one (no _ (by decide)).1 ls⟩
  · intro d hd
    exact (no d ((by decide : ∀ d ∈ ["help", "config", "save"], d ∉ ["reference", "target", "sendfiles", "t1files", "buffer_order", "separation"]) d hd)).2
  · intro d hd u hu
    by_cases e : d = "buffer_order"
    · subst e
      rw [lq] at hu
      obtain rfl := Option.some.inj hu
      exact ⟨24, digits_24⟩
    · rw [(no d ((by decide : ∀ d ∈ ["num_wraps", "buffer_order", "initial_res", "final_res", "output", "skip_epochs"], d ≠ "buffer_order" →
        d ∉ ["reference", "target", "sendfiles", "t1files", "buffer_order", "separation"]) d hd e)).1] at hu
      simp at hu
  · intro d hd u hu
    by_cases e : d = "separation"
    · subst e
      rw [ls] at hu
      obtain rfl := Option.some.inj hu
      exact ⟨_, denotes_digit '1' 1 (by decide)⟩
    · rw [(no d ((by decide : ∀ d ∈ ["skip_duration", "separation", "threshold", "precomp_start", "precomp_step", "precomp_stop"], d ≠ "separation" →
        d ∉ ["reference", "target", "sendfiles", "t1files", "buffer_order", "separation"]) d hd e)).1] at hu
      simp at hu

theorem epochFp_call (files : Files) (S T : Word) (hS : PlainWord S) (hT : PlainWord T) : FpCall files (epochFp S T) := by
  obtain ⟨-, -, l3, l4⟩ := epochFp_last S T
  have no := fun d hd => epochFp_none S T d hd
  refine four_call (by simp [epochFp]) ?_ l3 l4 (fun d hd => no d (by simp only [List.mem_cons, List.not_mem_nil, or_false, not_or] at hd ⊢; tauto)) ?_
  · intro s hs
    simp only [epochFp, List.mem_cons, List.not_mem_nil, or_false] at hs
    rcases hs with rfl | rfl | rfl | rfl
    · exact ⟨by simp [fpSpec], by decide, rfl, rfl, hS⟩
    · exact ⟨by simp [fpSpec], by decide, rfl, rfl, hT⟩
    · exact ⟨by simp [fpSpec], by decide, rfl, by decide, Or.inl (by decide)⟩
    · exact ⟨by simp [fpSpec], by decide, rfl, by decide, Or.inl (by decide)⟩
  · intro d hd u hu
    rw [(no d ((by decide : ∀ d ∈ ["reference", "target"], d ∉ ["sendfiles", "t1files", "buffer_order", "separation"]) d hd)).1] at hu
    simp at hu

theorem fileFp_on (files : Files) (A B : Word) (hA : PlainWord A) (hB : PlainWord B) (a b : List (Nat × Nat))
    (fA : files A = some (fileOf .a1 false a)) (fB : files B = some (fileOf .a1 false b)) : FpOn files (fileFp A B) a b := by
  obtain ⟨l1, l2, l3, l4⟩ := fileFp_last A B
  have no := fun d hd => fileFp_none A B d hd
  refine ⟨four_call (by simp [fileFp]) ?_ l3 l4 (fun d hd => no d (by simp only [List.mem_cons, List.not_mem_nil, or_false, not_or] at hd ⊢; tauto)) ?_,
    ⟨A, B, false, l1, l2, by simpa using (no "legacy" (by decide)).2, fA, fB⟩, (no _ (by decide)).1, (no _ (by decide)).1⟩
  · intro s hs
    simp only [fileFp, List.mem_cons, List.not_mem_nil, or_false] at hs
    rcases hs with rfl | rfl | rfl | rfl
    · exact ⟨by simp [fpSpec], by decide, rfl, rfl, hA⟩
    · exact ⟨by simp [fpSpec], by decide, rfl, rfl, hB⟩
    · exact ⟨by simp [fpSpec], by decide, rfl, by decide, Or.inl (by decide)⟩
    · exact ⟨by simp [fpSpec], by decide, rfl, by decide, Or.inl (by decide)⟩
  · intro d hd u hu
    simp only [List.mem_cons, List.not_mem_nil, or_false] at hd
    rcases hd with rfl | rfl
    · rw [l1] at hu; obtain rfl := Option.some.inj hu; rw [fA]; rfl
    · rw [l2] at hu; obtain rfl := Option.some.inj hu; rw [fB]; rfl

theorem wT2_holds (d : EpochDir) (e dt : ℕ) (he : e < 8) (h2 : 2 ≤ dt) (hdt : dt < 2 ^ 32) (hd : d.file (int2epoch (e : ℤ)) = some (wT2 e dt))
    (hs : Starts (wBody dt) (([⟨false, dt, 0⟩] : List Entry).flatMap (Entry.bits 32 32) ++ terminator 32 32)) :
    HoldsT2 d e [32 * (e * 2 ^ 32 + dt)] := by
  have em : e % 2 ^ 17 = e := by omega
  refine ⟨2, 1, 32, 32, 0, [⟨false, dt, 0⟩], wBody dt, hd, ⟨by norm_num, by omega, by norm_num, by norm_num, by norm_num, by norm_num, by norm_num⟩,
    by simp [Entry.Ok]; omega, Or.inr rfl, hs, by rw [em]; rfl, ?_⟩
  simp only [List.mem_singleton]
  rintro t rfl
  omega

theorem wT1_holds (d : EpochDir) (e t : ℕ) (he : e < 8) (ht : t < 2 ^ 37) (hd : d.file (int2epoch (e : ℤ)) = some (t1File e [(t, 1)])) :
    HoldsT1 d e [e * 2 ^ 37 + t] := by
  have em : e % 2 ^ 17 = e := by omega
  refine ⟨[(t, 1)], hd, by omega, ?_, by simp, by rw [List.map_cons, List.map_nil, t1Time, em]⟩
  simp [T1Valid, ZeroEvent]
  omega

theorem wDir_first (f5 f6 g5 g6 : Bytes) : FirstCommon (wDir f5 f6) (wDir g5 g6) none 5 := by
  have hn : ∀ f5 f6, EpochsOf (wDir f5 f6).names [5, 6] := fun f5 f6 => by
    have a5 := C23_number_name_number 5
    have a6 := C23_number_name_number 6
    unfold EpochsOf wDir
    simp only [List.map_cons, List.map_nil, a5, a6]
    rfl
  refine ⟨[5, 6], [5, 6], none, hn _ _, hn _ _, rfl, ⟨by decide, by decide, fun f hf => by simp at hf⟩, ?_⟩
  rintro v ⟨x, -, -⟩
  simp only [List.mem_cons, List.not_mem_nil, or_false] at x
  push_cast
  omega

theorem wDir_holds : EpochsHold (wDir (wT2 5 8) (wT2 6 (2 ^ 32 - 8))) (wDir (t1File 5 [(256, 1)]) (t1File 6 [(2 ^ 37 - 256, 1)])) (5 + 0) 2
    [32 * (5 * 2 ^ 32 + 8), 32 * (6 * 2 ^ 32 + (2 ^ 32 - 8))] [5 * 2 ^ 37 + 256, 6 * 2 ^ 37 + (2 ^ 37 - 256)] := by
  have hne : ¬ int2epoch ((6 : Nat) : Int) = int2epoch ((5 : Nat) : Int) := fun h => absurd (C23_names_distinct 6 5 h) (by decide)
  have w5 : ∀ f5 f6, (wDir f5 f6).file (int2epoch ((5 : ℕ) : ℤ)) = some f5 := fun f5 f6 => by simp [wDir]
  have w6 : ∀ f5 f6, (wDir f5 f6).file (int2epoch ((6 : ℕ) : ℤ)) = some f6 := fun f5 f6 => by
    unfold wDir
    simp only
    rw [if_neg hne]
    simp
  refine ⟨fun i => if i = 0 then [32 * (5 * 2 ^ 32 + 8)] else [32 * (6 * 2 ^ 32 + (2 ^ 32 - 8))],
    fun i => if i = 0 then [5 * 2 ^ 37 + 256] else [6 * 2 ^ 37 + (2 ^ 37 - 256)], ?_, rfl, rfl⟩
  intro i hi
  have : i = 0 ∨ i = 1 := by omega
  rcases this with rfl | rfl
  · exact ⟨wT2_holds _ 5 8 (by norm_num) (by norm_num) (by norm_num) (w5 _ _) wStarts2,
      wT1_holds _ 5 256 (by norm_num) (by norm_num) (w5 _ _)⟩
  · exact ⟨wT2_holds _ 6 (2 ^ 32 - 8) (by norm_num) (by norm_num) (by norm_num) (w6 _ _) wStarts1,
      wT1_holds _ 6 (2 ^ 37 - 256) (by norm_num) (by norm_num) (w6 _ _)⟩

/-- **C145**, instance: two directories with the epochs 5 and 6, with one event near the beginning and one near the end.
`fpfind -d S -D T -q 24 -s 1` is `fpfind -t A -T B -q 24 -s 1` for timestamp files that begin 1 ns after the epochs began. -/
theorem C145_instance (env : NumEnv) (hr : env.rnd = fl 53) (hra : env.rndA = fl 64) (files : Files) (dirs : Word → EpochDir) (S T A B : Word)
    (hS : PlainWord S) (hT : PlainWord T) (hA : PlainWord A) (hB : PlainWord B)
    (dS : dirs S = wDir (wT2 5 8) (wT2 6 (2 ^ 32 - 8))) (dT : dirs T = wDir (t1File 5 [(256, 1)]) (t1File 6 [(2 ^ 37 - 256, 1)]))
    (p q : ℕ) (hp : p < 16) (hq : q < 16)
    (fA : files A = some (fileOf .a1 false [(256, p), (2 ^ 38 - 256, q)])) (fB : files B = some (fileOf .a1 false [(256, q), (2 ^ 38 - 256, p)])) :
    ∃ N, ∀ fuel, N ≤ fuel → fpCli env fuel ["-d".toList, S, "-D".toList, T, "-q".toList, "24".toList, "-s".toList, "1".toList] files dirs =
      fpCli env fuel ["-t".toList, A, "-T".toList, B, "-q".toList, "24".toList, "-s".toList, "1".toList] files dirs := by
  obtain ⟨l1, l2, l3, l4⟩ := epochFp_last S T
  obtain ⟨m1, m2, m3, m4⟩ := fileFp_last A B
  have given : ∀ l d, Given l d ↔ ∃ x ∈ cmdSets l, x.1 = d := fun l d => Iff.rfl
  refine C145_fpfind env hr hra files files dirs dirs (epochFp S T) (fileFp A B) (epochFp_call files S T hS hT) S T l1 l2 ?_ 5 0 2 ?_ ?_
    [32 * (5 * 2 ^ 32 + 8), 32 * (6 * 2 ^ 32 + (2 ^ 32 - 8))] [5 * 2 ^ 37 + 256, 6 * 2 ^ 37 + (2 ^ 37 - 256)] ?_
    _ _ (fileFp_on files A B hA hB _ _ fA fB) ?_ ?_ (-(5 * 2 ^ 37)) (by norm_num) (by norm_num)
  · intro d hd
    by_cases e1 : d = "buffer_order"
    · subst e1
      rw [l3, m3, given, given, epochFp_sets, fileFp_sets]
      simp
    · by_cases e2 : d = "separation"
      · subst e2
        rw [l4, m4, given, given, epochFp_sets, fileFp_sets]
        simp
      · simp only [List.mem_cons, List.not_mem_nil, or_false, not_or] at hd
        have x := epochFp_none S T d (by simp [e1, e2, hd])
        have y := fileFp_none A B d (by simp [e1, e2, hd])
        exact ⟨x.1.trans y.1.symm, iff_of_false x.2 y.2⟩
  · rw [dS, dT, (epochFp_none S T _ (by decide)).1]
    exact wDir_first _ _ _ _
  · intro args ha
    have no := fun d hd => (epochFp_none S T d hd).1
    have c1 : args.skipEpochs = 0 := ha.skipEpochs.1 (no _ (by decide))
    have c2 : args.initialRes = 16 := Option.some.inj (ha.initialRes.1 (no _ (by decide)))
    have c3 : args.bufferOrder = 24 := Option.some.inj (ha.bufferOrder.2 _ _ l3 digits_24)
    have c4 : args.numWraps = 1 := Option.some.inj (ha.numWraps.1 (no _ (by decide)))
    have c5 : args.separation = 1 := (Option.some.inj (ha.separation.2 _ _ l4 (denotes_digit '1' 1 (by decide)))).trans fl_cast_one
    refine ⟨c1, ?_⟩
    have := wArgs_req (dirs S) (dirs T)
    unfold FpArgs.requiredEpochs FpArgs.minDuration FpArgs.ta at this ⊢
    rw [hr, c1, c2, c3, c4, c5]
    exact this
  · rw [dS, dT]
    exact wDir_holds
  · intro x hx
    rw [Option.some.inj (hx.1 (fileFp_none A B _ (by decide)).1)]
    norm_num
  · intro e he
    simp only [List.mem_append, List.mem_cons, List.not_mem_nil, or_false] at he
    rcases he with (rfl | rfl) | rfl | rfl <;> exact ⟨by norm_num, by assumption⟩

/-- The command lines of the instance for `fpplot`: `fpplot -d S -D T -n 2` and `fpplot -t A -T B`. -/
def epochPlot (S T : Word) : List Setting :=
  [.pair (argStore ["-d", "--sendfiles"] "sendfiles" anyText) ['-', 'd'] S, .pair (argStore ["-D", "--t1files"] "t1files" anyText) ['-', 'D'] T,
    .pair (argStore ["-n", "--num-epochs"] "num_epochs" isInt) ['-', 'n'] ['2']]

@[inherit_doc epochPlot] def filePlot (A B : Word) : List Setting :=
  [.pair (argStore ["-t", "--reference"] "reference" anyText) ['-', 't'] A, .pair (argStore ["-T", "--target"] "target" anyText) ['-', 'T'] B]

theorem epochPlot_sets (S T : Word) : cmdSets (epochPlot S T) = [("sendfiles", [S]), ("t1files", [T]), ("num_epochs", [['2']])] := rfl
theorem filePlot_sets (A B : Word) : cmdSets (filePlot A B) = [("reference", [A]), ("target", [B])] := rfl

theorem epochPlot_none (S T : Word) (d : String) (hd : d ∉ ["sendfiles", "t1files", "num_epochs"]) :
    lastSet (epochPlot S T) d = none ∧ ¬ Given (epochPlot S T) d := by
  simp only [List.mem_cons, List.not_mem_nil, or_false, not_or] at hd
  obtain ⟨h1, h2, h3⟩ := hd
  constructor
  · rw [lastSet, epochPlot_sets]
    simp [Ne.symm h1, Ne.symm h2, Ne.symm h3]
  · show ¬ ∃ x ∈ cmdSets (epochPlot S T), x.1 = d
    rw [epochPlot_sets]
    simp [Ne.symm h1, Ne.symm h2, Ne.symm h3]

theorem filePlot_none (A B : Word) (d : String) (hd : d ∉ ["reference", "target"]) :
    lastSet (filePlot A B) d = none ∧ ¬ Given (filePlot A B) d := by
  simp only [List.mem_cons, List.not_mem_nil, or_false, not_or] at hd
  obtain ⟨h1, h2⟩ := hd
  constructor
  · rw [lastSet, filePlot_sets]
    simp [Ne.symm h1, Ne.symm h2]
  · show ¬ ∃ x ∈ cmdSets (filePlot A B), x.1 = d
    rw [filePlot_sets]
    simp [Ne.symm h1, Ne.symm h2]

/-- **C145**, instance for `fpplot`, with the same directories. -/
theorem C145_plot_instance (files : Files) (dirs : Word → EpochDir) (S T A B : Word)
    (hS : PlainWord S) (hT : PlainWord T) (hA : PlainWord A) (hB : PlainWord B)
    (dS : dirs S = wDir (wT2 5 8) (wT2 6 (2 ^ 32 - 8))) (dT : dirs T = wDir (t1File 5 [(256, 1)]) (t1File 6 [(2 ^ 37 - 256, 1)]))
    (p q : ℕ) (hp : p < 16) (hq : q < 16)
    (fA : files A = some (fileOf .a1 false [(256, p), (2 ^ 38 - 256, q)])) (fB : files B = some (fileOf .a1 false [(256, q), (2 ^ 38 - 256, p)])) :
    ∃ N, ∀ fuel, N ≤ fuel → plotCli (fl 53) (fl 64) fuel ["-d".toList, S, "-D".toList, T, "-n".toList, "2".toList] files dirs =
      plotCli (fl 53) (fl 64) fuel ["-t".toList, A, "-T".toList, B] files dirs := by
  have l1 : lastSet (epochPlot S T) "sendfiles" = some S := by rw [lastSet, epochPlot_sets]; simp
  have l2 : lastSet (epochPlot S T) "t1files" = some T := by rw [lastSet, epochPlot_sets]; simp
  have l3 : lastSet (epochPlot S T) "num_epochs" = some ['2'] := by rw [lastSet, epochPlot_sets]; simp
  have m1 : lastSet (filePlot A B) "reference" = some A := by rw [lastSet, filePlot_sets]; simp
  have m2 : lastSet (filePlot A B) "target" = some B := by rw [lastSet, filePlot_sets]; simp
  have no := fun d hd => epochPlot_none S T d hd
  have no' := fun d hd => filePlot_none A B d hd
  have d2 : Digits ['2'] 2 := digit_digits _ _ (by decide)
  have hc : PlotCall files (epochPlot S T) := by
    refine ⟨by simp [epochPlot], ?_, ?_, ?_, ?_, ?_⟩
    · intro s hs
      simp only [epochPlot, List.mem_cons, List.not_mem_nil, or_false] at hs
      rcases hs with rfl | rfl | rfl
      · exact ⟨by simp [plotSpec], by decide, rfl, rfl, hS⟩
      · exact ⟨by simp [plotSpec], by decide, rfl, rfl, hT⟩
      · exact ⟨by simp [plotSpec], by decide, rfl, by decide, Or.inl (by decide)⟩
    · exact fun d hd => (no d ((by decide : ∀ d ∈ ["help", "config", "save", "experiment"], d ∉ ["sendfiles", "t1files", "num_epochs"]) d hd)).2
    · intro d hd u hu
      simp only [List.mem_cons, List.not_mem_nil, or_false] at hd
      rcases hd with rfl | rfl
      · rw [l3] at hu; obtain rfl := Option.some.inj hu; exact ⟨2, d2⟩
      · rw [(no _ (by decide)).1] at hu; simp at hu
    · intro d hd u hu
      rw [(no d ((by decide : ∀ d ∈ ["skip_duration", "freq", "time", "duration"], d ∉ ["sendfiles", "t1files", "num_epochs"]) d hd)).1] at hu
      simp at hu
    · intro d hd u hu
      rw [(no d ((by decide : ∀ d ∈ ["reference", "target"], d ∉ ["sendfiles", "t1files", "num_epochs"]) d hd)).1] at hu
      simp at hu
  have hon : PlotOn files (filePlot A B) [(256, p), (2 ^ 38 - 256, q)] [(256, q), (2 ^ 38 - 256, p)] := by
    refine ⟨⟨by simp [filePlot], ?_, ?_, ?_, ?_, ?_⟩, ⟨A, B, false, m1, m2, by simpa using (no' "legacy" (by decide)).2, fA, fB⟩,
      ⟨(no' _ (by decide)).1, (no' _ (by decide)).1⟩, ?_⟩
    · intro s hs
      simp only [filePlot, List.mem_cons, List.not_mem_nil, or_false] at hs
      rcases hs with rfl | rfl
      · exact ⟨by simp [plotSpec], by decide, rfl, rfl, hA⟩
      · exact ⟨by simp [plotSpec], by decide, rfl, rfl, hB⟩
    · exact fun d hd => (no' d ((by decide : ∀ d ∈ ["help", "config", "save", "experiment"], d ∉ ["reference", "target"]) d hd)).2
    · intro d hd u hu
      rw [(no' d ((by decide : ∀ d ∈ ["num_epochs", "skip_epochs"], d ∉ ["reference", "target"]) d hd)).1] at hu
      simp at hu
    · intro d hd u hu
      rw [(no' d ((by decide : ∀ d ∈ ["skip_duration", "freq", "time", "duration"], d ∉ ["reference", "target"]) d hd)).1] at hu
      simp at hu
    · intro d hd u hu
      simp only [List.mem_cons, List.not_mem_nil, or_false] at hd
      rcases hd with rfl | rfl
      · rw [m1] at hu; obtain rfl := Option.some.inj hu; rw [fA]; rfl
      · rw [m2] at hu; obtain rfl := Option.some.inj hu; rw [fB]; rfl
    · intro e he
      simp only [List.mem_append, List.mem_cons, List.not_mem_nil, or_false] at he
      rcases he with (rfl | rfl) | rfl | rfl <;> exact ⟨by norm_num, by assumption⟩
  refine C145_fpplot files files dirs dirs (epochPlot S T) (filePlot A B) hc S T l1 l2 ?_ 5 0 2 ?_ ⟨fun _ => rfl, fun v n hv hn => ?_⟩
    ⟨fun h => by rw [l3] at h; simp at h, fun v n hv hn => ?_⟩ _ _ (by rw [dS, dT]; exact wDir_holds) _ _ hon ?_ (-(5 * 2 ^ 37)) (by norm_num) (by norm_num)
  · intro d hd
    simp only [List.mem_cons, List.not_mem_nil, or_false, not_or] at hd
    have x := no d (by simp [hd])
    have y := no' d (by simp [hd])
    exact ⟨x.1.trans y.1.symm, iff_of_false x.2 y.2⟩
  · rw [dS, dT, (no _ (by decide)).1]
    exact wDir_first _ _ _ _
  · rw [(no _ (by decide)).1] at hv
    simp at hv
  · rw [l3] at hv
    obtain rfl := Option.some.inj hv
    exact Option.some.inj ((digitsVal_spec d2).symm.trans (digitsVal_spec hn))
  · intro x hx
    rw [Option.some.inj (hx.1 (no' _ (by decide)).1)]
    norm_num

end Fp
