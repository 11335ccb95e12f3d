import Verif.Props.Argparse
import Verif.Props.RawMain
import Verif.Props.Pipeline
import Verif.Spec.Shell

/-! # C133: Programs called from the shell -/
namespace Fp
open Spec

theorem bool_iff {a b : Bool} {P : Prop} (h : a = true ↔ P) (h' : b = true ↔ P) : a = b :=
  Bool.eq_iff_iff.mpr (h.trans h'.symm)

theorem floatSet_unique {l : List Setting} {d : String} {y0 y y' : Option ℚ} (hn : GivenNumeral l d) (h : FloatSet l d y0 y)
    (h' : FloatSet l d y0 y') : y = y' := by
  cases e : lastSet l d with
  | none => rw [h.1 e, h'.1 e]
  | some v =>
    obtain ⟨x, hx⟩ := hn v e
    rw [h.2 v x e hx, h'.2 v x e hx]

theorem natSet_unique {l : List Setting} {d : String} {y0 y y' : Option ℕ} (hn : GivenDigits l d) (h : NatSet l d y0 y)
    (h' : NatSet l d y0 y') : y = y' := by
  cases e : lastSet l d with
  | none => rw [h.1 e, h'.1 e]
  | some v =>
    obtain ⟨x, hx⟩ := hn v e
    rw [h.2 v x e hx, h'.2 v x e hx]

theorem fmtText_unique {v : Word} {f g : Fmt} (h : FmtText v f) (h' : FmtText v g) : f = g := by
  rcases h with ⟨rfl, rfl⟩ | ⟨rfl, rfl⟩ | ⟨rfl, rfl⟩ <;> rcases h' with ⟨e, rfl⟩ | ⟨e, rfl⟩ | ⟨e, rfl⟩ <;> first | rfl | simp at e

theorem given_of_last {l : List Setting} {d : String} {v : Word} (h : lastSet l d = some v) : Given l d := by
  unfold lastSet at h
  cases hf : (cmdSets l).reverse.find? (fun x => x.1 = d) with
  | none => simp [hf] at h
  | some x =>
    exact ⟨x, by simpa using List.mem_of_find?_eq_some hf, by simpa using List.find?_some hf⟩

/-- **C133** for `parse_timestamps`: the command line leaves nothing open.  The program runs with exactly those arguments that the
options mean, if numbers are written as numerals. -/
theorem C133_timestamps (fw : Nat) (files : Files) (l l2 : List Setting) (hl : ∀ s ∈ l ++ l2, s.Ok tsSpec) (dashes : Bool)
    (a : TsArgs) (ha : TsMeaning (l ++ l2) a) (hp : GivenDigits (l ++ l2) "pfilter_pattern")
    (hn : GivenNumeral (l ++ l2) "tfilter_start" ∧ GivenNumeral (l ++ l2) "tfilter_end")
    (h : if dashes then l2 = [] ∧ ∀ o ∈ a.outfile, o ≠ ['-', '-'] else PlainWord a.infile ∧ ∀ o ∈ a.outfile, PlainWord o) :
    tsCli fw (cmdWords l ++ fileWords dashes a.infile a.outfile ++ cmdWords l2) files = .ran (tsMain fw a files) := by
  obtain ⟨v, hv, hf⟩ := ha.inFmt
  obtain ⟨b, h1, h2, h3, h4⟩ := C132_timestamps fw files l l2 hl (given_of_last hv) hp dashes a.infile a.outfile h
  rw [h1]
  have e1 : b.inFmt = a.inFmt := by
    obtain ⟨v', hv', hf'⟩ := h2.inFmt
    rw [hv] at hv'
    obtain rfl := Option.some.inj hv'
    exact fmtText_unique hf' hf
  have e2 : b.outFmt = a.outFmt := by
    rcases h2.outFmt with ⟨k1, k2⟩ | ⟨w, k1, k2⟩ <;> rcases ha.outFmt with ⟨k3, k4⟩ | ⟨w', k3, k4⟩
    · rw [k2, k4]
    · rw [k1] at k3; simp at k3
    · rw [k1] at k3; simp at k3
    · rw [k1] at k3
      obtain rfl := Option.some.inj k3
      exact fmtText_unique k2 k4
  have e3 : b.filter = a.filter := by
    have p1 := natSet_unique hp h2.pattern ha.pattern
    have p2 := bool_iff h2.mask ha.mask
    have p3 := bool_iff h2.invert ha.invert
    have p4 := floatSet_unique hn.1 h2.start ha.start
    have p5 := floatSet_unique hn.2 h2.stop ha.stop
    cases hb : b.filter
    cases hc : a.filter
    rw [hb, hc] at p1 p2 p3 p4 p5
    simp only at p1 p2 p3 p4 p5
    subst p1 p2 p3 p4 p5
    rfl
  have p1 := bool_iff h2.legacyIn ha.legacyIn
  have p2 := bool_iff h2.legacyOut ha.legacyOut
  have p3 := bool_iff h2.print ha.print
  have p4 := bool_iff h2.inmemory ha.inmemory
  congr 2
  cases a
  cases b
  simp only at e1 e2 e3 p1 p2 p3 p4 h3 h4
  subst e1 e2 e3 p1 p2 p3 p4 h3 h4
  rfl

/-- **C133** (conversion): `parse_timestamps` called with the formats of two files and any filters writes the events of one file that
pass to the other; in any order and any of the usual forms of the options.  With `--inmemory`, both may be the same file. -/
theorem C133_convert (fw : Nat) (hfw : 54 ≤ fw) (files : Files) (l l2 : List Setting) (hl : ∀ s ∈ l ++ l2, s.Ok tsSpec)
    (f g : Fmt) (X x : Bool) (F : FilterArgs) (hf : InFormat (l ++ l2) f X) (hg : OutFormat (l ++ l2) g x)
    (hF : FilterMeaning (l ++ l2) F) (hno : ¬ Given (l ++ l2) "print") (inp out : Word) (h : PlainWord inp ∧ PlainWord out)
    (hne : out ≠ []) (hdiff : inp ≠ out ∨ Given (l ++ l2) "inmemory") (raws : List (Nat × Nat)) (hv : ∀ r ∈ raws, Valid r)
    (hrep : Representable f raws) (hin : files inp = some (fileOf f X raws)) (hpat : ∀ pat, F.pattern = some pat → pat < 16)
    (hs : Timed F → raws.Pairwise (fun x y => x.1 ≤ y.1) ∧ ∀ r ∈ raws, r.1 < 2 ^ 53)
    (hlen : Given (l ++ l2) "inmemory" → fewest f ≤ raws.length) :
    tsCli fw (cmdWords l ++ [inp, out] ++ cmdWords l2) files =
      .ran ⟨files.set out (fileOf g x (filtered F raws)), none, none⟩ := by
  classical
  obtain ⟨m, hm⟩ : ∃ m : Bool, m = true ↔ Given (l ++ l2) "inmemory" := ⟨decide _, decide_eq_true_iff⟩
  have := C133_timestamps fw files l l2 hl false ⟨f, X, g, x, false, F, m, inp, some out⟩
    ⟨hf.1, hg.1, hf.2, hg.2, by simpa using hno, hF.pattern, hF.mask, hF.invert, hF.start, hF.stop, hm⟩ hF.whole hF.numerals
    ⟨h.1, by simpa using h.2⟩
  have hw : fileWords false inp (some out) = [inp, out] := rfl
  rw [← hw]
  refine this.trans ?_
  congr 1
  cases hm0 : m with
  | false =>
    exact C84_convert_stream_partial fw hfw ⟨f, X, g, x, false, F, false, inp, some out⟩ files raws out hv hrep hin rfl hne
      (hdiff.resolve_right fun h => by simp [hm.mpr h] at hm0) rfl rfl hpat hs
  | true =>
    exact C84_convert_inmemory_partial fw hfw ⟨f, X, g, x, false, F, true, inp, some out⟩ files raws out hv hrep (hlen (hm.mp hm0)) hin rfl hne
      rfl rfl hpat fun ht => (hs ht).1

/-- **C133** (onto itself): with the same name twice, any such call without `--inmemory` empties the file, without an error. -/
theorem C133_inplace_violated (fw : Nat) (files : Files) (l l2 : List Setting) (hl : ∀ s ∈ l ++ l2, s.Ok tsSpec)
    (f g : Fmt) (X x : Bool) (F : FilterArgs) (hf : InFormat (l ++ l2) f X) (hg : OutFormat (l ++ l2) g x)
    (hF : FilterMeaning (l ++ l2) F) (hno : ¬ Given (l ++ l2) "print") (hmem : ¬ Given (l ++ l2) "inmemory")
    (inp : Word) (h : PlainWord inp) (hne : inp ≠ []) (content : Bytes) (hin : files inp = some content) :
    tsCli fw (cmdWords l ++ [inp, inp] ++ cmdWords l2) files = .ran ⟨files.set inp [], none, none⟩ := by
  have := C133_timestamps fw files l l2 hl false ⟨f, X, g, x, false, F, false, inp, some inp⟩
    ⟨hf.1, hg.1, hf.2, hg.2, by simpa using hno, hF.pattern, hF.mask, hF.invert, hF.start, hF.stop, by simpa using hmem⟩ hF.whole
    hF.numerals ⟨h, by simpa using h⟩
  have hw : fileWords false inp (some inp) = [inp, inp] := rfl
  rw [← hw]
  refine this.trans ?_
  congr 1
  exact C84_inplace_violated fw ⟨f, X, g, x, false, F, false, inp, some inp⟩ files content hin rfl hne rfl rfl

/-- **C133** (statistics): with `-p`, the statistics of the events that pass are printed, and no file is changed. -/
theorem C133_statistics (fw : Nat) (hfw : 54 ≤ fw) (files : Files) (l l2 : List Setting) (hl : ∀ s ∈ l ++ l2, s.Ok tsSpec)
    (f g : Fmt) (X x : Bool) (F : FilterArgs) (hf : InFormat (l ++ l2) f X) (hg : OutFormat (l ++ l2) g x)
    (hF : FilterMeaning (l ++ l2) F) (hyes : Given (l ++ l2) "print") (hmem : ¬ Given (l ++ l2) "inmemory")
    (inp : Word) (out : Option Word) (h : PlainWord inp ∧ ∀ o ∈ out, PlainWord o)
    (raws : List (Nat × Nat)) (hv : ∀ r ∈ raws, Valid r) (hrep : Representable f raws)
    (hin : files inp = some (fileOf f X raws)) (hpat : ∀ pat, F.pattern = some pat → pat < 16)
    (hs : raws.Pairwise (fun x y => x.1 ≤ y.1)) (h53 : ∀ r ∈ raws, r.1 < 2 ^ 53) :
    ∃ r e, tsCli fw (cmdWords l ++ inp :: out.toList ++ cmdWords l2) files = .ran ⟨files, some r, e⟩ ∧
      Describes r (filtered F raws) := by
  have := C133_timestamps fw files l l2 hl false ⟨f, X, g, x, true, F, false, inp, out⟩
    ⟨hf.1, hg.1, hf.2, hg.2, by simpa using hyes, hF.pattern, hF.mask, hF.invert, hF.start, hF.stop, by simpa using hmem⟩ hF.whole
    hF.numerals h
  obtain ⟨r, h1, h2⟩ := C85_stream fw hfw ⟨f, X, g, x, true, F, false, inp, out⟩ files raws hv hrep hin rfl rfl hpat (fun _ => hs) (fun _ => h53)
  have hw : fileWords false inp out = inp :: out.toList := rfl
  rw [← hw]
  exact ⟨r, _, this.trans (congrArg CliOut.ran h1), h2⟩

theorem sizes_of {files : Files} {dirs : Word → EpochDir} {l : List Setting} {a : FpMainArgs} (ha : FpMeaning files dirs l a)
    (hn : GivenNumeral l "separation") : SizesNotZero l :=
  ⟨fun v hv h0 => ha.sizes.1 (Option.some.inj (ha.initialRes.2 v 0 hv h0)), fun x hx => by
    rw [Option.some.inj (floatSet_unique hn hx ha.separation)]
    exact ha.sizes.2⟩

/-- **C133** for `fpfind`: as above. -/
theorem C133_fpfind (env : NumEnv) (files : Files) (dirs : Word → EpochDir) (l : List Setting) (hne : l ≠ [])
    (hl : ∀ s ∈ l, s.Ok fpSpec) (hno : ∀ d ∈ ["help", "config", "save"], ¬ Given l d)
    (hw : ∀ d ∈ ["num_wraps", "buffer_order", "initial_res", "final_res", "output", "skip_epochs"], GivenDigits l d)
    (hn : ∀ d ∈ ["skip_duration", "separation", "threshold", "precomp_start", "precomp_step", "precomp_stop"], GivenNumeral l d)
    (hfiles : ∀ d ∈ ["reference", "target"], ∀ v, lastSet l d = some v → (files v).isSome = true)
    (a : FpMainArgs) (ha : FpMeaning files dirs l a) (fuel : Nat) :
    fpCli env fuel (cmdWords l) files dirs = .ran (fpMain env fuel a) := by
  obtain ⟨b, h1, hb⟩ := C132_fpfind env fuel files dirs l hne hl hno (fun d hd => hw d (by
    simp only [List.mem_cons, List.not_mem_nil, or_false] at hd ⊢
    tauto)) hfiles (sizes_of ha (hn _ (by simp)))
  rw [h1]
  have p1 := hb.sendfiles.trans ha.sendfiles.symm
  have p2 := hb.t1files.trans ha.t1files.symm
  have p3 := hb.reference.trans ha.reference.symm
  have p4 := hb.target.trans ha.target.symm
  have p5 := bool_iff hb.legacy ha.legacy
  have p6 := Option.some.inj (floatSet_unique (hn _ (by simp)) hb.skipDuration ha.skipDuration)
  have p7 := hb.firstEpoch.trans ha.firstEpoch.symm
  have p8 : b.skipEpochs = a.skipEpochs := by
    cases e : lastSet l "skip_epochs" with
    | none => rw [hb.skipEpochs.1 e, ha.skipEpochs.1 e]
    | some v =>
      obtain ⟨x, hx⟩ := hw "skip_epochs" (by simp) v e
      rw [hb.skipEpochs.2 v x e hx, ha.skipEpochs.2 v x e hx]
  have p9 := Option.some.inj (natSet_unique (hw _ (by simp)) hb.initialRes ha.initialRes)
  have p10 := Option.some.inj (natSet_unique (hw _ (by simp)) hb.bufferOrder ha.bufferOrder)
  have p11 := Option.some.inj (natSet_unique (hw _ (by simp)) hb.numWraps ha.numWraps)
  have p12 := Option.some.inj (floatSet_unique (hn _ (by simp)) hb.separation ha.separation)
  have p13 := Option.some.inj (natSet_unique (hw _ (by simp)) hb.finalRes ha.finalRes)
  have p14 := Option.some.inj (floatSet_unique (hn _ (by simp)) hb.threshold ha.threshold)
  have p15 := Option.some.inj (natSet_unique (hw _ (by simp)) hb.output ha.output)
  have p16 := bool_iff hb.precompEnable ha.precompEnable
  have p17 := Option.some.inj (floatSet_unique (hn _ (by simp)) hb.precompStart ha.precompStart)
  have p18 := Option.some.inj (floatSet_unique (hn _ (by simp)) hb.precompStep ha.precompStep)
  have p19 := Option.some.inj (floatSet_unique (hn _ (by simp)) hb.precompStop ha.precompStop)
  have p20 := bool_iff hb.precompOrdered ha.precompOrdered
  have p21 := bool_iff hb.precompFullscan ha.precompFullscan
  congr 2
  obtain ⟨⟨a1, a2, a3, a4, a5, a6, a7, a8, a9, a10, a11, a12⟩, a13, a14, a15, a16, a17, a18, a19, a20, a21⟩ := a
  obtain ⟨⟨b1, b2, b3, b4, b5, b6, b7, b8, b9, b10, b11, b12⟩, b13, b14, b15, b16, b17, b18, b19, b20, b21⟩ := b
  simp only at p1 p2 p3 p4 p5 p6 p7 p8 p9 p10 p11 p12 p13 p14 p15 p16 p17 p18 p19 p20 p21
  subst p1 p2 p3 p4 p5 p6 p7 p8 p9 p10 p11 p12 p13 p14 p15 p16 p17 p18 p19 p20 p21
  rfl

/-- **C133** (printed): what is proved about `fpfind` with given arguments holds for the call. -/
theorem C133_prints (env : NumEnv) (files : Files) (dirs : Word → EpochDir) (words : List Word) (a : FpMainArgs)
    (h : ∀ fuel, fpCli env fuel words files dirs = .ran (fpMain env fuel a)) (r : Except PyErr (Option (List Char))) :
    FpPrints env words files dirs r ↔ Returns (fun fuel => fpMain env fuel a) r := by
  unfold FpPrints Returns
  simp only [h, CliOut.ran.injEq]

/-- **C133** (whole chain): called on two recordings with coincidences, `fpfind` with `-V 7` prints one number, and `freqcd` called with
it after `-f` brings the times of the target to the reference clock (the bounds of C124). -/
theorem C133_pipeline (env : NumEnv) (henv : env.rnd = fl 53) (files : Files) (dirs : Word → EpochDir) (l : List Setting) (hne : l ≠ [])
    (hl : ∀ s ∈ l, s.Ok fpSpec) (hno : ∀ d ∈ ["help", "config", "save", "precomp_fullscan"], ¬ Given l d)
    (hw : ∀ d ∈ ["num_wraps", "buffer_order", "initial_res", "final_res", "output", "skip_epochs"], GivenDigits l d)
    (hn : ∀ d ∈ ["skip_duration", "separation", "threshold", "precomp_start", "precomp_step", "precomp_stop"], GivenNumeral l d)
    (hfiles : ∀ d ∈ ["reference", "target"], ∀ v, lastSet l d = some v → (files v).isSome = true)
    (hV : lastSet l "output" = some ['7']) (args : FpMainArgs) (ha : FpMeaning files dirs l args)
    (a b : List ℚ) (hin : Input env args a b) (pre post : List ℚ) (d : ℚ)
    (hp : precs env args = pre ++ d :: post) (hd : |fl 53 (1 + d) - 1| ≤ 1 / 2 ^ 9)
    (hpre : ∀ d' ∈ pre, Search env args a (precompensated env d' b) (.error .valueError))
    (j : Nat) (φ τ φ' τ' B E0 E1 η : ℚ) (δ : Nat → ℚ) (w : Nat → Nat) (L : Nat)
    (hφ : 1 + φ = (1 + φ') * fl 53 (1 + d)) (hτ : τ = τ' * fl 53 (1 + d))
    (C : ClearInput (searchParams env args a (precompensated env d b)) (precompensated env d b) args.initialRes j φ' τ' B E0 E1 η δ w L) :
    ∃ text n k, FpPrints env (cmdWords l) files dirs (.ok (some (text ++ ['\n']))) ∧ IntText text n ∧ k ≤ L ∧
      ∀ err : ℚ → ℚ, (∀ t, err t = pipelineError args (searchParams env args a (precompensated env d b)).sep B (δ k) k t) →
      (|φ| ≤ 1 / 2 ^ 14 → ∀ t, 0 < t → |targetClock φ' τ' t| ≤ B → |targetClock φ' τ' 0| ≤ B → err t + err 0 ≤ t / 2 ^ 15 → |n| < 2 ^ 21) ∧
      (|n| < 2 ^ 21 → ∀ (W : FWorld) (prog fin fout : Bytes) (legacy : Bool) (inp : Bytes), GoodName fin → GoodName fout → fin ≠ fout →
        W.files fin = some inp → W.writable fout = true → 8 ∣ inp.length → (times legacy inp).Pairwise (· ≤ ·) →
        ∀ (m : FMemory) (rounds : List Round), FMemory.Sized m → (∀ r ∈ rounds, FullRound r) → inp.length + 8192 ≤ 8192 * rounds.length →
        ∃ o out, Outcome W ([prog] ++ (if legacy then [[45, 120]] else []) ++ [[45, 105], fin, [45, 111], fout, [45, 102], textBytes text]) m rounds o ∧
          o.status = some 0 ∧ out = FOutcome.output o fout ∧ out.length = inp.length ∧ flags legacy out = flags legacy inp ∧
          ∀ (s q : ℚ) (i y T T0 : ℕ) (t t0 : ℚ), (times legacy out)[i]? = some y → (times legacy inp)[i]? = some T → (times legacy inp).head? = some T0 →
            0 ≤ t → 0 ≤ t0 → |targetClock φ' τ' t| ≤ B → |targetClock φ' τ' t0| ≤ B →
            |(T : ℚ) / 256 - s - targetClock φ τ t| ≤ q → |(T0 : ℚ) / 256 - s - targetClock φ τ t0| ≤ q →
            ∃ c : ℤ, (y : ℤ) = (T + c) % 2 ^ 54 ∧
              |((T : ℚ) + c - T0) / 256 - (t - t0)| < err t + err t0 + (2 + 1 / 2 ^ 6) * q +
                ((3 / 2 : ℚ) * rounds.length + |(T : ℚ) - T0| * (1 / 2 ^ 35 + 1 / 2 ^ 47)) / 256) := by
  have hout : args.output % 8 = 7 := by
    have := Option.some.inj (ha.output.2 _ 7 hV ⟨[7], by simp, by simp⟩)
    rw [this]
  have hfull : args.precompFullscan = false := by
    have := (not_congr ha.precompFullscan).mpr (hno _ (by simp))
    simpa using this
  obtain ⟨text, n, k, h1, h2⟩ := C124_recordings env henv args hfull hout a b hin pre post d hp hd hpre j φ τ φ' τ' B E0 E1 η δ w L hφ hτ C
  refine ⟨text, n, k, ?_, h2⟩
  rw [C133_prints env files dirs _ args]
  · exact h1
  · exact C133_fpfind env files dirs l hne hl (fun d hd => hno d (by
      simp only [List.mem_cons, List.not_mem_nil, or_false] at hd ⊢
      tauto)) hw hn hfiles args ha

/-! ## Instances -/

/-- The options of `-A2 -X -a 0 --tfilter-start=1.5 --pfilter-pattern 3`. -/
def shellSettings : List Setting :=
  [.letters [] ⟨["-A".toList], .value, "A", true, isFormat⟩ 'A' ['2'], .flag (argSwitch ["-X"] "X") ['-', 'X'],
    .pair (argStore ["-a"] "a" isFormat) ['-', 'a'] ['0'],
    .equals (argStore ["--tfilter-start"] "tfilter_start" isFloat) "--tfilter-start".toList "1.5".toList,
    .pair (argStore ["--pfilter-pattern"] "pfilter_pattern" isInt) "--pfilter-pattern".toList ['3']]

theorem denotes_15 : Denotes "1.5".toList (3 / 2) :=
  ⟨[], ['1'], ['5'], [], 15, 0, rfl, by simp, ⟨[1, 5], by simp, by norm_num [Nat.ofDigits]⟩, Or.inl ⟨rfl, rfl⟩, Or.inl ⟨rfl, by norm_num⟩⟩

theorem shell_sets : cmdSets shellSettings =
    [("A", [['2']]), ("X", []), ("a", [['0']]), ("tfilter_start", ["1.5".toList]), ("pfilter_pattern", [['3']])] := rfl

/-- `parse_timestamps -A2 -X -a 0 --tfilter-start=1.5 --pfilter-pattern 3 IN OUT` writes the events of the legacy text file from 1.5 s on
that have exactly the detectors 1 and 2. -/
theorem C133_convert_instance (fw : Nat) (hfw : 54 ≤ fw) (files : Files) (inp out : Word) (h : PlainWord inp ∧ PlainWord out)
    (hne : out ≠ []) (hdiff : inp ≠ out) (raws : List (Nat × Nat)) (hv : ∀ r ∈ raws, Valid r)
    (hs : raws.Pairwise (fun x y => x.1 ≤ y.1)) (h53 : ∀ r ∈ raws, r.1 < 2 ^ 53) (hin : files inp = some (fileOf .a2 true raws)) :
    tsCli fw ["-A2".toList, "-X".toList, "-a".toList, "0".toList, "--tfilter-start=1.5".toList, "--pfilter-pattern".toList, "3".toList, inp, out]
        files =
      .ran ⟨files.set out (fileOf .a0 false (raws.filter fun r => decide (384000000000 ≤ r.1) && decide (r.2 = 3))), none, none⟩ := by
  have given : ∀ d, Given shellSettings d ↔ ∃ x ∈ cmdSets shellSettings, x.1 = d := fun d => Iff.rfl
  have d3 : Digits ['3'] 3 := ⟨[3], by simp, by simp⟩
  have hfl : fl 53 (3 / 2) = 3 / 2 := by decide +kernel
  have hFM : FilterMeaning shellSettings ⟨some 3, false, false, some (3 / 2), none⟩ := by
    refine ⟨⟨fun e => ?_, fun v n e hv => ?_⟩, ?_, ?_, ⟨fun e => ?_, fun v n e hv => ?_⟩, ⟨fun e => rfl, fun v n e hv => ?_⟩, fun v e => ?_,
      fun v e => ?_, fun v e => ?_⟩
    · rw [lastSet, shell_sets] at e; simp at e
    · rw [lastSet, shell_sets] at e
      obtain rfl : ['3'] = v := by simpa using e
      have := digitsVal_spec d3
      rw [digitsVal_spec hv] at this
      simpa using this.symm
    · rw [given, shell_sets]; simp
    · rw [given, shell_sets]; simp
    · rw [lastSet, shell_sets] at e; simp at e
    · rw [lastSet, shell_sets] at e
      obtain rfl : "1.5".toList = v := by simpa using e
      have := decimalOf_spec denotes_15
      rw [decimalOf_spec hv] at this
      rw [Option.some.inj this, hfl]
    · rw [lastSet, shell_sets] at e; simp at e
    · rw [lastSet, shell_sets] at e
      obtain rfl : ['3'] = v := by simpa using e
      exact ⟨3, d3⟩
    · rw [lastSet, shell_sets] at e
      obtain rfl : "1.5".toList = v := by simpa using e
      exact ⟨_, denotes_15⟩
    · rw [lastSet, shell_sets] at e; simp at e
  have key := C133_convert fw hfw files shellSettings [] (by
      rw [List.append_nil]
      intro s hs
      simp only [shellSettings, List.mem_cons, List.not_mem_nil, or_false] at hs
      rcases hs with rfl | rfl | rfl | rfl | rfl
      · exact ⟨by simp, by simp [tsSpec], by decide, Or.inr ⟨rfl, by simp, by decide, by decide⟩⟩
      · exact ⟨by simp [tsSpec], by decide, rfl⟩
      · exact ⟨by simp [tsSpec], by decide, rfl, by decide, Or.inl (by decide)⟩
      · exact ⟨by simp [tsSpec], by decide, rfl, by decide⟩
      · exact ⟨by simp [tsSpec], by decide, rfl, by decide, Or.inl (by decide)⟩)
    .a2 .a0 true false ⟨some 3, false, false, some (3 / 2), none⟩
    (by
      rw [List.append_nil]
      exact ⟨⟨['2'], by rw [lastSet, shell_sets]; simp, Or.inr (Or.inr ⟨rfl, rfl⟩)⟩, by rw [given, shell_sets]; simp⟩)
    (by
      rw [List.append_nil]
      exact ⟨Or.inr ⟨['0'], by rw [lastSet, shell_sets]; simp, Or.inl ⟨rfl, rfl⟩⟩, by rw [given, shell_sets]; simp⟩)
    (by rw [List.append_nil]; exact hFM) (by rw [List.append_nil, given, shell_sets]; simp) inp out h hne (Or.inl hdiff) raws hv (Or.inl h53) hin
    (by simp) (fun _ => ⟨hs, h53⟩) (by rw [List.append_nil, given, shell_sets]; simp)
  refine Eq.trans ?_ (key.trans ?_)
  · rfl
  · have hfilt : filtered ⟨some 3, false, false, some (3 / 2), none⟩ raws = raws.filter fun r => decide (384000000000 ≤ r.1) && decide (r.2 = 3) := by
      have hb : bound .ps4 (3 / 2) = 384000000000 := by decide +kernel
      unfold filtered
      rw [List.filter_congr (q := fun r => decide (384000000000 ≤ r.1) && decide (r.2 = 3)) (fun r _ => ?_)]
      · rw [List.map_congr_left (g := id) (fun r hr => ?_), List.map_id]
        obtain ⟨-, h2⟩ := List.mem_filter.mp hr
        simp only [Bool.and_eq_true, decide_eq_true_eq] at h2
        simp only [leftBits, h2.2]
        refine Prod.ext rfl ?_
        show ofBits4 (patBit 3 false false 3) = r.2
        rw [h2.2]
        decide
      · simp only [passes, patKeep, InWindow, Option.some.injEq, forall_eq', reduceCtorEq, false_implies, implies_true, and_true, hb]
        rw [Bool.and_comm]
        congr 2
        exact propext ⟨fun h => by exact_mod_cast h, fun h => by exact_mod_cast h⟩
    rw [hfilt]

/-- The options of `-t A -T B -q6 -R 2 -s 7812.5 -Vv --precomp-step=0 --precomp-stop=0` for a digit `v`. -/
def shellFp (A B : Word) (v : Char) : List Setting :=
  [.pair (argStore ["-t", "--reference"] "reference" anyText) ['-', 't'] A, .pair (argStore ["-T", "--target"] "target" anyText) ['-', 'T'] B,
    .letters [] (argStore ["-q", "--buffer-order"] "buffer_order" isInt) 'q' ['6'],
    .pair (argStore ["-R", "--initial-res"] "initial_res" isInt) ['-', 'R'] ['2'],
    .pair (argStore ["-s", "--separation"] "separation" isFloat) ['-', 's'] "7812.5".toList,
    .letters [] (argStore ["-V", "--output"] "output" isOutput) 'V' [v],
    .equals (argStore ["--precomp-step"] "precomp_step" isFloat) "--precomp-step".toList ['0'],
    .equals (argStore ["--precomp-stop"] "precomp_stop" isFloat) "--precomp-stop".toList ['0']]

theorem shellFp_sets (A B : Word) (v : Char) : cmdSets (shellFp A B v) =
    [("reference", [A]), ("target", [B]), ("buffer_order", [['6']]), ("initial_res", [['2']]), ("separation", ["7812.5".toList]),
      ("output", [[v]]), ("precomp_step", [['0']]), ("precomp_stop", [['0']])] := rfl

theorem shellFp_none (A B : Word) (v : Char) (d : String) (hd : d ∉ ["reference", "target", "buffer_order", "initial_res", "separation", "output",
    "precomp_step", "precomp_stop"]) : lastSet (shellFp A B v) d = none ∧ ¬ Given (shellFp A B v) d := by
  simp only [List.mem_cons, List.not_mem_nil, or_false, not_or] at hd
  obtain ⟨h1, h2, h3, h4, h5, h6, h7, h8⟩ := hd
  constructor
  · rw [lastSet, shellFp_sets]
    simp [Ne.symm h1, Ne.symm h2, Ne.symm h3, Ne.symm h4, Ne.symm h5, Ne.symm h6, Ne.symm h7, Ne.symm h8]
  · show ¬ ∃ x ∈ cmdSets (shellFp A B v), x.1 = d
    rw [shellFp_sets]
    simp [Ne.symm h1, Ne.symm h2, Ne.symm h3, Ne.symm h4, Ne.symm h5, Ne.symm h6, Ne.symm h7, Ne.symm h8]

theorem natSet_of {l : List Setting} {d : String} {v : Word} {n : ℕ} {y : Option ℕ} (h : lastSet l d = some v) (hv : Digits v n) :
    NatSet l d y (some n) := by
  refine ⟨fun e => by simp [h] at e, fun w m e hw => ?_⟩
  rw [h] at e
  obtain rfl := Option.some.inj e
  have := digitsVal_spec hv
  rw [digitsVal_spec hw] at this
  simpa using this.symm

theorem floatSet_of {l : List Setting} {d : String} {v : Word} {x : ℚ} {y : Option ℚ} (h : lastSet l d = some v) (hv : Denotes v x)
    (hx : fl 53 x = x) : FloatSet l d y (some x) := by
  refine ⟨fun e => by simp [h] at e, fun w m e hw => ?_⟩
  rw [h] at e
  obtain rfl := Option.some.inj e
  have := decimalOf_spec hv
  rw [decimalOf_spec hw] at this
  rw [Option.some.inj this, hx]

theorem sizes_given {l : List Setting} {v w : Word} {n : ℕ} {x : ℚ} (hR : lastSet l "initial_res" = some v) (hv : Digits v n) (hn : n ≠ 0)
    (hs : lastSet l "separation" = some w) (hw : Denotes w x) (hx : fl 53 x ≠ 0) : SizesNotZero l := by
  constructor
  · intro u hu h0
    rw [hR] at hu
    obtain rfl := Option.some.inj hu
    have := digitsVal_spec hv
    rw [digitsVal_spec h0] at this
    exact hn (by simpa using this.symm)
  · intro y hy
    rw [Option.some.inj (hy.2 w x hs hw)]
    exact hx

theorem digit_digits (c : Char) (n : ℕ) (h : "0123456789".toList[n]? = some c) : Digits [c] n :=
  ⟨[n], by simpa using h, by simp⟩

theorem denotes_sep : Denotes "7812.5".toList (15625 / 2) :=
  ⟨[], "7812".toList, ['5'], [], 78125, 0, rfl, by decide, ⟨[7, 8, 1, 2, 5], by simp, by norm_num [Nat.ofDigits]⟩, Or.inl ⟨rfl, rfl⟩,
    Or.inl ⟨rfl, by norm_num⟩⟩

theorem denotes_zero : Denotes ['0'] 0 :=
  ⟨[], ['0'], [], [], 0, 0, rfl, by decide, ⟨[0], by simp, by norm_num [Nat.ofDigits]⟩, Or.inl ⟨rfl, rfl⟩, Or.inl ⟨rfl, by norm_num⟩⟩

theorem shellFp_call (files : Files) (A B : Word) (hA : PlainWord A) (hB : PlainWord B)
    (h1 : files A = printArgs.reference) (h2 : files B = printArgs.target) (v : Char) (k : ℕ) (hv : "0123456789".toList[k]? = some v)
    (hok : isOutput [v] = true) : FpCall files (shellFp A B v) := by
  have z : fl 53 0 = 0 := by decide +kernel
  have some_of : ∀ d u, ((cmdSets (shellFp A B v)).reverse.find? fun x => x.1 = d).bind (fun x => x.2.head?) = some u →
      lastSet (shellFp A B v) d = some u := fun d u h => h
  have lq : lastSet (shellFp A B v) "buffer_order" = some ['6'] := some_of _ _ (by rw [shellFp_sets]; simp)
  have lR : lastSet (shellFp A B v) "initial_res" = some ['2'] := some_of _ _ (by rw [shellFp_sets]; simp)
  have ls : lastSet (shellFp A B v) "separation" = some "7812.5".toList := some_of _ _ (by rw [shellFp_sets]; simp)
  have lV : lastSet (shellFp A B v) "output" = some [v] := some_of _ _ (by rw [shellFp_sets]; simp)
  have l1 : lastSet (shellFp A B v) "precomp_step" = some ['0'] := some_of _ _ (by rw [shellFp_sets]; simp)
  have l2 : lastSet (shellFp A B v) "precomp_stop" = some ['0'] := some_of _ _ (by rw [shellFp_sets]; simp)
  have lt : lastSet (shellFp A B v) "reference" = some A := some_of _ _ (by rw [shellFp_sets]; simp)
  have lT : lastSet (shellFp A B v) "target" = some B := some_of _ _ (by rw [shellFp_sets]; simp)
  have no := fun d hd => (shellFp_none A B v d hd).1
  have noG := fun d hd => (shellFp_none A B v d hd).2
  refine ⟨by simp [shellFp], ?_, ?_, ?_, ?_, ?_,
    sizes_given lR (digit_digits '2' 2 (by decide)) (by norm_num) ls denotes_sep (by decide +kernel)⟩
  · intro s hs
    simp only [shellFp, List.mem_cons, List.not_mem_nil, or_false] at hs
    rcases hs with rfl | rfl | rfl | rfl | rfl | rfl | rfl | rfl
    · exact ⟨by simp [fpSpec], by decide, rfl, rfl, hA⟩
    · exact ⟨by simp [fpSpec], by decide, rfl, rfl, hB⟩
    · exact ⟨by simp, by simp [fpSpec], by decide, Or.inr ⟨rfl, by simp, by decide, by decide⟩⟩
    · exact ⟨by simp [fpSpec], by decide, rfl, by decide, Or.inl (by decide)⟩
    · exact ⟨by simp [fpSpec], by decide, rfl, by decide, Or.inl (by decide)⟩
    · refine ⟨by simp, by simp [fpSpec], by decide, Or.inr ⟨rfl, by simp, ?_, hok⟩⟩
      simp only [List.head?_cons, ne_eq, Option.some.injEq]
      rintro rfl
      exact absurd hok (by decide)
    · exact ⟨by simp [fpSpec], by decide, rfl, by decide⟩
    · exact ⟨by simp [fpSpec], by decide, rfl, by decide⟩
  · intro d hd
    refine noG d ?_
    simp only [List.mem_cons, List.not_mem_nil, or_false] at hd
    rcases hd with rfl | rfl | rfl <;> decide
  · intro d hd u hu
    simp only [List.mem_cons, List.not_mem_nil, or_false] at hd
    rcases hd with rfl | rfl | rfl | rfl | rfl | rfl
    · rw [no _ (by decide)] at hu; simp at hu
    · rw [lq] at hu; obtain rfl := Option.some.inj hu; exact ⟨6, digit_digits _ _ (by decide)⟩
    · rw [lR] at hu; obtain rfl := Option.some.inj hu; exact ⟨2, digit_digits _ _ (by decide)⟩
    · rw [no _ (by decide)] at hu; simp at hu
    · rw [lV] at hu; obtain rfl := Option.some.inj hu; exact ⟨k, digit_digits _ _ hv⟩
    · rw [no _ (by decide)] at hu; simp at hu
  · intro d hd u hu
    simp only [List.mem_cons, List.not_mem_nil, or_false] at hd
    rcases hd with rfl | rfl | rfl | rfl | rfl | rfl
    · rw [no _ (by decide)] at hu; simp at hu
    · rw [ls] at hu; obtain rfl := Option.some.inj hu; exact ⟨_, denotes_sep⟩
    · rw [no _ (by decide)] at hu; simp at hu
    · rw [no _ (by decide)] at hu; simp at hu
    · rw [l1] at hu; obtain rfl := Option.some.inj hu; exact ⟨_, denotes_zero⟩
    · rw [l2] at hu; obtain rfl := Option.some.inj hu; exact ⟨_, denotes_zero⟩
  · intro d hd u hu
    simp only [List.mem_cons, List.not_mem_nil, or_false] at hd
    rcases hd with rfl | rfl
    · rw [lt] at hu; obtain rfl := Option.some.inj hu; rw [h1]; rfl
    · rw [lT] at hu; obtain rfl := Option.some.inj hu; rw [h2]; rfl

theorem shellFp_meaning (files : Files) (dirs : Word → EpochDir) (A B : Word)
    (h1 : files A = printArgs.reference) (h2 : files B = printArgs.target) (v : Char) (k : ℕ) (hv : "0123456789".toList[k]? = some v) :
    FpMeaning files dirs (shellFp A B v) { printArgs with output := k } := by
  have z : fl 53 0 = 0 := by decide +kernel
  have some_of : ∀ d u, ((cmdSets (shellFp A B v)).reverse.find? fun x => x.1 = d).bind (fun x => x.2.head?) = some u →
      lastSet (shellFp A B v) d = some u := fun d u h => h
  have lq : lastSet (shellFp A B v) "buffer_order" = some ['6'] := some_of _ _ (by rw [shellFp_sets]; simp)
  have lR : lastSet (shellFp A B v) "initial_res" = some ['2'] := some_of _ _ (by rw [shellFp_sets]; simp)
  have ls : lastSet (shellFp A B v) "separation" = some "7812.5".toList := some_of _ _ (by rw [shellFp_sets]; simp)
  have lV : lastSet (shellFp A B v) "output" = some [v] := some_of _ _ (by rw [shellFp_sets]; simp)
  have l1 : lastSet (shellFp A B v) "precomp_step" = some ['0'] := some_of _ _ (by rw [shellFp_sets]; simp)
  have l2 : lastSet (shellFp A B v) "precomp_stop" = some ['0'] := some_of _ _ (by rw [shellFp_sets]; simp)
  have lt : lastSet (shellFp A B v) "reference" = some A := some_of _ _ (by rw [shellFp_sets]; simp)
  have lT : lastSet (shellFp A B v) "target" = some B := some_of _ _ (by rw [shellFp_sets]; simp)
  have no := fun d hd => (shellFp_none A B v d hd).1
  have noG := fun d hd => (shellFp_none A B v d hd).2
  have flag : ∀ d, d ∉ ["reference", "target", "buffer_order", "initial_res", "separation", "output", "precomp_step", "precomp_stop"] →
      (false = true ↔ Given (shellFp A B v) d) := fun d hd => by simpa using noG d hd
  have def_ : ∀ d (y : Option ℚ), d ∉ ["reference", "target", "buffer_order", "initial_res", "separation", "output", "precomp_step",
      "precomp_stop"] → FloatSet (shellFp A B v) d y y := fun d y hd => ⟨fun _ => rfl, fun v x e => by rw [no d hd] at e; simp at e⟩
  have defN : ∀ d (y : Option ℕ), d ∉ ["reference", "target", "buffer_order", "initial_res", "separation", "output", "precomp_step",
      "precomp_stop"] → NatSet (shellFp A B v) d y y := fun d y hd => ⟨fun _ => rfl, fun v x e => by rw [no d hd] at e; simp at e⟩
  exact {
    sendfiles := by rw [no _ (by decide)]; rfl
    t1files := by rw [no _ (by decide)]; rfl
    reference := by rw [lt]; exact h1.symm
    target := by rw [lT]; exact h2.symm
    legacy := flag _ (by decide)
    skipDuration := def_ _ _ (by decide)
    firstEpoch := by rw [no _ (by decide)]; rfl
    skipEpochs := ⟨fun _ => rfl, fun v x e => by rw [no _ (by decide)] at e; simp at e⟩
    initialRes := natSet_of lR (digit_digits '2' 2 (by decide))
    bufferOrder := natSet_of lq (digit_digits '6' 6 (by decide))
    numWraps := defN _ _ (by decide)
    separation := floatSet_of ls denotes_sep (show fl 53 (15625 / 2) = 15625 / 2 by decide +kernel)
    finalRes := defN _ _ (by decide)
    threshold := def_ _ _ (by decide)
    output := natSet_of lV (digit_digits _ _ hv)
    precompEnable := flag _ (by decide)
    precompStart := def_ _ _ (by decide)
    precompStep := floatSet_of l1 denotes_zero z
    precompStop := floatSet_of l2 denotes_zero z
    precompOrdered := flag _ (by decide)
    precompFullscan := flag _ (by decide)
    sizes := show printArgs.initialRes ≠ 0 ∧ printArgs.separation ≠ 0 by decide +kernel }


/-- The call of the example of C124. -/
theorem shellFp_runs (files : Files) (dirs : Word → EpochDir) (A B : Word) (hA : PlainWord A) (hB : PlainWord B)
    (h1 : files A = printArgs.reference) (h2 : files B = printArgs.target) (fuel : Nat) :
    fpCli printEnv fuel (cmdWords (shellFp A B '7')) files dirs = .ran (fpMain printEnv fuel pipeArgs) := by
  have hc := shellFp_call files A B hA hB h1 h2 '7' 7 (by decide) (by decide)
  exact C133_fpfind printEnv files dirs _ hc.some_ hc.ok hc.inside hc.digits hc.numerals hc.files _
    (shellFp_meaning files dirs A B h1 h2 '7' 7 (by decide)) fuel

/-- The example of C124 from the shell: `fpfind -t A -T B -q6 -R 2 -s 7812.5 -V7 --precomp-step=0 --precomp-stop=0` prints a number, and
`freqcd -i a -o b -f` with this number brings the recording of the target, whose clock is fast by 10^-5, to the reference clock up to
11 ns. -/
theorem C133_pipeline_instance (files : Files) (dirs : Word → EpochDir) (A B : Word) (hA : PlainWord A) (hB : PlainWord B)
    (h1 : files A = printArgs.reference) (h2 : files B = printArgs.target) :
    ∃ text n, FpPrints printEnv ["-t".toList, A, "-T".toList, B, "-q6".toList, "-R".toList, "2".toList, "-s".toList, "7812.5".toList,
        "-V7".toList, "--precomp-step=0".toList, "--precomp-stop=0".toList] files dirs (.ok (some (text ++ ['\n']))) ∧ IntText text n ∧
    ∃ o, Outcome ⟨fun v => if v = [97] then some pipeFile else none, fun _ => true, []⟩
        [[], [45, 105], [97], [45, 111], [98], [45, 102], textBytes text]
        ⟨List.replicate 8192 0, List.replicate 8192 0, List.replicate 100 0, 7, 9⟩ [rd 8192, rd 8192] o ∧ o.status = some 0 ∧
      ∀ (i y T T0 : ℕ) (t t0 : ℚ), (times false (FOutcome.output o [98]))[i]? = some y → (times false pipeFile)[i]? = some T →
        (times false pipeFile).head? = some T0 → 0 ≤ t → t ≤ 1000100 → 0 ≤ t0 → t0 ≤ 1000100 →
        |(T : ℚ) / 256 - targetClock (1 / 100000) 3 t| ≤ 1 / 5 → |(T0 : ℚ) / 256 - targetClock (1 / 100000) 3 t0| ≤ 1 / 5 →
        ∃ c : ℤ, (y : ℤ) = (T + c) % 2 ^ 54 ∧ |((T : ℚ) + c - T0) / 256 - (t - t0)| < 11 := by
  obtain ⟨text, n, p1, p2, p3⟩ := pipe_instance
  refine ⟨text, n, ?_, p2, p3⟩
  refine (C133_prints printEnv files dirs _ pipeArgs (fun fuel => ?_) _).mpr p1
  rw [← shellFp_runs files dirs A B hA hB h1 h2 fuel]
  rfl

end Fp
