import Verif.Props.PlotCli
import Verif.Props.ConvertRun
import Verif.Spec.PlotSame

/-! # C143: what the picture of `fpplot` does not depend on -/
namespace Fp
open Spec

theorem floatSet_exists {l : List Setting} {d : String} (h : GivenNumeral l d) (y : Option ℚ) : ∃ z, FloatSet l d y z ∧ (y.isSome → z.isSome) := by
  cases e : lastSet l d with
  | none => exact ⟨y, ⟨fun _ => rfl, fun v x e' => by rw [e] at e'; simp at e'⟩, id⟩
  | some v =>
    obtain ⟨x, hx⟩ := h v e
    refine ⟨some (fl 53 x), ⟨fun e' => by rw [e] at e'; simp at e', fun w z e' hz => ?_⟩, fun _ => rfl⟩
    rw [e] at e'
    obtain rfl := Option.some.inj e'
    have := decimalOf_spec hx
    rw [decimalOf_spec hz] at this
    rw [Option.some.inj this]

theorem floatSet_some {l : List Setting} {d : String} (h : GivenNumeral l d) (y : ℚ) : ∃ z, FloatSet l d (some y) (some z) := by
  obtain ⟨z, h1, h2⟩ := floatSet_exists h (some y)
  obtain ⟨w, rfl⟩ := Option.isSome_iff_exists.mp (h2 rfl)
  exact ⟨w, h1⟩

theorem intSet_exists {l : List Setting} {d : String} (h : GivenDigits l d) (y : ℤ) :
    ∃ z : ℤ, (lastSet l d = none → z = y) ∧ ∀ v n, lastSet l d = some v → Digits v n → z = n := by
  cases e : lastSet l d with
  | none => exact ⟨y, fun _ => rfl, fun v n e' => by simp at e'⟩
  | some v =>
    obtain ⟨x, hx⟩ := h v e
    refine ⟨x, fun e' => by simp at e', fun w n e' hn => ?_⟩
    obtain rfl := Option.some.inj e'
    have := digitsVal_spec hx
    rw [digitsVal_spec hn] at this
    exact_mod_cast (Option.some.inj this).symm

/-- What is shown for given times. -/
def shownTimes (rnd rndA : ℚ → ℚ) (freq time : ℚ) (dur : Option ℚ) (T : Except PyErr (List (List ℚ))) :
    Option (Except PyErr (Option (List ℚ × List ℚ))) :=
  (some ((T.bind (plotSlice rnd rndA dur)).map some)).map fun r => r.map fun o => o.bind fun T => match T with
    | [alice, bob] => some (alice, bob.map (plotCorrect rnd rndA freq time))
    | _ => none

theorem plot_on (rnd rndA : ℚ → ℚ) (fuel : Nat) (files : Files) (dirs : Word → EpochDir) {l : List Setting} {a b : List (Nat × Nat)}
    (h : PlotOn files l a b) {skip freq time : ℚ} {dur : Option ℚ} (h1 : FloatSet l "skip_duration" (some 0) (some skip))
    (h2 : FloatSet l "freq" (some 0) (some freq)) (h3 : FloatSet l "time" (some 0) (some time)) (h4 : FloatSet l "duration" none dur) :
    plotCli rnd rndA fuel (cmdWords l) files dirs =
      .ran (shownTimes rnd rndA freq time dur (normalizeTimestampsR rnd rndA [nsTimes a, nsTimes b] skip true)) := by
  obtain ⟨n, hn⟩ := intSet_exists (h.call.digits "num_epochs" (by decide)) 1
  obtain ⟨z, hz⟩ := intSet_exists (h.call.digits "skip_epochs" (by decide)) 0
  obtain ⟨A, B, x, k1, k2, k3, k4, k5⟩ := h.files
  have hm : PlotMeaning files dirs l ⟨none, none, some (fileOf .a1 x a), some (fileOf .a1 x b), x, skip, lastSet l "first_epoch", n, z, freq, time, dur⟩ :=
    { sendfiles := by rw [h.nodirs.1]; rfl
      t1files := by rw [h.nodirs.2]; rfl
      reference := by rw [k1, Option.bind_some, k4]
      target := by rw [k2, Option.bind_some, k5]
      legacy := k3
      skipDuration := h1
      firstEpoch := rfl
      numEpochs := hn
      skipEpochs := hz
      freq := h2
      time := h3
      duration := h4 }
  rw [C138_options rnd rndA files dirs l h.call _ hm fuel]
  have e : ∀ l : List (Nat × Nat), (l.map fun r => (readValue .ns1 true r.1, r.2)).map (·.1.val) = nsTimes l := by
    intro l
    rw [List.map_map]
    refine List.map_congr_left fun r _ => ?_
    simp [readValue, timeIn, Num.val, Tsres.value]
  have ra : readA1 64 x .ns1 true (fileOf .a1 x a) = .ok (a.map fun r => (readValue .ns1 true r.1, r.2)) :=
    C03_modes_exact 64 (by norm_num) x .ns1 true a fun e he => h.valid e (by simp [he])
  have rb : readA1 64 x .ns1 true (fileOf .a1 x b) = .ok (b.map fun r => (readValue .ns1 true r.1, r.2)) :=
    C03_modes_exact 64 (by norm_num) x .ns1 true b fun e he => h.valid e (by simp [he])
  unfold plotArrays plotInput plotLoad
  simp only [ra, rb, e]
  rfl

/-- The core: both calls normalise to the same arrays. -/
theorem plot_same (rnd rndA : ℚ → ℚ) (fuel : Nat) (files files' : Files) (dirs dirs' : Word → EpochDir) {l l' : List Setting}
    {a b a' b' : List (Nat × Nat)} (h : PlotOn files l a b) (h' : PlotOn files' l' a' b')
    (hsame : SameApart ["reference", "target", "legacy"] l l')
    (hT : ∀ skip, FloatSet l "skip_duration" (some 0) (some skip) → normalizeTimestampsR rnd rndA [nsTimes a, nsTimes b] skip true =
      normalizeTimestampsR rnd rndA [nsTimes a', nsTimes b'] skip true) :
    plotCli rnd rndA fuel (cmdWords l) files dirs = plotCli rnd rndA fuel (cmdWords l') files' dirs' := by
  obtain ⟨skip, h1⟩ := floatSet_some (h.call.numerals "skip_duration" (by decide)) 0
  obtain ⟨freq, h2⟩ := floatSet_some (h.call.numerals "freq" (by decide)) 0
  obtain ⟨time, h3⟩ := floatSet_some (h.call.numerals "time" (by decide)) 0
  obtain ⟨dur, h4, -⟩ := floatSet_exists (h.call.numerals "duration" (by decide)) none
  rw [plot_on rnd rndA fuel files dirs h h1 h2 h3 h4, plot_on rnd rndA fuel files' dirs' h' (floatSet_same (hsame _ (by decide)).1 h1)
    (floatSet_same (hsame _ (by decide)).1 h2) (floatSet_same (hsame _ (by decide)).1 h3) (floatSet_same (hsame _ (by decide)).1 h4), hT skip h1]

theorem nsTimes_same {l l' : List (Nat × Nat)} (h : l.map Prod.fst = l'.map Prod.fst) : nsTimes l = nsTimes l' := by
  have : ∀ l : List (Nat × Nat), nsTimes l = (l.map Prod.fst).map fun t : ℕ => (t : ℚ) / 256 := by
    intro l
    unfold nsTimes
    rw [List.map_map]
    rfl
  rw [this, this, h]

/-- **C143** `fpplot` shows the same for timestamp files with the same times: names, word order (as told with `-X`) and detectors do not
matter, nor does the order of the options. -/
theorem C143_times (rnd rndA : ℚ → ℚ) (fuel : Nat) (files files' : Files) (dirs dirs' : Word → EpochDir) (l l' : List Setting)
    (a b a' b' : List (Nat × Nat)) (h : PlotOn files l a b) (h' : PlotOn files' l' a' b') (hsame : SameApart ["reference", "target", "legacy"] l l')
    (ea : a.map Prod.fst = a'.map Prod.fst) (eb : b.map Prod.fst = b'.map Prod.fst) :
    plotCli rnd rndA fuel (cmdWords l) files dirs = plotCli rnd rndA fuel (cmdWords l') files' dirs' :=
  plot_same rnd rndA fuel files files' dirs dirs' h h' hsame fun _ _ => by rw [nsTimes_same ea, nsTimes_same eb]

/-- **C143** Nor does it matter when the recordings were made: `fpplot` shows the same if all times of both files are later by the same
amount (for skipped durations of whole nanoseconds). -/
theorem C143_shift (fuel : Nat) (files files' : Files) (dirs dirs' : Word → EpochDir) (l l' : List Setting)
    (a b a' b' : List (Nat × Nat)) (h : PlotOn files l a b) (h' : PlotOn files' l' a' b') (hsame : SameApart ["reference", "target", "legacy"] l l')
    (c : ℤ) (ea : a'.map (fun e => (e.1 : ℤ)) = a.map fun e => (e.1 : ℤ) + c) (eb : b'.map (fun e => (e.1 : ℤ)) = b.map fun e => (e.1 : ℤ) + c)
    (k : ℤ) (hk : SkipsNs l k) (hkb : |k| < 2 ^ 52) :
    plotCli (fl 53) (fl 64) fuel (cmdWords l) files dirs = plotCli (fl 53) (fl 64) fuel (cmdWords l') files' dirs' :=
  plot_same _ _ fuel files files' dirs dirs' h h' hsame fun skip hs =>
    (normalize_shifted a b a' b' c (fun e he => h.valid e (by simp [he])) (fun e he => h.valid e (by simp [he])) (fun e he => h'.valid e (by simp [he]))
      (fun e he => h'.valid e (by simp [he])) ea eb skip k (hk skip hs) hkb).symm

/-- **C143** Events of one recording before the first event of the other one are not shown: they can be left out, as long as the recording
has started by then. -/
theorem C143_early (fuel : Nat) (files files' : Files) (dirs dirs' : Word → EpochDir) (l l' : List Setting) (p a b : List (Nat × Nat))
    (e f : Nat × Nat) (hp : ∀ x ∈ p, x.1 < f.1) (hef : e.1 ≤ f.1) (k : ℤ) (hk : SkipsNs l k) (hk0 : 0 ≤ k) (hkb : k < 2 ^ 52)
    (hsame : SameApart ["reference", "target", "legacy"] l l') :
    (PlotOn files l (p ++ e :: a) (f :: b) → PlotOn files' l' (e :: a) (f :: b) →
      plotCli (fl 53) (fl 64) fuel (cmdWords l) files dirs = plotCli (fl 53) (fl 64) fuel (cmdWords l') files' dirs') ∧
    (PlotOn files l (f :: b) (p ++ e :: a) → PlotOn files' l' (f :: b) (e :: a) →
      plotCli (fl 53) (fl 64) fuel (cmdWords l) files dirs = plotCli (fl 53) (fl 64) fuel (cmdWords l') files' dirs') := by
  constructor
  · intro h h'
    exact plot_same _ _ fuel files files' dirs dirs' h h' hsame fun skip hs =>
      early_reference p a b e f (fun x hx => ⟨h.valid x (by simp [hx]), hp x hx⟩) (fun x hx => h'.valid x (by simp at hx ⊢; tauto))
        (fun x hx => h'.valid x (by simp at hx ⊢; tauto)) hef skip k (hk skip hs) hk0 hkb
  · intro h h'
    exact plot_same _ _ fuel files files' dirs dirs' h h' hsame fun skip hs =>
      early_target p a b e f (fun x hx => ⟨h.valid x (by simp [hx]), hp x hx⟩) (fun x hx => h'.valid x (by simp at hx ⊢; tauto))
        (fun x hx => h'.valid x (by simp at hx ⊢; tauto)) hef skip k (hk skip hs) hk0 hkb

/-- **C143** `parse_timestamps` of two recordings of any formats to timestamp files, perhaps with filters, and then `fpplot` on the results:
it shows what it shows for any timestamp files with the times of the events that pass the filters. -/
theorem C143_converted (fw : Nat) (hfw : 54 ≤ fw) (rnd rndA : ℚ → ℚ) (fuel : Nat) (files files' : Files) (dirs dirs' : Word → EpochDir)
    (lA lA' lB lB' l l' : List Setting) (f g : Fmt) (X Y x : Bool) (F G : FilterArgs) (A A1 B B1 : Word)
    (hA : ConvertCall lA lA' f X .a1 x F A A1) (hB : ConvertCall lB lB' g Y .a1 x G B B1) (hdiff : B ≠ A1 ∧ A1 ≠ B1)
    (ra rb : List (Nat × Nat)) (hra : Convertible f F ra) (hrb : Convertible g G rb)
    (fA : files A = some (fileOf f X ra)) (fB : files B = some (fileOf g Y rb)) :
    ∃ files1 files2, tsCli fw (convertWords lA lA' A A1) files = .ran ⟨files1, none, none⟩ ∧
      tsCli fw (convertWords lB lB' B B1) files1 = .ran ⟨files2, none, none⟩ ∧
      ((∀ d ∈ ["sendfiles", "t1files"], lastSet l d = none) → PlotCall files2 l → lastSet l "reference" = some A1 → lastSet l "target" = some B1 →
        (x = true ↔ Given l "legacy") → ∀ a b, PlotOn files' l' a b → SameApart ["reference", "target", "legacy"] l l' →
        a.map Prod.fst = (filtered F ra).map Prod.fst → b.map Prod.fst = (filtered G rb).map Prod.fst →
        plotCli rnd rndA fuel (cmdWords l) files2 dirs = plotCli rnd rndA fuel (cmdWords l') files' dirs') := by
  have e2 : (files.set A1 (fileOf .a1 x (filtered F ra))) B = some (fileOf g Y rb) := by
    unfold Files.set
    rw [if_neg hdiff.1, fB]
  refine ⟨_, _, convert_call fw hfw files hA ra hra fA, convert_call fw hfw _ hB rb hrb e2, ?_⟩
  intro hd hl n1 n2 hx a b hab hsame ea eb
  refine C143_times rnd rndA fuel _ files' dirs dirs' l l' (filtered F ra) (filtered G rb) a b
    ⟨hl, ⟨A1, B1, x, n1, n2, hx, ?_, ?_⟩, ⟨hd "sendfiles" (by simp), hd "t1files" (by simp)⟩, ?_⟩ hab hsame ea.symm eb.symm
  · unfold Files.set
    rw [if_neg hdiff.2, if_pos rfl]
  · unfold Files.set
    rw [if_pos rfl]
  · intro e he
    rcases List.mem_append.mp he with he | he
    · exact filtered_valid F ra hra.1 e he
    · exact filtered_valid G rb hrb.1 e he

/-! ## Instance -/

theorem plotSettings_on (files : Files) (A B w u : Word) (hA : PlainWord A) (hB : PlainWord B) (a b : List (Nat × Nat))
    (h1 : files A = some (fileOf .a1 false a)) (h2 : files B = some (fileOf .a1 false b)) (hv : ∀ e ∈ a ++ b, Valid e) (r y : ℚ)
    (hw : Denotes w r) (hu : Denotes u y) : PlotOn files (plotSettings A B w u) a b := by
  refine ⟨plotSettings_call files A B w u hA hB (by rw [h1]; rfl) (by rw [h2]; rfl) r y hw hu, ⟨A, B, false, ?_, ?_, ?_, h1, h2⟩, ⟨?_, ?_⟩, hv⟩
  · rw [lastSet, plotSettings_sets]; simp
  · rw [lastSet, plotSettings_sets]; simp
  · simpa using (plotSettings_none A B w u "legacy" (by decide)).2
  · exact (plotSettings_none A B w u _ (by decide)).1
  · exact (plotSettings_none A B w u _ (by decide)).1

/-- `fpplot -t A -T B --freq=F --time=T` shows the same as `fpplot -t C -T D --freq=F --time=T`, if the files C and D hold the events of A and B
one hour later, all at the first detector. -/
theorem C143_instance (fuel : Nat) (files : Files) (dirs : Word → EpochDir) (A B C D w u : Word)
    (hw : ∀ v ∈ [A, B, C, D], PlainWord v) (a b : List (Nat × Nat)) (hv : ∀ e ∈ a ++ b, e.1 < 2 ^ 53 ∧ e.2 < 16)
    (h1 : files A = some (fileOf .a1 false a)) (h2 : files B = some (fileOf .a1 false b))
    (h3 : files C = some (fileOf .a1 false (a.map fun e => (e.1 + 900000000000000, 1))))
    (h4 : files D = some (fileOf .a1 false (b.map fun e => (e.1 + 900000000000000, 1)))) (r y : ℚ) (hr : Denotes w r) (hy : Denotes u y) :
    plotCli (fl 53) (fl 64) fuel ["-t".toList, A, "-T".toList, B, "--freq=".toList ++ w, "--time=".toList ++ u] files dirs =
      plotCli (fl 53) (fl 64) fuel ["-t".toList, C, "-T".toList, D, "--freq=".toList ++ w, "--time=".toList ++ u] files dirs := by
  have v1 : ∀ e ∈ a ++ b, Valid e := fun e he => ⟨(hv e he).1.trans (by norm_num), (hv e he).2⟩
  have v2 : ∀ e ∈ (a.map fun e => (e.1 + 900000000000000, 1)) ++ b.map fun e => (e.1 + 900000000000000, 1), Valid e := by
    intro e he
    rw [← List.map_append] at he
    obtain ⟨e0, h0, rfl⟩ := List.mem_map.mp he
    have := (hv e0 h0).1
    refine ⟨?_, by norm_num⟩
    show e0.1 + 900000000000000 < 2 ^ 54
    omega
  have key := C143_shift fuel files files dirs dirs (plotSettings A B w u) (plotSettings C D w u) a b _ _
    (plotSettings_on files A B w u (hw A (by simp)) (hw B (by simp)) a b h1 h2 v1 r y hr hy)
    (plotSettings_on files C D w u (hw C (by simp)) (hw D (by simp)) _ _ h3 h4 v2 r y hr hy) (by
      intro d hd
      simp only [List.mem_cons, List.not_mem_nil, or_false, not_or] at hd
      constructor
      · rw [lastSet, lastSet, plotSettings_sets, plotSettings_sets]
        simp only [List.reverse_cons, List.reverse_nil, List.nil_append, List.cons_append, List.find?_cons]
        by_cases k1 : "time" = d
        · simp [k1]
        · by_cases k2 : "freq" = d
          · simp [k1, k2]
          · simp [k1, k2, Ne.symm hd.1, Ne.symm hd.2.1]
      · show (∃ x ∈ cmdSets (plotSettings A B w u), x.1 = d) ↔ ∃ x ∈ cmdSets (plotSettings C D w u), x.1 = d
        rw [plotSettings_sets, plotSettings_sets]
        simp)
    900000000000000 (by simp) (by simp) 0 (by
      intro x hx
      have := hx.1 (plotSettings_none A B w u _ (by decide)).1
      rw [Option.some.inj this]
      norm_num) (by norm_num)
  exact key

end Fp
