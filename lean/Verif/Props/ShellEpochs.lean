import Verif.Props.Shell
import Verif.Props.EpochRaw
import Verif.Spec.ShellEpochs

/-! # C135: directories of epochs and timestamp files on the command line -/
namespace Fp
open Spec

/-- The files of a stream can be read. -/
theorem streamDir_ok {d : EpochDir} {isT1 : Bool} {evs : List (Nat × Nat)} {vs : List Nat} (h : StreamDir d isT1 evs vs)
    (hp : ∀ x ∈ evs, x.2 < 16) (hz : isT1 = true → ∀ x ∈ evs, ¬ (x.1 % 2 ^ 54 = 0 ∧ x.2 = 0)) (hlen : evs.length < 2 ^ 32) :
    EpochDirOk d isT1 vs := by
  refine ⟨h.1, fun v => ⟨fun hv => ?_, fun hv => (h.2.1 v hv).2⟩, fun name file hf => ?_⟩
  · obtain ⟨file, hf⟩ := Option.ne_none_iff_exists'.mp hv
    obtain ⟨w, hw, e, -⟩ := h.2.2 _ _ hf
    rw [C23_names_distinct v w e]
    exact hw
  · obtain ⟨v, hv, rfl, hi⟩ := h.2.2 _ _ hf
    have hb := (h.2.1 v hv).1
    cases isT1 with
    | true =>
      obtain ⟨ts, ⟨file', es, g1, g2, -⟩, -⟩ := t1_times d.file evs v hb file hf hi hp (hz rfl) hlen
      rw [hf] at g1
      obtain rfl := Option.some.inj g1
      exact ⟨es, g2⟩
    | false =>
      obtain ⟨ts, ⟨file', es, g1, g2, -⟩, -⟩ := t2_times d.file evs v hb file hf hi
      rw [hf] at g1
      obtain rfl := Option.some.inj g1
      exact ⟨es, g2⟩

theorem streamDir_file {d : EpochDir} {isT1 : Bool} {evs : List (Nat × Nat)} {vs : List Nat} (h : StreamDir d isT1 evs vs) {v : Nat}
    (hv : v ∈ vs) : ∃ file, d.file (int2epoch (v : Int)) = some file ∧ if isT1 then IsT1 v evs file else IsT2 v evs file := by
  obtain ⟨file, hf⟩ := Option.ne_none_iff_exists'.mp (h.2.1 v hv).2
  obtain ⟨w, hw, e, hi⟩ := h.2.2 _ _ hf
  rw [← C23_names_distinct v w e] at hi
  exact ⟨file, hf, hi⟩

/-- **C135**: called with directories of the epochs of two streams of events, `fpfind` prints the same, or fails in the same way, as
called with two timestamp files of the events in the epochs it uses and the same other options. -/
theorem C135_epochs (env : NumEnv) (files files' : Files) (dirs dirs' : Word → EpochDir) (l l' : List Setting) (hne : l' ≠ [])
    (hl : ∀ s ∈ l, s.Ok fpSpec) (hl' : ∀ s ∈ l', s.Ok fpSpec)
    (hno : ∀ d ∈ ["help", "config", "save"], ¬ Given l d ∧ ¬ Given l' d)
    (hw : ∀ d ∈ ["num_wraps", "buffer_order", "initial_res", "final_res", "output", "skip_epochs"], GivenDigits l d)
    (hn : ∀ d ∈ ["skip_duration", "separation", "threshold", "precomp_start", "precomp_step", "precomp_stop"], GivenNumeral l d)
    (hfiles : ∀ d ∈ ["reference", "target"], ∀ v, lastSet l d = some v → (files v).isSome = true)
    (hsame : SameOptions l l') (D1 D2 : Word) (hd1 : lastSet l "sendfiles" = some D1) (hd2 : lastSet l "t1files" = some D2)
    (evs1 evs2 : List (Nat × Nat)) (e1 e2 : List Nat) (s1 : StreamDir (dirs D1) false evs1 e1) (s2 : StreamDir (dirs D2) true evs2 e2)
    (hs1 : evs1.Pairwise fun a b => a.1 ≤ b.1) (hs2 : evs2.Pairwise fun a b => a.1 ≤ b.1)
    (hp1 : ∀ x ∈ evs1, x.2 < 16) (hp2 : ∀ x ∈ evs2, x.2 < 16) (hz : ∀ x ∈ evs2, ¬ (x.1 % 2 ^ 54 = 0 ∧ x.2 = 0))
    (hlen1 : evs1.length < 2 ^ 32) (hlen2 : evs2.length < 2 ^ 32)
    (args : FpMainArgs) (ha : FpMeaning files dirs l args) (first : Option Nat)
    (hf : args.firstEpoch.map epoch2int = first.map fun v : Nat => .ok (v : Int)) (m n : Nat) (hrun : FirstRun e1 e2 first m n)
    (skip num : Nat) (hsk : args.skipEpochs = skip) (hreq : args.requiredEpochs env.rnd = ((skip + num : Nat) : Int)) (hen : skip + num ≤ n)
    (A B : Word) (hA : lastSet l' "reference" = some A) (hB : lastSet l' "target" = some B)
    (hraw : lastSet l' "sendfiles" = none ∧ lastSet l' "t1files" = none ∧ lastSet l' "skip_duration" = none)
    (legacy : Bool) (hleg : legacy = true ↔ Given l' "legacy")
    (fA : files' A = some (fileOf .a1 legacy (eventsFrom (m + skip) num evs1)))
    (fB : files' B = some (fileOf .a1 legacy (eventsFrom (m + skip) num evs2))) (r : Except PyErr (Option (List Char))) :
    FpPrints env (cmdWords l) files dirs r ↔ FpPrints env (cmdWords l') files' dirs' r := by
  have hin : ∀ i < num, m + skip + i ∈ e1 ∧ m + skip + i ∈ e2 := fun i hi => by
    have := hrun.2.1 (skip + i) (by omega)
    rw [← Nat.add_assoc] at this
    exact ⟨this.1, this.2.1⟩
  have hb : m + skip + num ≤ 2 ^ 32 := by
    rcases Nat.eq_zero_or_pos num with h0 | h0
    · rcases Nat.eq_zero_or_pos skip with h1 | h1
      · have := s1.2.1 m hrun.1.1.1
        omega
      · have := hrun.2.1 (skip - 1) (by omega)
        have := (s1.2.1 _ this.1).1
        omega
    · have := (s1.2.1 _ (hin (num - 1) (by omega)).1).1
      omega
  obtain ⟨N, hN⟩ := C100_fpfind env args (dirs D1) (dirs D2) (by rw [ha.sendfiles, hd1]; rfl) (by rw [ha.t1files, hd2]; rfl) e1 e2
    (streamDir_ok s1 hp1 (by simp) hlen1) (streamDir_ok s2 hp2 (fun _ => hz) hlen2) first hf m n hrun skip num hsk hreq hen evs1 evs2
    hs1 hs2 hp1 hp2 hz hlen2 hb (fun i hi => by simpa using streamDir_file s1 (hin i hi).1)
    (fun i hi => by simpa using streamDir_file s2 (hin i hi).2) legacy
  have hl0 : l ≠ [] := by
    rintro rfl
    simp [lastSet, cmdSets] at hd1
  rw [C133_prints env files dirs _ args (fun fuel => C133_fpfind env files dirs l hl0 hl (fun d hd => (hno d hd).1) hw hn hfiles args ha fuel),
    C133_prints env files' dirs' _ (rawArgs { args with skipDuration := 0 } legacy (eventsFrom (m + skip) num evs1) (eventsFrom (m + skip) num evs2))
      (fun fuel => C133_fpfind env files' dirs' l' hne hl' (fun d hd => (hno d hd).2) ?_ ?_ ?_ _ ?_ fuel)]
  · constructor
    · rintro ⟨M, hM⟩
      exact ⟨max M N, fun fuel h => by
        show fpMain _ _ _ = _
        rw [← hN fuel (le_trans (le_max_right _ _) h)]
        exact hM fuel (le_trans (le_max_left _ _) h)⟩
    · rintro ⟨M, hM⟩
      exact ⟨max M N, fun fuel h => by
        show fpMain _ _ _ = _
        rw [hN fuel (le_trans (le_max_right _ _) h)]
        exact hM fuel (le_trans (le_max_left _ _) h)⟩
  · intro d hd v hv
    have sub : ∀ d ∈ ["num_wraps", "buffer_order", "initial_res", "final_res", "output", "skip_epochs"], d ∈ ["first_epoch", "skip_epochs", "initial_res", "buffer_order", "num_wraps", "separation", "final_res", "threshold", "output",
      "precomp_start", "precomp_step", "precomp_stop"] := by decide
    rw [hsame.1 d (sub d hd)] at hv
    exact hw d hd v hv
  · intro d hd v hv
    by_cases hz : d = "skip_duration"
    · rw [hz, hraw.2.2] at hv
      simp at hv
    · have sub : ∀ d ∈ ["skip_duration", "separation", "threshold", "precomp_start", "precomp_step", "precomp_stop"], d ≠ "skip_duration" →
          d ∈ ["first_epoch", "skip_epochs", "initial_res", "buffer_order", "num_wraps", "separation", "final_res", "threshold", "output",
            "precomp_start", "precomp_step", "precomp_stop"] := by decide
      rw [hsame.1 d (sub d hd hz)] at hv
      exact hn d hd v hv
  · intro d hd v hv
    simp only [List.mem_cons, List.not_mem_nil, or_false] at hd
    rcases hd with rfl | rfl
    · rw [hA] at hv
      rw [← Option.some.inj hv, fA]; rfl
    · rw [hB] at hv
      rw [← Option.some.inj hv, fB]; rfl
  · have nat : ∀ d y x, d ∈ ["first_epoch", "skip_epochs", "initial_res", "buffer_order", "num_wraps", "separation", "final_res", "threshold",
        "output", "precomp_start", "precomp_step", "precomp_stop"] → NatSet l d y x → NatSet l' d y x := by
      intro d y x hd h
      unfold NatSet at h ⊢
      rw [hsame.1 d hd]
      exact h
    have flt : ∀ d y x, d ∈ ["first_epoch", "skip_epochs", "initial_res", "buffer_order", "num_wraps", "separation", "final_res", "threshold",
        "output", "precomp_start", "precomp_step", "precomp_stop"] → FloatSet l d y x → FloatSet l' d y x := by
      intro d y x hd h
      unfold FloatSet at h ⊢
      rw [hsame.1 d hd]
      exact h
    exact {
      sendfiles := by rw [hraw.1]; rfl
      t1files := by rw [hraw.2.1]; rfl
      reference := by rw [hA]; exact fA.symm
      target := by rw [hB]; exact fB.symm
      legacy := hleg
      skipDuration := ⟨fun _ => rfl, fun v x e => by rw [hraw.2.2] at e; simp at e⟩
      firstEpoch := by rw [hsame.1 _ (by simp)]; exact ha.firstEpoch
      skipEpochs := by rw [hsame.1 _ (by simp)]; exact ha.skipEpochs
      initialRes := nat _ _ _ (by simp) ha.initialRes
      bufferOrder := nat _ _ _ (by simp) ha.bufferOrder
      numWraps := nat _ _ _ (by simp) ha.numWraps
      separation := flt _ _ _ (by simp) ha.separation
      finalRes := nat _ _ _ (by simp) ha.finalRes
      threshold := flt _ _ _ (by simp) ha.threshold
      output := nat _ _ _ (by simp) ha.output
      precompEnable := ha.precompEnable.trans (hsame.2 _ (by simp)).symm
      precompStart := flt _ _ _ (by simp) ha.precompStart
      precompStep := flt _ _ _ (by simp) ha.precompStep
      precompStop := flt _ _ _ (by simp) ha.precompStop
      precompOrdered := ha.precompOrdered.trans (hsame.2 _ (by simp)).symm
      precompFullscan := ha.precompFullscan.trans (hsame.2 _ (by simp)).symm
      sizes := ha.sizes }

theorem fpMain_load_error {env : NumEnv} {args : FpMainArgs} {e : PyErr} (h : Returns (fun fuel => loadInput env.rnd fuel args.toFpArgs) (.error e)) :
    Returns (fun fuel => fpMain env fuel args) (.error e) := by
  obtain ⟨N, hN⟩ := h
  refine ⟨N, fun fuel hf => ?_⟩
  have : loadInput env.rnd fuel args.toFpArgs = some (.error e) := hN fuel hf
  show fpMain env fuel args = _
  unfold fpMain mainInput
  rw [this]

/-- **C135**, failures: with too few epochs in a row from the first common one, nothing is printed and a file is reported as missing;
without a common epoch (from the one asked for) it ends with a `TypeError`. -/
theorem C135_too_few (env : NumEnv) (files : Files) (dirs : Word → EpochDir) (l : List Setting) (hl : ∀ s ∈ l, s.Ok fpSpec)
    (hno : ∀ d ∈ ["help", "config", "save"], ¬ Given l d)
    (hw : ∀ d ∈ ["num_wraps", "buffer_order", "initial_res", "final_res", "output", "skip_epochs"], GivenDigits l d)
    (hn : ∀ d ∈ ["skip_duration", "separation", "threshold", "precomp_start", "precomp_step", "precomp_stop"], GivenNumeral l d)
    (hfiles : ∀ d ∈ ["reference", "target"], ∀ v, lastSet l d = some v → (files v).isSome = true)
    (D1 D2 : Word) (hd1 : lastSet l "sendfiles" = some D1) (hd2 : lastSet l "t1files" = some D2)
    (evs1 evs2 : List (Nat × Nat)) (e1 e2 : List Nat) (s1 : StreamDir (dirs D1) false evs1 e1) (s2 : StreamDir (dirs D2) true evs2 e2)
    (hp1 : ∀ x ∈ evs1, x.2 < 16) (hp2 : ∀ x ∈ evs2, x.2 < 16) (hz : ∀ x ∈ evs2, ¬ (x.1 % 2 ^ 54 = 0 ∧ x.2 = 0))
    (hlen1 : evs1.length < 2 ^ 32) (hlen2 : evs2.length < 2 ^ 32)
    (args : FpMainArgs) (ha : FpMeaning files dirs l args) (first : Option Nat)
    (hf : args.firstEpoch.map epoch2int = first.map fun v : Nat => .ok (v : Int)) (skip num : Nat) (hsk : args.skipEpochs = skip)
    (hreq : args.requiredEpochs env.rnd = ((skip + num : Nat) : Int)) :
    (∀ m n, FirstRun e1 e2 first m n → skip ≤ n → n < skip + num → FpPrints env (cmdWords l) files dirs (.error .fileNotFound)) ∧
    ((∀ v, ¬ CommonNat e1 e2 first v) → 0 < num → FpPrints env (cmdWords l) files dirs (.error .typeError)) := by
  have hl0 : l ≠ [] := by
    rintro rfl
    simp [lastSet, cmdSets] at hd1
  have hd1' : args.sendfiles = some (dirs D1) := by rw [ha.sendfiles, hd1]; rfl
  have hd2' : args.t1files = some (dirs D2) := by rw [ha.t1files, hd2]; rfl
  have ok1 := streamDir_ok s1 hp1 (by simp) hlen1
  have ok2 := streamDir_ok s2 hp2 (fun _ => hz) hlen2
  rw [C133_prints env files dirs _ args (fun fuel => C133_fpfind env files dirs l hl0 hl hno hw hn hfiles args ha fuel),
    C133_prints env files dirs _ args (fun fuel => C133_fpfind env files dirs l hl0 hl hno hw hn hfiles args ha fuel)]
  exact ⟨fun m n hrun h1 h2 => fpMain_load_error
      (C74_insufficient env.rnd args.toFpArgs _ _ hd1' hd2' e1 e2 ok1 ok2 first hf m n hrun skip num hsk hreq h1 h2),
    fun hv hnum => fpMain_load_error (C74_no_overlap env.rnd args.toFpArgs _ _ hd1' hd2' e1 e2 ok1 ok2 first hf hv (by rw [hreq, hsk]; omega))⟩

/-! ## Instance -/

/-- Events in the epochs 5 and 6 of two streams. -/
def epochStream1 : List (Nat × Nat) := [(5 * 2 ^ 37 + 256, 0), (6 * 2 ^ 37 + (2 ^ 32 - 8) * 32, 0)]
def epochStream2 : List (Nat × Nat) := [(5 * 2 ^ 37 + 260, 1), (6 * 2 ^ 37 + 7, 1)]

theorem epochDir1 : StreamDir (wDir (wT2 5 8) (wT2 6 (2 ^ 32 - 8))) false epochStream1 [5, 6] := by
  refine ⟨rfl, ?_, ?_⟩
  · intro v hv
    simp only [List.mem_cons, List.not_mem_nil, or_false] at hv
    rcases hv with rfl | rfl
    · simp [wDir]
    · refine ⟨by norm_num, ?_⟩
      simp only [wDir]
      rw [if_neg (fun h => absurd (C23_names_distinct 6 5 h) (by decide)), if_pos trivial]
      simp
  · intro name file hf
    simp only [wDir] at hf
    split_ifs at hf with c1 c2
    · obtain rfl := Option.some.inj hf
      refine ⟨5, by simp, c1, 2, 1, 32, 32, 0, [⟨false, 8, 0⟩], wBody 8, rfl, by norm_num, by norm_num, by norm_num, by norm_num, by norm_num,
        by norm_num, by simp [Entry.Ok], Or.inr rfl, wStarts2, by decide +kernel⟩
    · obtain rfl := Option.some.inj hf
      refine ⟨6, by simp, c2, 2, 1, 32, 32, 0, [⟨false, 2 ^ 32 - 8, 0⟩], wBody (2 ^ 32 - 8), rfl, by norm_num, by norm_num, by norm_num,
        by norm_num, by norm_num, by norm_num, by simp [Entry.Ok], Or.inr rfl, wStarts1, by decide +kernel⟩

theorem epochDir2 : StreamDir (wDir (t1File 5 [(260, 1)]) (t1File 6 [(7, 1)])) true epochStream2 [5, 6] := by
  refine ⟨rfl, ?_, ?_⟩
  · intro v hv
    simp only [List.mem_cons, List.not_mem_nil, or_false] at hv
    rcases hv with rfl | rfl
    · simp [wDir]
    · refine ⟨by norm_num, ?_⟩
      simp only [wDir]
      rw [if_neg (fun h => absurd (C23_names_distinct 6 5 h) (by decide)), if_pos trivial]
      simp
  · intro name file hf
    simp only [wDir] at hf
    split_ifs at hf with c1 c2
    · obtain rfl := Option.some.inj hf
      exact ⟨5, by simp, c1, _, C14_t1_file 5 [(260, 1)] (by simp [T1Valid]) (by decide)⟩
    · obtain rfl := Option.some.inj hf
      exact ⟨6, by simp, c2, _, C14_t1_file 6 [(7, 1)] (by simp [T1Valid]) (by decide)⟩

/-- The options of `-d S -D T -q6` and `-t A -T B -q6`. -/
def epochSettings (S T : Word) : List Setting :=
  [.pair (argStore ["-d", "--sendfiles"] "sendfiles" anyText) ['-', 'd'] S, .pair (argStore ["-D", "--t1files"] "t1files" anyText) ['-', 'D'] T,
    .letters [] (argStore ["-q", "--buffer-order"] "buffer_order" isInt) 'q' ['6']]

def rawSettings (A B : Word) : List Setting :=
  [.pair (argStore ["-t", "--reference"] "reference" anyText) ['-', 't'] A, .pair (argStore ["-T", "--target"] "target" anyText) ['-', 'T'] B,
    .letters [] (argStore ["-q", "--buffer-order"] "buffer_order" isInt) 'q' ['6']]

theorem epoch_sets (S T : Word) : cmdSets (epochSettings S T) = [("sendfiles", [S]), ("t1files", [T]), ("buffer_order", [['6']])] := rfl
theorem raw_sets (A B : Word) : cmdSets (rawSettings A B) = [("reference", [A]), ("target", [B]), ("buffer_order", [['6']])] := rfl

/-- The arguments of the first of them. -/
def epochArgs (d1 d2 : EpochDir) : FpMainArgs :=
  { sendfiles := some d1, t1files := some d2, reference := none, target := none, legacy := false, skipDuration := 0, firstEpoch := none,
    skipEpochs := 0, initialRes := 16, bufferOrder := 6, numWraps := 1, separation := 6, finalRes := 1, threshold := 6, output := 0,
    precompEnable := false, precompStart := 0, precompStep := fl 53 (1 / 10 ^ 7), precompStop := fl 53 (1 / 10 ^ 5), precompOrdered := false,
    precompFullscan := false }

theorem epoch_none (S T : Word) : ∀ d, d ∉ ["sendfiles", "t1files", "buffer_order"] →
    lastSet (epochSettings S T) d = none ∧ ¬ Given (epochSettings S T) d := by
  intro d hd
  simp only [List.mem_cons, List.not_mem_nil, or_false, not_or] at hd
  constructor
  · rw [lastSet, epoch_sets]
    simp [Ne.symm hd.1, Ne.symm hd.2.1, Ne.symm hd.2.2]
  · show ¬ ∃ x ∈ cmdSets (epochSettings S T), x.1 = d
    rw [epoch_sets]
    simp [Ne.symm hd.1, Ne.symm hd.2.1, Ne.symm hd.2.2]

theorem epoch_call (files : Files) (dirs : Word → EpochDir) (S T : Word) (hS : PlainWord S) (hT : PlainWord T) :
    (∀ s ∈ epochSettings S T, s.Ok fpSpec) ∧
    (∀ d ∈ ["num_wraps", "buffer_order", "initial_res", "final_res", "output", "skip_epochs"], GivenDigits (epochSettings S T) d) ∧
    (∀ d ∈ ["skip_duration", "separation", "threshold", "precomp_start", "precomp_step", "precomp_stop"], GivenNumeral (epochSettings S T) d) ∧
    (∀ d ∈ ["reference", "target"], ∀ v, lastSet (epochSettings S T) d = some v → (files v).isSome = true) ∧
    FpMeaning files dirs (epochSettings S T) (epochArgs (dirs S) (dirs T)) := by
  have none_of := epoch_none S T
  have lq : lastSet (epochSettings S T) "buffer_order" = some ['6'] := by rw [lastSet, epoch_sets]; simp
  have ld : lastSet (epochSettings S T) "sendfiles" = some S := by rw [lastSet, epoch_sets]; simp
  have lD : lastSet (epochSettings S T) "t1files" = some T := by rw [lastSet, epoch_sets]; simp
  have flt : ∀ d (y : Option ℚ), d ∉ ["sendfiles", "t1files", "buffer_order"] → FloatSet (epochSettings S T) d y y :=
    fun d y hd => ⟨fun _ => rfl, fun v x e => by rw [(none_of d hd).1] at e; simp at e⟩
  have nat : ∀ d (y : Option ℕ), d ∉ ["sendfiles", "t1files", "buffer_order"] → NatSet (epochSettings S T) d y y :=
    fun d y hd => ⟨fun _ => rfl, fun v x e => by rw [(none_of d hd).1] at e; simp at e⟩
  have flag : ∀ d, d ∉ ["sendfiles", "t1files", "buffer_order"] → (false = true ↔ Given (epochSettings S T) d) :=
    fun d hd => by simpa using (none_of d hd).2
  have ha : FpMeaning files dirs (epochSettings S T) (epochArgs (dirs S) (dirs T)) := {
    sendfiles := by rw [ld]; rfl
    t1files := by rw [lD]; rfl
    reference := by rw [(none_of _ (by decide)).1]; rfl
    target := by rw [(none_of _ (by decide)).1]; rfl
    legacy := flag _ (by decide)
    skipDuration := flt _ _ (by decide)
    firstEpoch := by rw [(none_of _ (by decide)).1]; rfl
    skipEpochs := ⟨fun _ => rfl, fun v x e => by rw [(none_of _ (by decide)).1] at e; simp at e⟩
    initialRes := nat _ _ (by decide)
    bufferOrder := natSet_of lq (digit_digits '6' 6 (by decide))
    numWraps := nat _ _ (by decide)
    separation := flt _ _ (by decide)
    finalRes := nat _ _ (by decide)
    threshold := flt _ _ (by decide)
    output := nat _ _ (by decide)
    precompEnable := flag _ (by decide)
    precompStart := flt _ _ (by decide)
    precompStep := flt _ _ (by decide)
    precompStop := flt _ _ (by decide)
    precompOrdered := flag _ (by decide)
    precompFullscan := flag _ (by decide)
    sizes := ⟨by show (16 : ℕ) ≠ 0; norm_num, by show (6 : ℚ) ≠ 0; norm_num⟩ }
  refine ⟨?_, ?_, ?_, ?_, ha⟩
  · intro s hs
    simp only [epochSettings, List.mem_cons, List.not_mem_nil, or_false] at hs
    rcases hs with rfl | rfl | rfl
    · exact ⟨by simp [fpSpec], by decide, rfl, rfl, hS⟩
    · exact ⟨by simp [fpSpec], by decide, rfl, rfl, hT⟩
    · exact ⟨by simp, by simp [fpSpec], by decide, Or.inr ⟨rfl, by simp, by decide, by decide⟩⟩
  · intro d hd v hv
    by_cases hq : d = "buffer_order"
    · subst hq
      rw [lq] at hv
      rw [← Option.some.inj hv]
      exact ⟨6, digit_digits _ _ (by decide)⟩
    · have sub : ∀ d ∈ ["num_wraps", "buffer_order", "initial_res", "final_res", "output", "skip_epochs"], d ≠ "buffer_order" →
        d ∉ ["sendfiles", "t1files", "buffer_order"] := by decide
      rw [(none_of d (sub d hd hq)).1] at hv
      simp at hv
  · intro d hd v hv
    have sub : ∀ d ∈ ["skip_duration", "separation", "threshold", "precomp_start", "precomp_step", "precomp_stop"],
      d ∉ ["sendfiles", "t1files", "buffer_order"] := by decide
    rw [(none_of d (sub d hd)).1] at hv
    simp at hv
  · intro d hd v hv
    have sub : ∀ d ∈ ["reference", "target"], d ∉ ["sendfiles", "t1files", "buffer_order"] := by decide
    rw [(none_of d (sub d hd)).1] at hv
    simp at hv

theorem epoch_required (d1 d2 : EpochDir) : (epochArgs d1 d2).requiredEpochs (fl 53) = ((0 + 2 : Nat) : Int) := by
  show astypeInt32 ⌈fl 53 (fl 53 (fl 53 (6 + 1) * fl 53 ((16 * 2 ^ 6 * 1 : Nat) : ℚ)) / 2 ^ 29)⌉ + 0 + 1 = 2
  decide +kernel

/-- `fpfind -d S -D T -q6` with the epochs 5 and 6 prints the same as `fpfind -t A -T B -q6` with the two events of each side. -/
theorem C135_instance (env : NumEnv) (henv : env.rnd = fl 53) (files : Files) (dirs : Word → EpochDir) (S T A B : Word)
    (hS : PlainWord S) (hT : PlainWord T) (hA : PlainWord A) (hB : PlainWord B)
    (h1 : dirs S = wDir (wT2 5 8) (wT2 6 (2 ^ 32 - 8))) (h2 : dirs T = wDir (t1File 5 [(260, 1)]) (t1File 6 [(7, 1)]))
    (fA : files A = some (fileOf .a1 false epochStream1)) (fB : files B = some (fileOf .a1 false epochStream2))
    (r : Except PyErr (Option (List Char))) :
    FpPrints env ["-d".toList, S, "-D".toList, T, "-q6".toList] files dirs r ↔
      FpPrints env ["-t".toList, A, "-T".toList, B, "-q6".toList] files dirs r := by
  have none_of := epoch_none S T
  have none_of' : ∀ d, d ∉ ["reference", "target", "buffer_order"] → lastSet (rawSettings A B) d = none ∧ ¬ Given (rawSettings A B) d := by
    intro d hd
    simp only [List.mem_cons, List.not_mem_nil, or_false, not_or] at hd
    constructor
    · rw [lastSet, raw_sets]
      simp [Ne.symm hd.1, Ne.symm hd.2.1, Ne.symm hd.2.2]
    · show ¬ ∃ x ∈ cmdSets (rawSettings A B), x.1 = d
      rw [raw_sets]
      simp [Ne.symm hd.1, Ne.symm hd.2.1, Ne.symm hd.2.2]
  have lq : lastSet (epochSettings S T) "buffer_order" = some ['6'] := by rw [lastSet, epoch_sets]; simp
  have lq' : lastSet (rawSettings A B) "buffer_order" = some ['6'] := by rw [lastSet, raw_sets]; simp
  have ld : lastSet (epochSettings S T) "sendfiles" = some S := by rw [lastSet, epoch_sets]; simp
  have lD : lastSet (epochSettings S T) "t1files" = some T := by rw [lastSet, epoch_sets]; simp
  have lt : lastSet (rawSettings A B) "reference" = some A := by rw [lastSet, raw_sets]; simp
  have lT : lastSet (rawSettings A B) "target" = some B := by rw [lastSet, raw_sets]; simp
  obtain ⟨g1, g2, g3, g4, ha⟩ := epoch_call files dirs S T hS hT
  have hrun : FirstRun [5, 6] [5, 6] none 5 2 := by
    refine ⟨⟨by simp [CommonNat], ?_⟩, ?_, by simp [CommonNat]⟩
    · intro v hv
      have := hv.1
      simp at this
      omega
    · intro i hi
      simp [CommonNat]
      omega
  have hreq : (epochArgs (dirs S) (dirs T)).requiredEpochs env.rnd = ((0 + 2 : Nat) : Int) := by
    rw [henv]
    exact epoch_required _ _
  have key := C135_epochs env files files dirs dirs (epochSettings S T) (rawSettings A B) (by simp [rawSettings]) g1 ?_ ?_ g2 g3 g4 ?_ S T ld lD
    epochStream1 epochStream2 [5, 6] [5, 6] (by rw [h1]; exact epochDir1) (by rw [h2]; exact epochDir2) (by decide) (by decide) (by decide)
    (by decide) (by decide) (by decide) (by decide) _ ha none rfl 5 2 hrun 0 2 rfl hreq (by norm_num) A B lt lT
    ⟨(none_of' _ (by decide)).1, (none_of' _ (by decide)).1, (none_of' _ (by decide)).1⟩ false (by simpa using (none_of' "legacy" (by decide)).2)
    (by rw [fA]; rfl) (by rw [fB]; rfl) r
  · exact key
  · intro s hs
    simp only [rawSettings, List.mem_cons, List.not_mem_nil, or_false] at hs
    rcases hs with rfl | rfl | rfl
    · exact ⟨by simp [fpSpec], by decide, rfl, rfl, hA⟩
    · exact ⟨by simp [fpSpec], by decide, rfl, rfl, hB⟩
    · exact ⟨by simp, by simp [fpSpec], by decide, Or.inr ⟨rfl, by simp, by decide, by decide⟩⟩
  · intro d hd
    have sub : ∀ d ∈ ["help", "config", "save"], d ∉ ["sendfiles", "t1files", "buffer_order"] ∧ d ∉ ["reference", "target", "buffer_order"] := by decide
    exact ⟨(none_of d (sub d hd).1).2, (none_of' d (sub d hd).2).2⟩
  · constructor
    · intro d hd
      by_cases hq : d = "buffer_order"
      · rw [hq, lq, lq']
      · have sub : ∀ d ∈ ["first_epoch", "skip_epochs", "initial_res", "buffer_order", "num_wraps", "separation", "final_res", "threshold", "output",
          "precomp_start", "precomp_step", "precomp_stop"], d ≠ "buffer_order" → d ∉ ["sendfiles", "t1files", "buffer_order"] ∧
          d ∉ ["reference", "target", "buffer_order"] := by decide
        rw [(none_of d (sub d hd hq).1).1, (none_of' d (sub d hd hq).2).1]
    · intro d hd
      have sub : ∀ d ∈ ["precomp_enable", "precomp_ordered", "precomp_fullscan"], d ∉ ["sendfiles", "t1files", "buffer_order"] ∧
          d ∉ ["reference", "target", "buffer_order"] := by decide
      exact iff_of_false (none_of' d (sub d hd).2).2 (none_of d (sub d hd).1).2

/-- `fpfind -d S -D T -q6` needs two epochs; with the epoch 6 missing on one side it prints nothing. -/
example (env : NumEnv) (henv : env.rnd = fl 53) (files : Files) (dirs : Word → EpochDir) (S T : Word) (hS : PlainWord S) (hT : PlainWord T)
    (h1 : dirs S = wDir (wT2 5 8) (wT2 6 (2 ^ 32 - 8)))
    (h2 : dirs T = ⟨[int2epoch 5], fun name => if name = int2epoch 5 then some (t1File 5 [(260, 1)]) else none⟩) :
    FpPrints env ["-d".toList, S, "-D".toList, T, "-q6".toList] files dirs (.error .fileNotFound) := by
  obtain ⟨g1, g2, g3, g4, ha⟩ := epoch_call files dirs S T hS hT
  have s2 : StreamDir (dirs T) true epochStream2 [5] := by
    rw [h2]
    refine ⟨rfl, by simp, fun name file hf => ?_⟩
    simp only at hf
    split_ifs at hf with c1
    obtain rfl := Option.some.inj hf
    exact ⟨5, by simp, c1, _, C14_t1_file 5 [(260, 1)] (by simp [T1Valid]) (by decide)⟩
  refine (C135_too_few env files dirs (epochSettings S T) g1 (fun d hd => ?_) g2 g3 g4 S T (by rw [lastSet, epoch_sets]; simp)
    (by rw [lastSet, epoch_sets]; simp) epochStream1 epochStream2 [5, 6] [5] (by rw [h1]; exact epochDir1) s2 (by decide) (by decide) (by decide)
    (by decide) (by decide) _ ha none rfl 0 2 rfl (by rw [henv]; exact epoch_required _ _)).1 5 1 ?_ (by norm_num) (by norm_num)
  · have sub : ∀ d ∈ ["help", "config", "save"], d ∉ ["sendfiles", "t1files", "buffer_order"] := by decide
    exact (epoch_none S T d (sub d hd)).2
  · refine ⟨⟨by simp [CommonNat], fun v hv => ?_⟩, fun i hi => ?_, by simp [CommonNat]⟩
    · have := hv.2.1
      simp at this
      omega
    · simp [CommonNat]
      omega

end Fp
