import Verif.Props.Shell
import Verif.Props.FpShift
import Verif.Props.FreqcdExact
import Verif.Props.FpSelf
import Verif.Spec.ConvertRun

/-! # C140: converted recordings in the other programs -/
namespace Fp
open Spec

theorem convert_call (fw : Nat) (hfw : 54 ≤ fw) (files : Files) {l l2 : List Setting} {f g : Fmt} {X x : Bool} {F : FilterArgs}
    {inp out : Word} (h : ConvertCall l l2 f X g x F inp out) (raws : List (Nat × Nat)) (hr : Convertible f F raws)
    (hin : files inp = some (fileOf f X raws)) :
    tsCli fw (convertWords l l2 inp out) files = .ran ⟨files.set out (fileOf g x (filtered F raws)), none, none⟩ :=
  C133_convert fw hfw files l l2 h.ok f g X x F h.input h.output h.filters h.noPrint inp out h.plain h.names.1 (.inl h.names.2) raws hr.1
    hr.2.1 hin h.pattern hr.2.2 (fun e => absurd e h.noMemory)

theorem natSet_same {l l' : List Setting} {d : String} {y0 y : Option ℕ} (e : lastSet l d = lastSet l' d) (h : NatSet l d y0 y) :
    NatSet l' d y0 y := by
  unfold NatSet at h ⊢
  rwa [← e]

theorem floatSet_same {l l' : List Setting} {d : String} {y0 y : Option ℚ} (e : lastSet l d = lastSet l' d) (h : FloatSet l d y0 y) :
    FloatSet l' d y0 y := by
  unfold FloatSet at h ⊢
  rwa [← e]

/-- What `fpfind` does with two timestamp files. -/
theorem fp_on (env : NumEnv) (fuel : Nat) (files : Files) (dirs : Word → EpochDir) {l : List Setting} {a b : List (Nat × Nat)}
    (h : FpOn files l a b) : ∃ args x, fpCli env fuel (cmdWords l) files dirs = .ran (fpMain env fuel (rawArgs args x a b)) ∧
      FpMeaning files dirs l (rawArgs args x a b) := by
  obtain ⟨args, h1, h2⟩ := C132_fpfind env fuel files dirs l h.call.some_ h.call.ok h.call.inside (fun d hd => h.call.digits d (by
    simp only [List.mem_cons, List.not_mem_nil, or_false] at hd ⊢
    tauto)) h.call.files h.call.sizes
  obtain ⟨A, B, x, k1, k2, k3, k4, k5⟩ := h.files
  have e : args = rawArgs args x a b := by
    have p1 := h2.sendfiles
    have p2 := h2.t1files
    have p3 := h2.reference
    have p4 := h2.target
    have p5 : args.legacy = x := bool_iff h2.legacy k3
    rw [h.nodirs.1] at p1
    rw [h.nodirs.2] at p2
    rw [k1, Option.bind_some, k4] at p3
    rw [k2, Option.bind_some, k5] at p4
    obtain ⟨⟨_, _, _, _, _, _, _, _⟩, _⟩ := args
    simp only [Option.map_none] at p1 p2 p3 p4 p5
    subst p1 p2 p3 p4 p5
    rfl
  refine ⟨args, x, ?_, ?_⟩
  · rw [← e]; exact h1
  · rw [← e]; exact h2

theorem main_times (env : NumEnv) (fuel : Nat) (args : FpMainArgs) (x x' : Bool) (a b a' b' : List (Nat × Nat)) (ha : ∀ e ∈ a, Valid e)
    (hb : ∀ e ∈ b, Valid e) (ha' : ∀ e ∈ a', Valid e) (hb' : ∀ e ∈ b', Valid e) (ea : a.map Prod.fst = a'.map Prod.fst)
    (eb : b.map Prod.fst = b'.map Prod.fst) : fpMain env fuel (rawArgs args x a b) = fpMain env fuel (rawArgs args x' a' b') := by
  have e : ∀ {l l' : List (Nat × Nat)}, l.map Prod.fst = l'.map Prod.fst → nsTimes l = nsTimes l' := by
    intro l l' h
    have : ∀ l : List (Nat × Nat), nsTimes l = (l.map Prod.fst).map fun t : ℕ => (t : ℚ) / 256 := by
      intro l
      unfold nsTimes
      rw [List.map_map]
      rfl
    rw [this, this, h]
  unfold fpMain mainInput
  rw [load_raw _ _ _ _ _ _ ha hb, load_raw _ _ _ _ _ _ ha' hb', e ea, e eb]
  rfl

/-- The core: two calls that differ in the files. -/
theorem fp_same (env : NumEnv) (fuel : Nat) (files files' : Files) (dirs dirs' : Word → EpochDir) {l l' : List Setting}
    {a b a' b' : List (Nat × Nat)} (h : FpOn files l a b) (h' : FpOn files' l' a' b')
    (hsame : SameApart ["reference", "target", "legacy"] l l')
    (hT : ∀ args x x', FloatSet l "skip_duration" (some 0) (some (FpArgs.skipDuration (FpMainArgs.toFpArgs args))) →
      fpMain env fuel (rawArgs args x a b) = fpMain env fuel (rawArgs args x' a' b')) :
    fpCli env fuel (cmdWords l) files dirs = fpCli env fuel (cmdWords l') files' dirs' := by
  obtain ⟨args, x, h1, h2⟩ := fp_on env fuel files dirs h
  obtain ⟨A, B, x', k1, k2, k3, k4, k5⟩ := h'.files
  have hm : FpMeaning files' dirs' l' (rawArgs args x' a' b') :=
    { sendfiles := by rw [h'.nodirs.1]; rfl
      t1files := by rw [h'.nodirs.2]; rfl
      reference := by rw [k1, Option.bind_some, k4]; rfl
      target := by rw [k2, Option.bind_some, k5]; rfl
      legacy := k3
      skipDuration := floatSet_same (hsame "skip_duration" (by decide)).1 h2.skipDuration
      firstEpoch := h2.firstEpoch.trans (hsame "first_epoch" (by decide)).1
      skipEpochs := by
        have := h2.skipEpochs
        rw [(hsame "skip_epochs" (by decide)).1] at this
        exact this
      initialRes := natSet_same (hsame "initial_res" (by decide)).1 h2.initialRes
      bufferOrder := natSet_same (hsame "buffer_order" (by decide)).1 h2.bufferOrder
      numWraps := natSet_same (hsame "num_wraps" (by decide)).1 h2.numWraps
      separation := floatSet_same (hsame "separation" (by decide)).1 h2.separation
      finalRes := natSet_same (hsame "final_res" (by decide)).1 h2.finalRes
      threshold := floatSet_same (hsame "threshold" (by decide)).1 h2.threshold
      output := natSet_same (hsame "output" (by decide)).1 h2.output
      precompEnable := h2.precompEnable.trans (hsame "precomp_enable" (by decide)).2
      precompStart := floatSet_same (hsame "precomp_start" (by decide)).1 h2.precompStart
      precompStep := floatSet_same (hsame "precomp_step" (by decide)).1 h2.precompStep
      precompStop := floatSet_same (hsame "precomp_stop" (by decide)).1 h2.precompStop
      precompOrdered := h2.precompOrdered.trans (hsame "precomp_ordered" (by decide)).2
      precompFullscan := h2.precompFullscan.trans (hsame "precomp_fullscan" (by decide)).2
      sizes := h2.sizes }
  rw [h1, C133_fpfind env files' dirs' l' h'.call.some_ h'.call.ok h'.call.inside h'.call.digits h'.call.numerals h'.call.files _ hm fuel]
  congr 1
  exact hT args x x' h2.skipDuration

/-- **C140** `fpfind` prints the same, or fails with the same exception, for timestamp files with the same times: names, word order (as told
with `-X`) and detectors do not matter, nor does the order of the options. -/
theorem C140_times (env : NumEnv) (fuel : Nat) (files files' : Files) (dirs dirs' : Word → EpochDir) (l l' : List Setting)
    (a b a' b' : List (Nat × Nat)) (h : FpOn files l a b) (h' : FpOn files' l' a' b')
    (hsame : SameApart ["reference", "target", "legacy"] l l') (hv : ∀ e ∈ a ++ b ++ a' ++ b', Valid e)
    (ea : a.map Prod.fst = a'.map Prod.fst) (eb : b.map Prod.fst = b'.map Prod.fst) :
    fpCli env fuel (cmdWords l) files dirs = fpCli env fuel (cmdWords l') files' dirs' :=
  fp_same env fuel files files' dirs dirs' h h' hsame fun args x x' _ =>
    main_times env fuel args x x' a b a' b' (fun e he => hv e (by simp [he])) (fun e he => hv e (by simp [he]))
      (fun e he => hv e (by simp [he])) (fun e he => hv e (by simp [he])) ea eb

/-- **C97** from the shell: `fpfind` prints the same, or fails with the same exception, if all times of both files are later by the same
amount (for skipped durations of whole nanoseconds). -/
theorem C97_shell (env : NumEnv) (hr : env.rnd = fl 53) (hra : env.rndA = fl 64) (fuel : Nat) (files files' : Files) (dirs dirs' : Word → EpochDir)
    (l l' : List Setting) (a b a' b' : List (Nat × Nat)) (h : FpOn files l a b) (h' : FpOn files' l' a' b')
    (hsame : SameApart ["reference", "target", "legacy"] l l') (hv : ∀ e ∈ a ++ b ++ a' ++ b', Valid e)
    (c : ℤ) (ea : a'.map (fun e => (e.1 : ℤ)) = a.map fun e => (e.1 : ℤ) + c) (eb : b'.map (fun e => (e.1 : ℤ)) = b.map fun e => (e.1 : ℤ) + c)
    (k : ℤ) (hk : SkipsNs l k) (hkb : |k| < 2 ^ 52) :
    fpCli env fuel (cmdWords l) files dirs = fpCli env fuel (cmdWords l') files' dirs' :=
  fp_same env fuel files files' dirs dirs' h h' hsame fun args x x' hs =>
    (C97_invariant_partial env hr hra fuel args x x' a b a' b' c (fun e he => hv e (by simp [he])) (fun e he => hv e (by simp [he]))
      (fun e he => hv e (by simp [he])) (fun e he => hv e (by simp [he])) ea eb k (hk _ hs) hkb).symm

/-- **C140** `parse_timestamps` of two recordings of any formats to timestamp files, perhaps with filters, and then `fpfind` on the results:
`fpfind` prints what it prints for any timestamp files with the times of the events that pass the filters. -/
theorem C140_converted (fw : Nat) (hfw : 54 ≤ fw) (env : NumEnv) (fuel : Nat) (files files' : Files) (dirs dirs' : Word → EpochDir)
    (lA lA' lB lB' l l' : List Setting) (f g : Fmt) (X Y x : Bool) (F G : FilterArgs) (A A1 B B1 : Word)
    (hA : ConvertCall lA lA' f X .a1 x F A A1) (hB : ConvertCall lB lB' g Y .a1 x G B B1) (hdiff : B ≠ A1 ∧ A1 ≠ B1)
    (ra rb : List (Nat × Nat)) (hra : Convertible f F ra) (hrb : Convertible g G rb)
    (fA : files A = some (fileOf f X ra)) (fB : files B = some (fileOf g Y rb)) :
    ∃ files1 files2, tsCli fw (convertWords lA lA' A A1) files = .ran ⟨files1, none, none⟩ ∧
      tsCli fw (convertWords lB lB' B B1) files1 = .ran ⟨files2, none, none⟩ ∧
      ((∀ d ∈ ["sendfiles", "t1files"], lastSet l d = none) → FpCall files2 l → lastSet l "reference" = some A1 → lastSet l "target" = some B1 →
        (x = true ↔ Given l "legacy") → ∀ a b, FpOn files' l' a b → SameApart ["reference", "target", "legacy"] l l' →
        (∀ e ∈ a ++ b, Valid e) → a.map Prod.fst = (filtered F ra).map Prod.fst → b.map Prod.fst = (filtered G rb).map Prod.fst →
        fpCli env fuel (cmdWords l) files2 dirs = fpCli env fuel (cmdWords l') files' dirs') := by
  have e2 : (files.set A1 (fileOf .a1 x (filtered F ra))) B = some (fileOf g Y rb) := by
    unfold Files.set
    rw [if_neg hdiff.1, fB]
  refine ⟨_, _, convert_call fw hfw files hA ra hra fA, convert_call fw hfw _ hB rb hrb e2, ?_⟩
  intro hd hl n1 n2 hx a b hab hsame hv ea eb
  refine C140_times env fuel _ files' dirs dirs' l l' (filtered F ra) (filtered G rb) a b
    ⟨hl, ⟨A1, B1, x, n1, n2, hx, ?_, ?_⟩, hd "sendfiles" (by simp), hd "t1files" (by simp)⟩ hab hsame ?_ ea.symm eb.symm
  · unfold Files.set
    rw [if_neg hdiff.2, if_pos rfl]
  · unfold Files.set
    rw [if_pos rfl]
  · intro e he
    simp only [List.mem_append] at he
    rcases he with ((he | he) | he) | he
    · exact filtered_valid _ _ hra.1 e he
    · exact filtered_valid _ _ hrb.1 e he
    · exact hv e (by simp [he])
    · exact hv e (by simp [he])

/-! ## freqcd -/

theorem move_near (n : ℤ) (hn : |n| < 2 ^ 21) (r t : ℕ) : |(moveOf n r t : ℚ) - ((t : ℚ) - r) * n / 2 ^ 34| ≤ 3 / 2 := by
  unfold moveOf
  obtain ⟨u, hu⟩ : ∃ u : ℤ, u = ⌊((t : ℚ) - r) / 2 ^ 12⌋ := ⟨_, rfl⟩
  have h1 := Int.floor_le (((t : ℚ) - r) / 2 ^ 12)
  have h2 := Int.lt_floor_add_one (((t : ℚ) - r) / 2 ^ 12)
  rw [← hu] at h1 h2 ⊢
  have h3 := Int.floor_le ((u * n : ℚ) / 2 ^ 22)
  have h4 := Int.lt_floor_add_one ((u * n : ℚ) / 2 ^ 22)
  obtain ⟨v, hv⟩ : ∃ v : ℤ, v = ⌊(u * n : ℚ) / 2 ^ 22⌋ := ⟨_, rfl⟩
  rw [← hv] at h3 h4 ⊢
  obtain ⟨d, hd⟩ : ∃ d : ℚ, d = ((t : ℚ) - r) / 2 ^ 12 - u := ⟨_, rfl⟩
  have hd0 : 0 ≤ d := by rw [hd]; linarith
  have hd1 : d ≤ 1 := by rw [hd]; linarith
  have hn' : |(n : ℚ)| ≤ 2 ^ 21 := by
    have : ((|n| : ℤ) : ℚ) < ((2 ^ 21 : ℤ) : ℚ) := by exact_mod_cast hn
    push_cast at this
    exact this.le
  obtain ⟨n1, n2⟩ := abs_le.mp hn'
  have e : ((t : ℚ) - r) * n / 2 ^ 34 = u * n / 2 ^ 22 + d * n / 2 ^ 22 := by
    rw [hd]; ring
  have k1 : d * n / 2 ^ 22 ≤ 1 / 2 := by rw [div_le_iff₀ (by norm_num)]; nlinarith
  have k2 : -(1 / 2) ≤ d * n / 2 ^ 22 := by rw [le_div_iff₀ (by norm_num)]; nlinarith
  rw [e, abs_le]
  exact ⟨by linarith, by linarith⟩

theorem corrected_near (n : ℤ) (hn : |n| < 2 ^ 21) (t0 : ℕ) : ∀ (blocks : List (List (ℕ × ℕ))) (r : ℕ) (x : ℤ) (err : ℚ),
    |(x : ℚ) - ((r : ℚ) - t0) * n / 2 ^ 34| ≤ err →
    List.Forall₂ (CorrectedEvent n t0 (err + 3 / 2 * blocks.length)) blocks.flatten (correctedBlocks n blocks r x) := by
  intro blocks
  induction blocks with
  | nil => intro r x err _; simp [correctedBlocks]
  | cons b bs ih =>
    intro r x err he
    have key : ∀ t : ℕ, |((x + moveOf n r t : ℤ) : ℚ) - ((t : ℚ) - t0) * n / 2 ^ 34| ≤ err + 3 / 2 := by
      intro t
      have := move_near n hn r t
      obtain ⟨a1, a2⟩ := abs_le.mp this
      obtain ⟨b1, b2⟩ := abs_le.mp he
      rw [abs_le]
      push_cast
      have e : ((t : ℚ) - t0) * n / 2 ^ 34 = ((t : ℚ) - r) * n / 2 ^ 34 + ((r : ℚ) - t0) * n / 2 ^ 34 := by ring
      rw [e]
      exact ⟨by linarith, by linarith⟩
    have hlen : (0 : ℚ) ≤ 3 / 2 * bs.length := by positivity
    rw [List.flatten_cons, correctedBlocks]
    refine List.rel_append ?_ ?_
    · rw [List.forall₂_map_right_iff, List.forall₂_same]
      intro e _
      refine ⟨rfl, x + moveOf n r e.1, ?_, ?_⟩
      · exact Int.toNat_of_nonneg (Int.emod_nonneg _ (by norm_num))
      · refine (key e.1).trans ?_
        rw [List.length_cons]
        push_cast
        linarith
    · have h := ih ((b.getLast?.map Prod.fst).getD r) (x + moveOf n r ((b.getLast?.map Prod.fst).getD r)) (err + 3 / 2) (key _)
      have e : err + 3 / 2 * ((b :: bs).length : ℚ) = err + 3 / 2 + 3 / 2 * (bs.length : ℚ) := by
        rw [List.length_cons]
        push_cast
        ring
      rw [e]
      exact h

/-- `freqcd [-x] -i fin -o fout -f v` as configuration. -/
theorem freqcd_config (prog fin fout v : Bytes) (x : Bool) (n : ℤ) (g1 : GoodName fin) (g2 : GoodName fout) (hnum : Numeral v n)
    (hb : |n| < 2 ^ 21) :
    Spec.Ends ([prog] ++ (if x then [[45, 120]] else []) ++ [[45, 105], fin, [45, 111], fout, [45, 102], v])
      (.ok (⟨BitVec.ofInt 32 n, x, fin, fout, []⟩ : Config)) := by
  have hb' := abs_lt.mp hb
  have hof : (BitVec.ofInt 32 n).toInt = n := by
    rw [BitVec.toInt_ofInt]
    exact Int.bmod_eq_of_le (by omega) (by omega)
  obtain ⟨os, hos⟩ : ∃ os : List Item, os = (if x then [Item.flag 120] else []) ++ [Item.arg 105 fin, Item.arg 111 fout, Item.arg 102 v] :=
    ⟨_, rfl⟩
  have hfl : decide (Item.flag 120 ∈ os) = x := by
    rw [hos]; cases x <;> simp
  have la1 : lastArg 102 os = some v := by
    rw [hos]; cases x <;> simp [lastArg]
  have la2 : lastArg 70 os = none := by
    rw [hos]; cases x <;> simp [lastArg]
  have la3 : lastArg 105 os = some fin := by
    rw [hos]; cases x <;> simp [lastArg]
  have la4 : lastArg 111 os = some fout := by
    rw [hos]; cases x <;> simp [lastArg]
  have hno : Item.flag 100 ∉ os := by
    rw [hos]; cases x <;> simp
  have hwri : Written os ((if x then [[45, 120]] else []) ++ [[45, 105], fin, [45, 111], fout, [45, 102], v]) := by
    have base : Written [Item.arg 105 fin, Item.arg 111 fout, Item.arg 102 v] [[45, 105], fin, [45, 111], fout, [45, 102], v] :=
      Written.separate [] 105 fin _ _ (by simp) (by simp [ArgLetter]) (Written.separate [] 111 fout _ _ (by simp) (by simp [ArgLetter])
        (Written.separate [] 102 v _ _ (by simp) (by simp [ArgLetter]) Written.nil))
    rw [hos]
    cases x with
    | false => simpa using base
    | true =>
      have := Written.flags [120] _ _ (by simp) (by simp [FlagLetter]) base
      simpa using this
  have hsound : Sound os := by
    intro it hit
    rw [hos] at hit
    rcases List.mem_append.mp hit with h | h
    · have : it = Item.flag 120 := by
        cases x <;> simp at h
        exact h
      rw [this]
      exact Or.inl rfl
    · simp only [List.mem_cons, List.not_mem_nil, or_false] at h
      rcases h with rfl | rfl | rfl
      · exact Or.inl ⟨Or.inl rfl, g1⟩
      · exact Or.inl ⟨Or.inr (Or.inl rfl), g2⟩
      · exact Or.inr ⟨rfl, n, hnum, by omega, by omega⟩
  have hends := C53_meaning prog os _ hwri hsound n (by rw [la1]; exact hnum)
  simp only [if_neg hno] at hends
  rw [if_pos (Or.inl (by rw [hof]; exact hb)), hfl, la2, la3, la4] at hends
  simpa using hends

theorem filtered_sorted (F : FilterArgs) (ra : List (Nat × Nat)) (h : (ra.map Prod.fst).Pairwise (· ≤ ·)) :
    ((filtered F ra).map Prod.fst).Pairwise (· ≤ ·) := by
  unfold filtered
  rw [List.map_map]
  have e : (Prod.fst ∘ fun r : Nat × Nat => (r.1, leftBits F r.2)) = Prod.fst := rfl
  rw [e]
  exact h.sublist ((List.filter_sublist).map _)

/-- The events that come out, which do not depend on the environment of `freqcd`. -/
theorem three_steps (fw : Nat) (hfw : 54 ≤ fw) (files : Files) (l l2 l' l2' : List Setting) (f g : Fmt) (X x y : Bool) (F G : FilterArgs)
    (A A1 B1 B : Word) (h : ConvertCall l l2 f X .a1 x F A A1) (h' : ConvertCall l' l2' .a1 x g y G B1 B) (hG : ¬ Timed G)
    (ra : List (Nat × Nat)) (hra : Convertible f F ra) (hs : (ra.map Prod.fst).Pairwise (· ≤ ·)) (fA : files A = some (fileOf f X ra))
    (prog v : Bytes) (n : ℤ) (hv : Numeral v n) (hn : |n| < 2 ^ 21) (gA : GoodName (textBytes A1)) (gB : GoodName (textBytes B1))
    (hne : textBytes A1 ≠ textBytes B1) :
    ∃ evs, List.Forall₂ (CorrectedEvent n (((filtered F ra).head?.map Prod.fst).getD 0)
        (3 / 2 * (((filtered F ra).length + 1023) / 1024 : ℕ))) (filtered F ra) evs ∧
      ThreeSteps fw files (convertWords l l2 A A1) prog x A1 B1 v (((filtered F ra).length + 1023) / 1024) (convertWords l' l2' B1 B) B
        (fileOf g y (filtered G evs)) := by
  have hval := filtered_valid F ra hra.1
  have hof : (BitVec.ofInt 32 n).toInt = n := by
    have hb' := abs_lt.mp hn
    rw [BitVec.toInt_ofInt]
    exact Int.bmod_eq_of_le (by omega) (by omega)
  obtain ⟨evs, hevs⟩ : ∃ evs, evs = correctedBlocks n (groups 1023 (filtered F ra)) (((filtered F ra).head?.map Prod.fst).getD 0) 0 := ⟨_, rfl⟩
  have hnear := corrected_near n hn (((filtered F ra).head?.map Prod.fst).getD 0) (groups 1023 (filtered F ra))
    (((filtered F ra).head?.map Prod.fst).getD 0) 0 0 (by simp)
  rw [groups_flatten, groups_length, zero_add, ← hevs] at hnear
  have hvalid : ∀ e ∈ evs, Valid e := by
    intro e he
    have hh := List.forall₂_iff_get.mp hnear
    obtain ⟨i, hi, rfl⟩ := List.mem_iff_getElem.mp he
    have hi' : i < (filtered F ra).length := by rw [hh.1]; exact hi
    obtain ⟨k1, c, k2, -⟩ := hh.2 i hi' hi
    simp only [List.get_eq_getElem] at k1 k2
    have he0 := List.getElem_mem hi'
    generalize (filtered F ra)[i] = e0 at k1 k2 he0
    generalize evs[i] = e at k1 k2
    refine ⟨?_, ?_⟩
    · have := Int.emod_lt_of_pos ((e0.1 : ℤ) + c) (show (0 : ℤ) < 2 ^ 54 by norm_num)
      rw [← k2] at this
      exact_mod_cast this
    · rw [k1]; exact (hval e0 he0).2
  refine ⟨evs, hnear, _, convert_call fw hfw files h ra hra fA, ?_⟩
  intro W hW hwr m rounds hm hr hlen
  have hW' : W.files (textBytes A1) = some (fileOf .a1 x (filtered F ra)) := by
    rw [hW]
    unfold Files.set
    rw [if_pos rfl]
  obtain ⟨o, h1, h2, h3⟩ := C95_exact W _ m hm rounds _ (freqcd_config prog (textBytes A1) (textBytes B1) v x n gA gB hv hn)
    ⟨fun _ => by show W.files (textBytes A1) ≠ none; rw [hW']; simp, fun e => absurd rfl e, fun _ => ⟨hwr, hne, fun e => gB.1 e.symm⟩⟩ (by rw [hof]; exact hn)
    (filtered F ra) (by
      show FWorld.input W (textBytes A1) = _
      unfold FWorld.input
      rw [if_neg gA.1, hW']
      rfl)
    (fun e he => ⟨(hval e he).1, (hval e he).2.trans (by norm_num)⟩) (filtered_sorted F ra hs) (groups 1023 (filtered F ra))
    (groups_batching 1023 _) hr (by rw [groups_length]; exact hlen)
  refine ⟨o, h1, h2, ?_⟩
  intro files2 hf2
  simp only [hof] at h3
  rw [← hevs] at h3
  refine convert_call fw hfw files2 h' evs ⟨hvalid, trivial, fun e => absurd e hG⟩ ?_
  rw [hf2, h3]
  rfl

/-- **C140** `parse_timestamps` of a recording of any format to a timestamp file, `freqcd` on this file, and `parse_timestamps` of the result
to any format: all three succeed, and the last file holds the events of the recording that pass the filters, in the same order and with the
same detectors, at the corrected times: moved by n/2^34 of the time since the first event, up to 3/2 units of 4 ps for every 1024 events. -/
theorem C140_corrected (fw : Nat) (hfw : 54 ≤ fw) (files : Files) (l l2 l' l2' : List Setting) (f g : Fmt) (X x y : Bool) (F G : FilterArgs)
    (A A1 B1 B : Word) (h : ConvertCall l l2 f X .a1 x F A A1) (h' : ConvertCall l' l2' .a1 x g y G B1 B) (hG : ¬ Timed G)
    (ra : List (Nat × Nat)) (hra : Convertible f F ra) (hs : (ra.map Prod.fst).Pairwise (· ≤ ·)) (fA : files A = some (fileOf f X ra))
    (prog v : Bytes) (n : ℤ) (hv : Numeral v n) (hn : |n| < 2 ^ 21) (gA : GoodName (textBytes A1)) (gB : GoodName (textBytes B1))
    (hne : textBytes A1 ≠ textBytes B1) :
    ∃ files1, tsCli fw (convertWords l l2 A A1) files = .ran ⟨files1, none, none⟩ ∧
      ∀ (W : FWorld), W.files (textBytes A1) = files1 A1 → W.writable (textBytes B1) = true → ∀ (m : FMemory) (rounds : List Round),
        FMemory.Sized m → (∀ r ∈ rounds, FullRound r) → ((filtered F ra).length + 1023) / 1024 < rounds.length →
        ∃ o, Outcome W ([prog] ++ (if x then [[45, 120]] else []) ++ [[45, 105], textBytes A1, [45, 111], textBytes B1, [45, 102], v]) m rounds o ∧
          o.status = some 0 ∧ ∀ files2 : Files, files2 B1 = some (FOutcome.output o (textBytes B1)) →
            ∃ evs, tsCli fw (convertWords l' l2' B1 B) files2 = .ran ⟨files2.set B (fileOf g y (filtered G evs)), none, none⟩ ∧
              List.Forall₂ (CorrectedEvent n (((filtered F ra).head?.map Prod.fst).getD 0)
                (3 / 2 * (((filtered F ra).length + 1023) / 1024 : ℕ))) (filtered F ra) evs := by
  obtain ⟨evs, h1, files1, h2, h3⟩ := three_steps fw hfw files l l2 l' l2' f g X x y F G A A1 B1 B h h' hG ra hra hs fA prog v n hv hn gA gB hne
  refine ⟨files1, h2, fun W hW hwr m rounds hm hr hlen => ?_⟩
  obtain ⟨o, o1, o2, o3⟩ := h3 W hW hwr m rounds hm hr hlen
  exact ⟨o, o1, o2, fun files2 hf2 => ⟨evs, o3 files2 hf2, h1⟩⟩

/-! ## Instances -/

/-- The options of `-A c -a e`. -/
def plainSettings (c e : Char) : List Setting :=
  [.pair ⟨["-A".toList], .value, "A", true, isFormat⟩ ['-', 'A'] [c], .pair (argStore ["-a"] "a" isFormat) ['-', 'a'] [e]]

theorem plain_sets (c e : Char) : cmdSets (plainSettings c e) = [("A", [[c]]), ("a", [[e]])] := rfl

/-- No filters. -/
def noFilter : FilterArgs := ⟨none, false, false, none, none⟩

theorem noFilter_all (raws : List (Nat × Nat)) : filtered noFilter raws = raws := by
  have h1 : ∀ r, passes noFilter r = true := by
    intro r; simp [passes, noFilter, InWindow]
  have h2 : ∀ r : Nat × Nat, (r.1, leftBits noFilter r.2) = r := fun r => rfl
  unfold filtered
  rw [List.filter_eq_self.mpr fun r _ => h1 r]
  exact (List.map_congr_left fun r _ => h2 r).trans (List.map_id _)

/-- `parse_timestamps -A c -a e inp out`. -/
theorem plain_call (c e : Char) (f g : Fmt) (hc : FmtText [c] f) (he : FmtText [e] g) (inp out : Word) (h : PlainWord inp ∧ PlainWord out)
    (hne : out ≠ [] ∧ inp ≠ out) : ConvertCall (plainSettings c e) [] f false g false noFilter inp out := by
  have given : ∀ d, Given (plainSettings c e) d ↔ ∃ x ∈ cmdSets (plainSettings c e), x.1 = d := fun d => Iff.rfl
  have none_ : ∀ d, d ≠ "A" → d ≠ "a" → lastSet (plainSettings c e) d = none := by
    intro d h1 h2
    rw [lastSet, plain_sets]
    simp [Ne.symm h1, Ne.symm h2]
  have ok : ∀ {x : Char} {f : Fmt}, FmtText [x] f → isFormat [x] = true ∧ PlainWord [x] := by
    intro x f hx
    rcases hx with ⟨h, -⟩ | ⟨h, -⟩ | ⟨h, -⟩ <;> rw [h] <;> exact ⟨by decide, Or.inl (by decide)⟩
  refine ⟨?_, ?_, ?_, ?_, by simp [noFilter], ?_, ?_, h, hne⟩
  · rw [List.append_nil]
    intro s hs
    simp only [plainSettings, List.mem_cons, List.not_mem_nil, or_false] at hs
    rcases hs with rfl | rfl
    · exact ⟨by simp [tsSpec], by decide, rfl, (ok hc).1, (ok hc).2⟩
    · exact ⟨by simp [tsSpec], by decide, rfl, (ok he).1, (ok he).2⟩
  · rw [List.append_nil]
    exact ⟨⟨[c], by rw [lastSet, plain_sets]; simp, hc⟩, by rw [given, plain_sets]; simp⟩
  · rw [List.append_nil]
    exact ⟨Or.inr ⟨[e], by rw [lastSet, plain_sets]; simp, he⟩, by rw [given, plain_sets]; simp⟩
  · rw [List.append_nil]
    refine ⟨⟨fun _ => rfl, fun v n e _ => ?_⟩, ?_, ?_, ⟨fun _ => rfl, fun v n e _ => ?_⟩, ⟨fun _ => rfl, fun v n e _ => ?_⟩, fun v e => ?_,
      fun v e => ?_, fun v e => ?_⟩
    · rw [none_ _ (by decide) (by decide)] at e; simp at e
    · rw [given, plain_sets]; simp [noFilter]
    · rw [given, plain_sets]; simp [noFilter]
    · rw [none_ _ (by decide) (by decide)] at e; simp at e
    · rw [none_ _ (by decide) (by decide)] at e; simp at e
    · rw [none_ _ (by decide) (by decide)] at e; simp at e
    · rw [none_ _ (by decide) (by decide)] at e; simp at e
    · rw [none_ _ (by decide) (by decide)] at e; simp at e
  · rw [List.append_nil, given, plain_sets]; simp
  · rw [List.append_nil, given, plain_sets]; simp

/-- `parse_timestamps -A 2 -a 1 a b`, `freqcd -i b -o c -f 1000000` and `parse_timestamps -A 1 -a 0 c d`, for a text file `a` of events in order
of time (up to 2^53 units of 4 ps): the text file `d` holds the same events, moved by 1000000/2^34 of the time since the first event. -/
theorem C140_instance (fw : Nat) (hfw : 54 ≤ fw) (files : Files) (raws : List (Nat × Nat)) (hv : ∀ r ∈ raws, r.1 < 2 ^ 53 ∧ r.2 < 16)
    (hs : (raws.map Prod.fst).Pairwise (· ≤ ·)) (hl : raws.length ≤ 1024) (fA : files ['a'] = some (fileOf .a2 false raws)) :
    ∃ files1, tsCli fw ["-A".toList, ['2'], "-a".toList, ['1'], ['a'], ['b']] files = .ran ⟨files1, none, none⟩ ∧
      ∃ o, Outcome ⟨fun v => if v = [98] then files1 ['b'] else none, fun _ => true, []⟩
        [[], [45, 105], [98], [45, 111], [99], [45, 102], [49, 48, 48, 48, 48, 48, 48]]
        ⟨List.replicate 8192 0, List.replicate 8192 0, List.replicate 100 0, 7, 9⟩ [rd 8192, rd 8192] o ∧ o.status = some 0 ∧
      ∃ evs, tsCli fw ["-A".toList, ['1'], "-a".toList, ['0'], ['c'], ['d']] (files1.set ['c'] (FOutcome.output o [99])) =
          .ran ⟨(files1.set ['c'] (FOutcome.output o [99])).set ['d'] (fileOf .a0 false evs), none, none⟩ ∧
        List.Forall₂ (CorrectedEvent 1000000 ((raws.head?.map Prod.fst).getD 0) (3 / 2)) raws evs := by
  have num : Numeral [49, 48, 48, 48, 48, 48, 48] 1000000 :=
    ⟨[], [], [49, 48, 48, 48, 48, 48, 48], rfl, by simp, by simp, by decide, Or.inl ⟨rfl, by decide⟩⟩
  have hfull : FullRound (rd 8192) := ⟨rfl, ⟨8192, rfl, le_rfl⟩, rfl, 8192, rfl, le_rfl⟩
  have hval : ∀ r ∈ raws, Valid r := fun r hr => ⟨(hv r hr).1.trans (by norm_num), (hv r hr).2⟩
  have c1 := plain_call '2' '1' .a2 .a1 (Or.inr (Or.inr ⟨rfl, rfl⟩)) (Or.inr (Or.inl ⟨rfl, rfl⟩)) ['a'] ['b']
    ⟨Or.inl (by decide), Or.inl (by decide)⟩ ⟨by simp, by decide⟩
  have c2 := plain_call '1' '0' .a1 .a0 (Or.inr (Or.inl ⟨rfl, rfl⟩)) (Or.inl ⟨rfl, rfl⟩) ['c'] ['d']
    ⟨Or.inl (by decide), Or.inl (by decide)⟩ ⟨by simp, by decide⟩
  obtain ⟨files1, k1, k2⟩ := C140_corrected fw hfw files (plainSettings '2' '1') [] (plainSettings '1' '0') [] .a2 .a0 false false false noFilter
    noFilter ['a'] ['b'] ['c'] ['d'] c1 c2 (by simp [Timed, noFilter]) raws ⟨hval, Or.inl fun r hr => (hv r hr).1, by simp [Timed, noFilter]⟩ hs fA
    [] _ 1000000 num (by norm_num) ⟨by simp [textBytes], by simp [textBytes], by decide⟩ ⟨by simp [textBytes], by simp [textBytes], by decide⟩
    (by decide)
  rw [noFilter_all] at k2
  refine ⟨files1, k1, ?_⟩
  have hlen : (raws.length + 1023) / 1024 ≤ 1 := by omega
  obtain ⟨o, o1, o2, o3⟩ := k2 ⟨fun v => if v = [98] then files1 ['b'] else none, fun _ => true, []⟩
    (by rw [show textBytes ['b'] = [98] by decide]; simp) rfl
    ⟨List.replicate 8192 0, List.replicate 8192 0, List.replicate 100 0, 7, 9⟩ [rd 8192, rd 8192]
    ⟨List.length_replicate, List.length_replicate, List.length_replicate⟩
    (by intro r hr; simp only [List.mem_cons, List.not_mem_nil, or_false, or_self] at hr; rw [hr]; exact hfull)
    (by simp only [List.length_cons, List.length_nil]; omega)
  refine ⟨o, o1, o2, ?_⟩
  obtain ⟨evs, e1, e2⟩ := o3 (files1.set ['c'] (FOutcome.output o [99])) (if_pos rfl)
  rw [noFilter_all] at e1
  refine ⟨evs, e1, e2.imp fun e e' h => ⟨h.1, ?_⟩⟩
  obtain ⟨c, h1, h2⟩ := h.2
  refine ⟨c, h1, h2.trans ?_⟩
  have : (((raws.length + 1023) / 1024 : ℕ) : ℚ) ≤ 1 := by exact_mod_cast hlen
  linarith

/-- The events of the example of C139, at other detectors. -/
def otherEvents (d : Nat) : List (Nat × Nat) := [0, 512, 1024, 1280, 1792, 2560, 2688, 3328, 3840, 16777216].map fun t => (t, d)

theorem self_on (files : Files) (a : List (Nat × Nat)) (hf : files ['b'] = some (fileOf .a1 false a)) : FpOn files (selfFp ['b'] '2' '1') a a := by
  refine ⟨selfFp_call files ['b'] (Or.inl (by decide)) (by rw [hf]; rfl) '2' '1' 2 1 rfl rfl (by decide) (by decide) (by decide) (by decide),
    ⟨['b'], ['b'], false, (selfFp_last _ _ _).1, (selfFp_last _ _ _).2.1, by simpa using (selfFp_none ['b'] '2' '1' "legacy" (by decide)).2, hf, hf⟩,
    ?_, ?_⟩
  · exact (selfFp_none _ _ _ _ (by decide)).1
  · exact (selfFp_none _ _ _ _ (by decide)).1

/-- `parse_timestamps -A 0 -a 1 a b` for the text file of these events, and then `fpfind -t b -T b -q 4 -R 1 -s 4096 -S 2 -r 1`: what is printed
is what C139 says for the detector 1. -/
theorem C140_fpfind_instance (fw : Nat) (hfw : 54 ≤ fw) (files : Files) (dirs : Word → EpochDir)
    (fA : files ['a'] = some (fileOf .a0 false (otherEvents 8))) :
    ∃ files1, tsCli fw ["-A".toList, ['0'], "-a".toList, ['1'], ['a'], ['b']] files = .ran ⟨files1, none, none⟩ ∧
      files1 ['b'] ≠ some selfBytes ∧ ∀ line,
      FpPrints scanEnv ["-t".toList, ['b'], "-T".toList, ['b'], "-q".toList, "4".toList, "-R".toList, "1".toList, "-s".toList, "4096".toList,
        "-S".toList, "2".toList, "-r".toList, "1".toList] files1 dirs (.ok (some line)) ↔ line = "0.0\t0\n".toList := by
  have c1 := plain_call '0' '1' .a0 .a1 (Or.inl ⟨rfl, rfl⟩) (Or.inr (Or.inl ⟨rfl, rfl⟩)) ['a'] ['b']
    ⟨Or.inl (by decide), Or.inl (by decide)⟩ ⟨by simp, by decide⟩
  have v8 : ∀ e ∈ otherEvents 8, Valid e := by unfold Valid; decide
  have v1 : ∀ e ∈ otherEvents 1, Valid e := by unfold Valid; decide
  have h := convert_call fw hfw files c1 (otherEvents 8) ⟨v8, by unfold Representable; decide, by simp [Timed, noFilter]⟩ fA
  rw [noFilter_all] at h
  refine ⟨_, h, ?_, fun line => ?_⟩
  · unfold Files.set
    rw [if_pos rfl]
    decide +kernel
  have hb : (files.set ['b'] (fileOf .a1 false (otherEvents 8))) ['b'] = some (fileOf .a1 false (otherEvents 8)) := if_pos rfl
  have hself : selfBytes = fileOf .a1 false (otherEvents 1) := by decide +kernel
  have pl : PlainWord ['b'] := Or.inl (by decide)
  rw [← C139_call_instance (fun _ => some selfBytes) dirs ['b'] pl rfl line]
  have key := fun fuel => C140_times scanEnv fuel _ (fun _ => some selfBytes) dirs dirs (selfFp ['b'] '2' '1') (selfFp ['b'] '2' '1') (otherEvents 8)
    (otherEvents 8) (otherEvents 1) (otherEvents 1) (self_on _ _ hb) (self_on _ _ (by rw [hself])) (fun d _ => ⟨rfl, Iff.rfl⟩) (by
      intro e he
      simp only [List.mem_append] at he
      rcases he with ((he | he) | he) | he
      · exact v8 e he
      · exact v8 e he
      · exact v1 e he
      · exact v1 e he) (by decide) (by decide)
  unfold FpPrints
  refine exists_congr fun N => forall_congr' fun fuel => imp_congr_right fun _ => ?_
  rw [show fpCli scanEnv fuel ["-t".toList, ['b'], "-T".toList, ['b'], "-q".toList, "4".toList, "-R".toList, "1".toList, "-s".toList,
    "4096".toList, "-S".toList, "2".toList, "-r".toList, "1".toList] _ dirs = _ from key fuel]
  rfl

/-- Instance of `C97_shell`: what C139 says about `fpfind -t b -T b -q 4 -R 1 -s 4096 -S 2 -r 1` holds for these events at any later time. -/
theorem C97_shell_instance (files : Files) (dirs : Word → EpochDir) (c : ℕ) (hc : c < 2 ^ 53)
    (fb : files ['b'] = some (fileOf .a1 false ((otherEvents 4).map fun e => (e.1 + c, e.2)))) (line : List Char) :
    FpPrints scanEnv ["-t".toList, ['b'], "-T".toList, ['b'], "-q".toList, "4".toList, "-R".toList, "1".toList, "-s".toList, "4096".toList,
      "-S".toList, "2".toList, "-r".toList, "1".toList] files dirs (.ok (some line)) ↔ line = "0.0\t0\n".toList := by
  have v4 : ∀ e ∈ (otherEvents 4).map fun e => (e.1 + c, e.2), Valid e := by
    intro e he
    obtain ⟨e0, h0, rfl⟩ := List.mem_map.mp he
    have h1 : e0.1 < 2 ^ 53 ∧ e0.2 < 16 := (by decide : ∀ e ∈ otherEvents 4, e.1 < 2 ^ 53 ∧ e.2 < 16) e0 h0
    refine ⟨?_, h1.2⟩
    show e0.1 + c < 2 ^ 54
    omega
  have v1 : ∀ e ∈ otherEvents 1, Valid e := by unfold Valid; decide
  have hself : selfBytes = fileOf .a1 false (otherEvents 1) := by decide +kernel
  have pl : PlainWord ['b'] := Or.inl (by decide)
  have hs : (otherEvents 4).map (fun e => (e.1 : ℤ)) = (otherEvents 1).map fun e => (e.1 : ℤ) := by decide
  have ea : ((otherEvents 4).map fun e => (e.1 + c, e.2)).map (fun e => (e.1 : ℤ)) = (otherEvents 1).map fun e => (e.1 : ℤ) + (c : ℤ) := by
    have h1 : ((otherEvents 4).map fun e => (e.1 + c, e.2)).map (fun e => (e.1 : ℤ)) = ((otherEvents 4).map (fun e => (e.1 : ℤ))).map (· + (c : ℤ)) := by
      rw [List.map_map, List.map_map]
      refine List.map_congr_left fun e _ => ?_
      simp
    rw [h1, hs, List.map_map]
    rfl
  rw [← C139_call_instance (fun _ => some selfBytes) dirs ['b'] pl rfl line]
  have key := fun fuel => C97_shell scanEnv rfl rfl fuel (fun _ => some selfBytes) files dirs dirs (selfFp ['b'] '2' '1') (selfFp ['b'] '2' '1')
    (otherEvents 1) (otherEvents 1) _ _ (self_on _ _ (by rw [hself])) (self_on _ _ fb) (fun d _ => ⟨rfl, Iff.rfl⟩) (by
      intro e he
      simp only [List.mem_append] at he
      rcases he with ((he | he) | he) | he
      · exact v1 e he
      · exact v1 e he
      · exact v4 e he
      · exact v4 e he) c ea ea 0 (by
      intro x hx
      have := hx.1 (selfFp_none ['b'] '2' '1' _ (by decide)).1
      rw [Option.some.inj this]
      norm_num) (by norm_num)
  unfold FpPrints
  refine exists_congr fun N => forall_congr' fun fuel => imp_congr_right fun _ => ?_
  rw [show fpCli scanEnv fuel ["-t".toList, ['b'], "-T".toList, ['b'], "-q".toList, "4".toList, "-R".toList, "1".toList, "-s".toList,
    "4096".toList, "-S".toList, "2".toList, "-r".toList, "1".toList] files dirs = _ from (key fuel).symm]
  rfl

end Fp
