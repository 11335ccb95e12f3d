import Verif.Spec.ArgNames
import Verif.Props.Argparse
import Verif.Lemmas.PlotCli

/-! # C132, C138: the names of the options -/
namespace Fp
open Spec

variable {S : ArgSpec}

theorem sign_chars (v : Word) : ∀ c ∈ v, c = '+' ∨ c = '-' ∨ c ∈ (signOf v).2 := by
  intro c hc
  unfold signOf
  split
  · rcases List.mem_cons.mp hc with rfl | h
    · simp
    · exact Or.inr (Or.inr h)
  · rcases List.mem_cons.mp hc with rfl | h
    · simp
    · exact Or.inr (Or.inr h)
  · exact Or.inr (Or.inr hc)

theorem sign_sub (v : Word) : ∀ c ∈ (signOf v).2, c ∈ v := by
  intro c hc
  unfold signOf at hc
  split at hc
  · exact List.mem_cons_of_mem _ hc
  · exact List.mem_cons_of_mem _ hc
  · exact hc

theorem accepts_text : Accepts anyText .text := fun _ => rfl

theorem accepts_whole : Accepts isInt .whole := by
  refine ⟨fun v n hv hd => by simp [isInt, digits_intOf hd hv], fun v h => ⟨isInt_ne h, fun c hc => ?_⟩⟩
  rcases sign_chars v c hc with h' | h' | h'
  · exact Or.inr (Or.inl h')
  · exact Or.inr (Or.inr h')
  · left
    by_cases hall : (signOf v).2.all Char.isDigit = true
    · exact List.all_eq_true.mp hall c h'
    · simp [isInt, intOf, digitsVal, hall] at h

theorem accepts_number : Accepts isFloat .number := by
  refine ⟨fun v x h => by simp [isFloat, decimalOf_spec h], fun v h => ?_⟩
  unfold isFloat decimalOf at h
  simp only at h
  split at h
  · simp at h
  · rename_i hne
    split at h
    · simp at h
    · rename_i n hn
      obtain ⟨c, r, e⟩ := List.exists_cons_of_ne_nil hne
      refine ⟨c, ?_, ?_⟩
      · have hc := e ▸ (List.mem_cons_self (a := c) (l := r))
        rcases List.mem_append.mp hc with h1 | h1
        · exact sign_sub v c ((List.takeWhile_sublist _).mem ((List.takeWhile_sublist _).mem h1))
        · exact sign_sub v c ((List.takeWhile_sublist _).mem ((List.dropWhile_sublist _).mem (List.mem_of_mem_drop h1)))
      · unfold digitsVal at hn
        split at hn
        · rename_i hall
          rw [e] at hall
          exact List.all_eq_true.mp hall c List.mem_cons_self
        · simp at hn

theorem accepts_format : Accepts isFormat .format := by
  intro v
  refine ⟨fun h => ⟨_, fmtOf_text h⟩, ?_⟩
  rintro ⟨f, ⟨rfl, -⟩ | ⟨rfl, -⟩ | ⟨rfl, -⟩⟩ <;> rfl

theorem accepts_output : Accepts isOutput .output := by
  intro v n hv hd
  unfold isOutput
  rw [digits_intOf hd hv]
  simp

/-- **C132**: the options of the programs are those of the tables: their names, what they set, whether they take values and of which
type. -/
theorem C132_names : List.Forall₂ OptRow.Is tsSpec.opts tsTable ∧ List.Forall₂ OptRow.Is fpSpec.opts fpTable ∧
    List.Forall₂ OptRow.Is genSpec.opts genTable := by
  refine ⟨?_, ?_, ?_⟩
  · unfold tsSpec tsTable
    repeat' refine List.Forall₂.cons ⟨rfl, rfl, rfl, rfl, ?_⟩ ?_
    all_goals first | exact accepts_whole | exact accepts_number | exact accepts_format | exact List.Forall₂.nil | trivial
  · unfold fpSpec fpTable commonTable
    simp only [List.cons_append, List.nil_append]
    repeat' refine List.Forall₂.cons ⟨rfl, rfl, rfl, rfl, ?_⟩ ?_
    all_goals first | exact accepts_whole | exact accepts_number | exact accepts_text | exact accepts_output | exact List.Forall₂.nil | trivial
  · unfold genSpec genTable
    repeat' refine List.Forall₂.cons ⟨rfl, rfl, rfl, rfl, ?_⟩ ?_
    all_goals first | exact accepts_whole | exact accepts_text | exact List.Forall₂.nil | trivial

/-- **C138**: the options of `fpplot` are those of the table. -/
theorem C138_names : List.Forall₂ OptRow.Is plotSpec.opts plotTable := by
  unfold plotSpec plotTable commonTable
  simp only [List.cons_append, List.nil_append]
  repeat' refine List.Forall₂.cons ⟨rfl, rfl, rfl, rfl, ?_⟩ ?_
  all_goals first | exact accepts_whole | exact accepts_number | exact accepts_text | exact List.Forall₂.nil | trivial

/-- The letters of a word up to one that is no option. -/
theorem cluster_unknown (hS : GoodSpec S) (fs : List (ArgOpt × Char))
    (hfs : ∀ x ∈ fs, x.1 ∈ S.opts ∧ ['-', x.2] ∈ x.1.names ∧ x.1.kind = .flag) {c : Char} (r : Word) (hc : c ≠ '=')
    (hu : ∀ o ∈ S.opts, ['-', c] ∉ o.names) (o1 : ArgOpt) (c1 : Char) (h1 : o1.kind = .flag) (hc1 : c1 ≠ '-') {x : Cluster}
    (h : cluster S o1 ['-', c1] false (fs.map (·.2) ++ c :: r) = .ok x) : x.extra = some ('-' :: c :: r) ∧ x.open_ = none := by
  induction fs generalizing o1 c1 x with
  | nil =>
    rw [cluster.eq_def] at h
    by_cases hd : c = '-'
    · simp [h1, ArgKind.takesNone, hd] at h
    · simp [h1, ArgKind.takesNone, hc1, hd, find_none (S := S) ['-', c] fun o ho n hn e => hu o ho (e ▸ hn)] at h
      rw [← h]
      exact ⟨rfl, rfl⟩
  | cons y fs ih =>
    obtain ⟨o2, c2⟩ := y
    obtain ⟨h2, h3, h4⟩ := hfs _ List.mem_cons_self
    obtain ⟨hc2, -⟩ := short_ne hS h2 h3
    have hfs' := fun y hy => hfs y (List.mem_cons_of_mem _ hy)
    obtain ⟨d, r', er, hd⟩ := letters_first (fs := fs) (c := c) (v := r) (fun y hy => (short_ne hS (hfs' y hy).1 (hfs' y hy).2.1).2) hc
    simp only [List.map_cons, List.cons_append] at h
    rw [er, cluster_next h1 hc1 hc2 (find_name hS h2 h3) hd] at h
    cases hx : cluster S o2 ['-', c2] false (d :: r') with
    | error e => simp [hx] at h
    | ok z =>
      simp only [hx, Except.ok.injEq] at h
      rw [← h]
      exact ih hfs' o2 c2 h4 hc2 (x := z) (er ▸ hx)

/-- Words that leave something unknown. -/
theorem loop_extra {h : OptHit} {w : Word} (hn : ∀ r t ex r', consumeOpt S h w r = .ok (t, ex, r') → ex ≠ []) (n : Nat)
    (rest : List (ArgCls × Word)) (ps : List ArgPos) (hx : (.o h, w) ∈ rest) {t : List (String × List Word)} {ex : List Word}
    {ps' : List ArgPos} (hl : argLoop S n rest ps = .ok (t, ex, ps')) : ex ≠ [] := by
  induction n generalizing rest ps t ex ps' with
  | zero => simp [argLoop] at hl
  | succ n ih =>
    have hany : rest.any (fun x => x.1.isOpt) = true := List.any_eq_true.mpr ⟨_, hx, rfl⟩
    unfold argLoop at hl
    rw [if_neg (by simp [hany])] at hl
    split at hl
    · split at hl
      · simp at hl
      · rename_i hc
        split at hl
        · simp at hl
        · rename_i hl2
          simp only [Except.ok.injEq, Prod.mk.injEq] at hl
          rw [← hl.2.1]
          rcases List.mem_cons.mp hx with hx | hx
          · simp only [Prod.mk.injEq, ArgCls.o.injEq] at hx
            obtain ⟨rfl, rfl⟩ := hx
            exact fun e => hn _ _ _ _ hc (List.append_eq_nil_iff.mp e).1
          · exact fun e => ih _ ps (consumeOpt_mem hc hx rfl) hl2 (List.append_eq_nil_iff.mp e).2
    · simp only at hl
      split at hl
      · split at hl
        · simp at hl
        · rename_i hl2
          simp only [Except.ok.injEq, Prod.mk.injEq] at hl
          rw [← hl.2.1]
          exact ih _ _ (consumePos_mem hx rfl) hl2
      · split at hl
        · simp at hl
        · rename_i hl2
          simp only [Except.ok.injEq, Prod.mk.injEq] at hl
          rw [← hl.2.1]
          exact fun e => ih _ _ (mem_dropWhile _ hx rfl) hl2 (List.append_eq_nil_iff.mp e).2

/-- **C132**: a command line with a word in which option letters are followed by a letter that is no option is refused, whatever else
it contains (with `-h` as well, the help may be printed). -/
theorem C132_letters (hS : GoodSpec S) {w : Word} (hw : UnknownLetter S w) (ws1 ws2 : List Word) (hd : ['-', '-'] ∉ ws1) :
    ∃ e, argParse S (ws1 ++ w :: ws2) = .error e := by
  obtain ⟨fs, c, r, rfl, hne, hfs, hc, hu⟩ := hw
  obtain ⟨⟨o1, c1⟩, fs, rfl⟩ := List.exists_cons_of_ne_nil hne
  obtain ⟨h1, h2, h3⟩ := hfs _ List.mem_cons_self
  have hfs' := fun y hy => hfs y (List.mem_cons_of_mem _ hy)
  obtain ⟨hc1, -⟩ := short_ne hS h1 h2
  obtain ⟨d, r', er, hd'⟩ := letters_first (fs := fs) (c := c) (v := r) (fun y hy => (short_ne hS (hfs' y hy).1 (hfs' y hy).2.1).2) hc
  simp only [List.map_cons, List.cons_append]
  have hp := parse_letters hS h1 h2 hd' (v := r')
  rw [← er] at hp
  have hcl := fun x => cluster_unknown hS fs hfs' r hc hu o1 c1 h3 hc1 (x := x)
  generalize fs.map (·.2) ++ c :: r = arg at *
  unfold argParse
  cases hcy : classify S (ws1 ++ ('-' :: c1 :: arg) :: ws2) with
  | none => exact ⟨_, rfl⟩
  | some l =>
    simp only
    split
    · exact ⟨_, rfl⟩
    · rename_i t ex ps hl
      have hm := classify_mem (by simp [er]) hp hd hcy
      have hex := loop_extra (fun rest t ex r' hcons => ?_) _ _ _ hm hl
      · rw [if_pos (Or.inr (Or.inr hex))]
        exact ⟨_, rfl⟩
      · unfold consumeOpt at hcons
        simp only at hcons
        cases hx : cluster S o1 ['-', c1] false arg with
        | error e => simp [hx] at hcons
        | ok x =>
          obtain ⟨e1, e2⟩ := hcl x hx
          simp only [hx, e1, e2] at hcons
          split at hcons
          · simp at hcons
          · simp only [Except.ok.injEq, Prod.mk.injEq] at hcons
            rw [← hcons.2.1]
            simp

/-- Such command lines run nothing. -/
theorem C132_letters_programs (env : NumEnv) (fuel fw : Nat) (files : Files) (dirs : Word → EpochDir) (w : Word) (ws1 ws2 : List Word)
    (hd : ['-', '-'] ∉ ws1) :
    (UnknownLetter fpSpec w → fpCli env fuel (ws1 ++ w :: ws2) files dirs = .exit 2) ∧
      (UnknownLetter tsSpec w → ∃ n, tsCli fw (ws1 ++ w :: ws2) files = .exit n) := by
  refine ⟨fun hw => ?_, fun hw => ?_⟩
  · obtain ⟨e, he⟩ := C132_letters fpSpec_good hw ws1 ws2 hd
    unfold fpCli
    rw [he]
  · obtain ⟨e, he⟩ := C132_letters tsSpec_good hw ws1 ws2 hd
    unfold tsCli
    rw [if_neg (by simp), he]
    cases e <;> exact ⟨_, rfl⟩

/-- **C132**: an option with a value of the wrong type is refused, after any settings and whatever follows. -/
theorem C132_type (hS : GoodSpec S) {l : List Setting} (hl : ∀ s ∈ l, s.Ok S) {o : ArgOpt} {n v : Word} (ho : o ∈ S.opts)
    (hn : n ∈ o.names) (hk : o.kind = .value) (hv : o.ok v = false) (hp : PlainWord v) (ws : List Word) :
    argParse S (cmdWords l ++ n :: v :: ws) = .error .error := by
  unfold argParse
  rw [classify_settings hS hl, classify_opt (name_head hS ho hn).2.1 (parse_name hS ho hn), classify_arg (plain_ne hp) (parse_plain hS hp)]
  cases hc : classify S ws with
  | none => rfl
  | some tail =>
    simp only [Option.map_some]
    have hlen := settings_length l
    obtain ⟨k, hk'⟩ : ∃ k, (l.flatMap Setting.cls ++ (ArgCls.o ⟨some o, n, false, none⟩, n) :: (ArgCls.a, v) :: tail).length + 1 =
        k + 1 + l.length := by
      refine ⟨(l.flatMap Setting.cls).length - l.length + tail.length + 2, ?_⟩
      simp only [List.length_append, List.length_cons]
      omega
    rw [hk', loop_settings hS hl, argLoop, if_neg (by simp [ArgCls.isOpt])]
    simp [consumeOpt, matchArgument, hk, takeActions, takeAction, hv]

/-- `-Xk` is no option of `parse_timestamps`. -/
theorem letters_Xk : UnknownLetter tsSpec "-Xk".toList :=
  ⟨[(argSwitch ["-X"] "X", 'X')], 'k', [], by decide, by simp,
    fun x hx => by
      rw [List.mem_singleton.mp hx]
      exact ⟨by simp [tsSpec], by decide, rfl⟩,
    by decide, by decide⟩

/-- `parse_timestamps -A1 -Xk FILE` and `fpfind -q abc` are refused. -/
theorem C132_letters_instance (env : NumEnv) (fuel fw : Nat) (files : Files) (dirs : Word → EpochDir) (file : Word) :
    (∃ n, tsCli fw ["-A1".toList, "-Xk".toList, file] files = .exit n) ∧ fpCli env fuel ["-q".toList, "abc".toList] files dirs = .exit 2 := by
  refine ⟨(C132_letters_programs env fuel fw files dirs _ ["-A1".toList] [file] (by decide)).2 letters_Xk, ?_⟩
  have := C132_type fpSpec_good (l := []) (by simp) (o := argStore ["-q", "--buffer-order"] "buffer_order" isInt) (n := "-q".toList)
    (v := "abc".toList) (by simp [fpSpec]) (by decide) rfl (by decide) (Or.inl (by decide)) []
  unfold fpCli
  simp only [cmdWords, List.flatMap_nil, List.nil_append] at this
  rw [this]

/-- **C138**, refusal: an unknown option of `fpplot`, anywhere before `--`, ends the program with status 2, and so does a value that is not of
the type of its option; nothing is drawn. -/
theorem C138_refused (rnd rndA : ℚ → ℚ) (fuel : Nat) (files : Files) (dirs : Word → EpochDir) :
    (∀ (w : Word) (ws1 ws2 : List Word), ['-', '-'] ∉ ws1 → Unknown plotSpec w →
      plotCli rnd rndA fuel (ws1 ++ w :: ws2) files dirs = .exit 2) ∧
    ∀ (l : List Setting) (o : ArgOpt) (n v : Word) (ws : List Word), (∀ s ∈ l, s.Ok plotSpec) → o ∈ plotSpec.opts → n ∈ o.names →
      o.kind = .value → o.ok v = false → PlainWord v → plotCli rnd rndA fuel (cmdWords l ++ n :: v :: ws) files dirs = .exit 2 := by
  refine ⟨fun w ws1 ws2 hd hw => ?_, fun l o n v ws hl ho hn hk hv hp => ?_⟩
  · obtain ⟨e, he⟩ := C132_unknown plotSpec_good hw ws1 ws2 hd
    unfold plotCli
    rw [he]
  · unfold plotCli
    rw [C132_type plotSpec_good hl ho hn hk hv hp ws]

/-- `fpplot -t A -T B --frequency=1` and `fpplot -t A -T B --freq 1ppm` are refused. -/
example (rnd rndA : ℚ → ℚ) (fuel : Nat) (files : Files) (dirs : Word → EpochDir) :
    plotCli rnd rndA fuel ["-t".toList, "A".toList, "-T".toList, "B".toList, "--frequency=1".toList] files dirs = .exit 2 ∧
    plotCli rnd rndA fuel ["--freq".toList, "1ppm".toList, "-t".toList, "A".toList] files dirs = .exit 2 := by
  refine ⟨?_, ?_⟩
  · exact (C138_refused rnd rndA fuel files dirs).1 "--frequency=1".toList ["-t".toList, "A".toList, "-T".toList, "B".toList] []
      (by decide) ⟨⟨'-', "frequency=1".toList, rfl, by decide⟩, fun h => absurd (looksNegative_spec h) (by decide), by decide, by decide, by decide⟩
  · exact (C138_refused rnd rndA fuel files dirs).2 [] (argStore ["--freq"] "freq" isFloat) "--freq".toList "1ppm".toList _ (by simp)
      (by simp [plotSpec]) (by decide) rfl (by decide) (Or.inl (by decide))

end Fp
