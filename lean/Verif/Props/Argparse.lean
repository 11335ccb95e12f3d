import Verif.Lemmas.Argparse

/-! # C132: Command lines -/
namespace Fp
open Spec

/-- A check for names. -/
def goodName (n : Word) : Bool := match n with
  | '-' :: '-' :: r => r ≠ [] ∧ '=' ∉ r
  | ['-', c] => c ≠ '=' ∧ c ≠ '.' ∧ c.isDigit = false
  | _ => false

theorem goodName_spec {n : Word} (h : goodName n = true) : (∃ c, ShortName n c) ∨ LongName n := by
  unfold goodName at h
  split at h
  · rename_i r
    exact Or.inr ⟨r, rfl, by simpa using h⟩
  · rename_i c hc
    simp at h
    exact Or.inl ⟨c, rfl, fun e => hc e, h⟩
  · simp at h

theorem tsSpec_good : GoodSpec tsSpec where
  names := fun o ho n hn => goodName_spec ((by decide : ∀ o ∈ tsSpec.opts, ∀ n ∈ o.names, goodName n = true) o ho n hn)
  nodup := by decide

theorem fpSpec_good : GoodSpec fpSpec where
  names := fun o ho n hn => goodName_spec ((by decide : ∀ o ∈ fpSpec.opts, ∀ n ∈ o.names, goodName n = true) o ho n hn)
  nodup := by decide

theorem genSpec_good : GoodSpec genSpec where
  names := fun o ho n hn => goodName_spec ((by decide : ∀ o ∈ genSpec.opts, ∀ n ∈ o.names, goodName n = true) o ho n hn)
  nodup := by decide

/-- The file names of `parse_timestamps`: perhaps `--`, the input file, perhaps the output file. -/
def fileWords (dashes : Bool) (infile : Word) (outfile : Option Word) : List Word :=
  (if dashes then [['-', '-']] else []) ++ infile :: outfile.toList

theorem ts_positionals (dashes : Bool) (infile : Word) (outfile : Option Word)
    (h : if dashes then ∀ o ∈ outfile, o ≠ ['-', '-'] else PlainWord infile ∧ ∀ o ∈ outfile, PlainWord o) :
    ∃ tail, classify tsSpec (fileWords dashes infile outfile) = some tail ∧ tail.any (fun x => x.1.isOpt) = false ∧
      consumePos tsSpec.pos tail = ([("infile", [infile]), ("outfile", outfile.toList)], [], []) := by
  cases dashes with
  | true =>
    refine ⟨(.dash, ['-', '-']) :: (infile :: outfile.toList).map fun v => (.a, v), ?_, ?_, ?_⟩
    · simp [fileWords, classify]
    · cases outfile <;> simp [ArgCls.isOpt]
    · cases outfile with
      | none => simp [tsSpec, consumePos, matchPos, ArgCls.isDash]
      | some o =>
        have : o ≠ ['-', '-'] := by simpa using h
        simp [tsSpec, consumePos, matchPos, ArgCls.isDash, this]
  | false =>
    simp only [Bool.false_eq_true, if_false] at h
    obtain ⟨h1, h2⟩ := h
    refine ⟨(infile :: outfile.toList).map fun v => (.a, v), ?_, ?_, ?_⟩
    · cases outfile with
      | none => simp [fileWords, classify_arg (plain_ne h1) (parse_plain tsSpec_good h1), classify]
      | some o =>
        have h3 := h2 o rfl
        show classify tsSpec [infile, o] = _
        rw [classify_arg (plain_ne h1) (parse_plain tsSpec_good h1), classify_arg (plain_ne h3) (parse_plain tsSpec_good h3)]
        simp [classify]
    · cases outfile <;> simp [ArgCls.isOpt]
    · have hi := plain_ne h1
      cases outfile with
      | none => simp [tsSpec, consumePos, matchPos, ArgCls.isDash, hi]
      | some o =>
        have h3 := plain_ne (h2 o rfl)
        simp [tsSpec, consumePos, matchPos, ArgCls.isDash, hi, h3]

theorem fmtOf_text {v : Word} (h : isFormat v = true) : FmtText v (fmtOf v) := by
  unfold isFormat at h
  simp at h
  rcases h with rfl | rfl | rfl
  · exact Or.inl ⟨rfl, rfl⟩
  · exact Or.inr (Or.inl ⟨rfl, rfl⟩)
  · exact Or.inr (Or.inr ⟨rfl, rfl⟩)

theorem argFloat_set (l : List Setting) (t : List (String × List Word)) (d : String) (h : argValue t d = lastSet l d) (y : Option ℚ) :
    FloatSet l d y ((argFloat t d).or y) := by
  unfold argFloat
  rw [h]
  refine ⟨fun e => by simp [e], fun v x e hx => by simp [e, decimalOf_spec hx]⟩

/-- A number that is given by digits, or not at all. -/
theorem argNat_set {l : List Setting} (hl : ∀ s ∈ l, s.Ok S) (t : List (String × List Word)) (d : String)
    (h : argValue t d = lastSet l d) (ok : Word → Bool) (hd : ∀ o ∈ S.opts, o.dest = d → o.kind = .value ∧ o.ok = ok)
    (hok : ∀ v, ok v = true → isInt v = true) (hdig : ∀ v, lastSet l d = some v → ∃ n, Digits v n) (y : ℕ) :
    ∃ n, argNat t d y = some n ∧ (lastSet l d = none → n = y) ∧ ∀ v m, lastSet l d = some v → Digits v m → n = m := by
  unfold argNat
  rw [h]
  rcases last_spec hl d ok hd with ⟨e, _⟩ | ⟨v, e, _, hv⟩
  · exact ⟨y, by simp [e], fun _ => rfl, fun v m e' => by simp [e] at e'⟩
  · obtain ⟨n, hn⟩ := hdig v e
    have h1 := digits_intOf hn (isInt_ne (hok v hv))
    refine ⟨n, by simp [e, h1], fun e' => by simp [e] at e', fun w m e' hm => ?_⟩
    rw [e] at e'
    obtain rfl : v = w := by simpa using e'
    have h2 := digitsVal_spec hn
    rw [digitsVal_spec hm] at h2
    simpa using h2.symm

/-- The first word of a setting is an option. -/
theorem cls_first {l : List Setting} (hl : l ≠ []) : ∃ h w r, l.flatMap Setting.cls = (.o h, w) :: r := by
  obtain ⟨s, l', rfl⟩ := List.exists_cons_of_ne_nil hl
  rw [List.flatMap_cons]
  unfold Setting.cls
  split <;> exact ⟨_, _, _, rfl⟩

theorem classify_plain (hS : GoodSpec S) (vs : List Word) (h : ∀ v ∈ vs, PlainWord v) (ws : List Word) :
    classify S (vs ++ ws) = (classify S ws).map ((vs.map fun v => (.a, v)) ++ ·) := by
  induction vs with
  | nil => simp
  | cons v vs ih =>
    rw [List.cons_append, classify_arg (plain_ne (h v List.mem_cons_self)) (parse_plain hS (h v List.mem_cons_self)),
      ih fun x hx => h x (List.mem_cons_of_mem _ hx), Option.map_map]
    rfl

/-- Options, names, options, and perhaps further names. -/
theorem ts_loop {l l2 : List Setting} (hl : ∀ s ∈ l ++ l2, s.Ok tsSpec) (h0 : l2 ≠ []) (infile : Word) (outfile extra : Option Word)
    (h : PlainWord infile ∧ ∀ o ∈ outfile, PlainWord o) (h4 : ∀ o ∈ extra, PlainWord o) :
    argParse tsSpec (cmdWords l ++ fileWords false infile outfile ++ cmdWords l2 ++ extra.toList) =
      let t := cmdSets l ++ [("infile", [infile]), ("outfile", outfile.toList)] ++ cmdSets l2
      if (∃ o ∈ tsSpec.opts, o.required = true ∧ ∀ x ∈ t, x.1 ≠ o.dest) ∨ extra ≠ none then .error .error else .ok t := by
  obtain ⟨hh, hw, hr, hfirst⟩ := cls_first h0
  obtain ⟨A, hA⟩ : ∃ A : List (ArgCls × Word), A = (infile :: outfile.toList).map fun v => (.a, v) := ⟨_, rfl⟩
  obtain ⟨E, hE⟩ : ∃ E : List (ArgCls × Word), E = extra.toList.map fun v => (.a, v) := ⟨_, rfl⟩
  have hcls : classify tsSpec (cmdWords l ++ fileWords false infile outfile ++ cmdWords l2 ++ extra.toList) =
      some (l.flatMap Setting.cls ++ (A ++ (l2.flatMap Setting.cls ++ E))) := by
    have e1 := classify_plain tsSpec_good extra.toList (by simpa using h4) []
    rw [List.append_nil] at e1
    rw [List.append_assoc, List.append_assoc, classify_settings tsSpec_good (fun s hs => hl s (List.mem_append_left _ hs))]
    have : fileWords false infile outfile = infile :: outfile.toList := rfl
    rw [this, classify_plain tsSpec_good _ (by
      intro v hv
      rcases List.mem_cons.mp hv with rfl | hv
      · exact h.1
      · exact h.2 v (by simpa using hv)), classify_settings tsSpec_good (fun s hs => hl s (List.mem_append_right _ hs)), e1]
    simp [classify, hA, hE]
  have hEopt : E.any (fun x => x.1.isOpt) = false := by
    rw [hE]
    cases extra <;> simp [ArgCls.isOpt]
  have hpos : ∀ r, consumePos tsSpec.pos (A ++ (.o hh, hw) :: r) =
      ([("infile", [infile]), ("outfile", outfile.toList)], [], (.o hh, hw) :: r) := by
    intro r
    have hi := plain_ne h.1
    cases outfile with
    | none => simp [hA, tsSpec, consumePos, matchPos, ArgCls.isDash, hi]
    | some o =>
      have h3 := plain_ne (h.2 o rfl)
      simp [hA, tsSpec, consumePos, matchPos, ArgCls.isDash, hi, h3]
  unfold argParse
  rw [hcls]
  simp only
  have hlen := settings_length l
  have hlen2 := settings_length l2
  have hAl : 1 ≤ A.length := by rw [hA]; simp
  obtain ⟨n, hn⟩ : ∃ n, (l.flatMap Setting.cls ++ (A ++ (l2.flatMap Setting.cls ++ E))).length + 1 = (n + 1 + l2.length + 1) + l.length := by
    simp only [List.length_append]
    exact ⟨(l.flatMap Setting.cls).length - l.length + (A.length - 1) + ((l2.flatMap Setting.cls).length - l2.length) + E.length, by omega⟩
  rw [hn, loop_settings tsSpec_good (fun s hs => hl s (List.mem_append_left _ hs))]
  have hstep : argLoop tsSpec (n + 1 + l2.length + 1) (A ++ (l2.flatMap Setting.cls ++ E)) tsSpec.pos =
      .ok ([("infile", [infile]), ("outfile", outfile.toList)] ++ cmdSets l2, extra.toList, []) := by
    have hfin : argLoop tsSpec (n + 1 + l2.length) (l2.flatMap Setting.cls ++ E) [] = .ok (cmdSets l2, extra.toList, []) := by
      rw [loop_settings tsSpec_good (fun s hs => hl s (List.mem_append_right _ hs)), argLoop, if_pos (by simp [hEopt])]
      · simp only [consumePos]
        rw [hE]
        cases extra <;> simp
      · intro _ _ _ e
        rw [hE] at e
        cases extra <;> simp at e
    have hA' : A ++ (l2.flatMap Setting.cls ++ E) = (.a, infile) :: (outfile.toList.map (fun v => (ArgCls.a, v)) ++ (l2.flatMap Setting.cls ++ E)) := by
      rw [hA]; rfl
    rw [hA', argLoop, if_neg, ← hA', hfirst, List.cons_append, hpos]
    · simp only
      rw [if_pos, ← List.cons_append, ← hfirst, hfin]
      simp only [List.length_append]
      omega
    · rw [hfirst]
      simp [ArgCls.isOpt]
    · intro _ _ _ e
      simp at e
  rw [hstep]
  simp only [List.append_assoc]
  exact if_congr (by cases extra <;> simp) rfl rfl

/-- What `parse_timestamps` does with the settings found. -/
theorem ts_meaning (fw : Nat) (files : Files) (l : List Setting) (hl : ∀ s ∈ l, s.Ok tsSpec) (hA : Given l "A")
    (hp : ∀ v, lastSet l "pfilter_pattern" = some v → ∃ n, Digits v n) (infile : Word) (outfile : Option Word) (argv : List Word)
    (hne : argv ≠ []) (t : List (String × List Word)) (hparse : argParse tsSpec argv = .ok t)
    (flag : ∀ d : String, d ≠ "infile" → d ≠ "outfile" → (argFlag t d = true ↔ Given l d))
    (val : ∀ d : String, d ≠ "infile" → d ≠ "outfile" → argValue t d = lastSet l d)
    (hin : argValue t "infile" = some infile) (hout : argValue t "outfile" = outfile) :
    ∃ a, tsCli fw argv files = .ran (tsMain fw a files) ∧ TsMeaning l a ∧ a.infile = infile ∧ a.outfile = outfile := by
  obtain ⟨n, hn1, hn2, hn3⟩ := argNat_set hl t "pfilter_pattern" (val _ (by decide) (by decide)) isInt
    (by simp [tsSpec, argSwitch, argStore]) (fun _ h => h) hp 0
  obtain ⟨a, ha, e1, e2, e3, e4, e5, e6, e7, e8, e9, e10, e11, e12, e13⟩ : ∃ a, tsArgs (t) = some a ∧
      a.inFmt = fmtOf ((argValue (t) "A").getD []) ∧
      a.legacyIn = argFlag (t) "X" ∧
      a.outFmt = fmtOf ((argValue (t) "a").getD ['1']) ∧
      a.legacyOut = argFlag (t) "x" ∧
      a.print = argFlag (t) "print" ∧
      a.filter.pattern = (if argFlag (t) "pfilter_pattern" then some n else none) ∧
      a.filter.mask = argFlag (t) "pfilter_mask" ∧
      a.filter.invert = argFlag (t) "pfilter_invert" ∧
      a.filter.start = argFloat (t) "tfilter_start" ∧
      a.filter.stop = argFloat (t) "tfilter_end" ∧
      a.inmemory = argFlag (t) "inmemory" ∧
      a.infile = infile ∧ a.outfile = argValue (t) "outfile" := by
    unfold tsArgs
    rw [hin, hn1]
    exact ⟨_, rfl, rfl, rfl, rfl, rfl, rfl, rfl, rfl, rfl, rfl, rfl, rfl, rfl, rfl⟩
  have hflo : ∀ d : String, d ≠ "infile" → d ≠ "outfile" → FloatSet l d none (argFloat (t) d) := by
    intro d h1 h2
    have := argFloat_set l t d (val d h1 h2) none
    rwa [Option.or_none] at this
  refine ⟨a, ?_, ⟨?_, ?_, ?_, ?_, ?_, ?_, ?_, ?_, ?_, ?_, ?_⟩, e12, e13.trans hout⟩
  · unfold tsCli
    rw [if_neg, hparse]
    · simp only
      rw [ha]
    · exact hne
  · rw [e1, val _ (by decide) (by decide)]
    rcases last_spec hl "A" isFormat (by simp [tsSpec, argSwitch, argStore]) with ⟨_, h4⟩ | ⟨v, h4, _, h5⟩
    · exact absurd hA h4
    · exact ⟨v, h4, by rw [h4]; exact fmtOf_text h5⟩
  · rw [e3, val _ (by decide) (by decide)]
    rcases last_spec hl "a" isFormat (by simp [tsSpec, argSwitch, argStore]) with ⟨h4, _⟩ | ⟨v, h4, _, h5⟩
    · exact Or.inl ⟨h4, by rw [h4]; rfl⟩
    · exact Or.inr ⟨v, h4, by rw [h4]; exact fmtOf_text h5⟩
  · rw [e2, flag _ (by decide) (by decide)]
  · rw [e4, flag _ (by decide) (by decide)]
  · rw [e5, flag _ (by decide) (by decide)]
  · rw [e6]
    rcases last_spec hl "pfilter_pattern" isInt (by simp [tsSpec, argSwitch, argStore]) with ⟨h4, h5⟩ | ⟨v, h4, h5, _⟩
    · rw [if_neg (fun h => h5 ((flag _ (by decide) (by decide)).mp h))]
      exact ⟨fun _ => rfl, fun v m e => by simp [h4] at e⟩
    · rw [if_pos ((flag _ (by decide) (by decide)).mpr h5)]
      exact ⟨fun e => by simp [h4] at e, fun v m e hm => by rw [hn3 v m e hm]⟩
  · rw [e7, flag _ (by decide) (by decide)]
  · rw [e8, flag _ (by decide) (by decide)]
  · rw [e9]
    exact hflo _ (by decide) (by decide)
  · rw [e10]
    exact hflo _ (by decide) (by decide)
  · rw [e11, flag _ (by decide) (by decide)]

theorem words_ne (s : Setting) : s.words ≠ [] := by
  cases s <;> simp [Setting.words]

/-- **C132** for `parse_timestamps`: with options in any order and any of the usual forms, `-A` among them, and then the names of the
input file and perhaps the output file, the program runs with what the options ask for; of options given several times, the last one
counts.  Options may also follow the names.  Names that begin with a dash can be given last, after `--`. -/
theorem C132_timestamps (fw : Nat) (files : Files) (l l2 : List Setting) (hl : ∀ s ∈ l ++ l2, s.Ok tsSpec) (hA : Given (l ++ l2) "A")
    (hp : ∀ v, lastSet (l ++ l2) "pfilter_pattern" = some v → ∃ n, Digits v n) (dashes : Bool) (infile : Word) (outfile : Option Word)
    (h : if dashes then l2 = [] ∧ ∀ o ∈ outfile, o ≠ ['-', '-'] else PlainWord infile ∧ ∀ o ∈ outfile, PlainWord o) :
    ∃ a, tsCli fw (cmdWords l ++ fileWords dashes infile outfile ++ cmdWords l2) files = .ran (tsMain fw a files) ∧
      TsMeaning (l ++ l2) a ∧ a.infile = infile ∧ a.outfile = outfile := by
  obtain ⟨u, hu⟩ : ∃ u : List (String × List Word), u = [("infile", [infile]), ("outfile", outfile.toList)] := ⟨_, rfl⟩
  have hparse : argParse tsSpec (cmdWords l ++ fileWords dashes infile outfile ++ cmdWords l2) = .ok (cmdSets l ++ u ++ cmdSets l2) := by
    have hreq : ¬ ∃ o ∈ tsSpec.opts, o.required = true ∧ ∀ x ∈ cmdSets l ++ u ++ cmdSets l2, x.1 ≠ o.dest := by
      rintro ⟨o, ho, hr, hx⟩
      have : o.dest = "A" := (by decide : ∀ o ∈ tsSpec.opts, o.required = true → o.dest = "A") o ho hr
      obtain ⟨x, hx1, hx2⟩ := hA
      refine hx x ?_ (hx2.trans this.symm)
      rw [cmdSets, List.flatMap_append, List.mem_append] at hx1
      rcases hx1 with h1 | h1
      · exact List.mem_append_left _ (List.mem_append_left _ h1)
      · exact List.mem_append_right _ h1
    by_cases h0 : l2 = []
    · subst h0
      obtain ⟨tail, h1, h2, h3⟩ := ts_positionals dashes infile outfile (by
        cases dashes with
        | true => exact h.2
        | false => exact h)
      have := parse_tail tsSpec_good (fun s hs => hl s (List.mem_append_left _ hs)) h1 h2 (l := l)
      rw [h3, ← hu] at this
      have e1 : cmdWords l ++ fileWords dashes infile outfile ++ cmdWords [] = cmdWords l ++ fileWords dashes infile outfile := by
        simp [cmdWords]
      have e2 : cmdSets l ++ u ++ cmdSets [] = cmdSets l ++ u := by simp [cmdSets]
      rw [e2] at hreq
      rw [e1, e2, this, if_neg]
      rintro (h4 | ⟨p, hp, _⟩ | hne)
      · exact hreq h4
      · simp at hp
      · simp at hne
    · obtain rfl : dashes = false := by
        cases dashes with
        | true => exact absurd h.1 h0
        | false => rfl
      have := ts_loop hl h0 infile outfile none h (by simp)
      simp only [Option.toList_none, List.append_nil] at this
      rw [this, ← hu, if_neg]
      rintro (h4 | h4)
      · exact hreq h4
      · exact h4 rfl
  have hu' : ∀ d : String, d ≠ "infile" → d ≠ "outfile" → u.filter (fun x => x.1 = d) = [] := by
    intro d hd1 hd2
    rw [hu]
    simp [hd1.symm, hd2.symm]
  have nosets : ∀ d : String, (∀ o ∈ tsSpec.opts, o.dest ≠ d) → ∀ l', (∀ s ∈ l', s ∈ l ++ l2) →
      (cmdSets l').filter (fun x => x.1 = d) = [] := by
    intro d hd l' hl'
    refine List.filter_eq_nil_iff.mpr fun x hx => ?_
    obtain ⟨o, ho, h4, _⟩ := sets_mem (fun s hs => hl s (hl' s hs)) hx
    simpa using fun e => hd o ho (h4.symm.trans e)
  have hfilter : ∀ d : String, d ≠ "infile" → d ≠ "outfile" →
      (cmdSets l ++ u ++ cmdSets l2).filter (fun x => x.1 = d) = (cmdSets (l ++ l2)).filter (fun x => x.1 = d) := by
    intro d h1 h2
    rw [List.filter_append, List.filter_append, hu' d h1 h2, List.append_nil, ← List.filter_append, cmdSets, cmdSets, cmdSets,
      List.flatMap_append]
  refine ts_meaning fw files (l ++ l2) hl hA hp infile outfile _ ?_ _ hparse ?_ ?_ ?_ ?_
  · cases dashes <;> simp [fileWords]
  · intro d h1 h2
    have := argFlag_sets (l ++ l2) [] d (by simp)
    rw [List.append_nil] at this
    rw [← this]
    unfold argFlag
    simp only [List.any_eq_true]
    have hm : ∀ x : String × List Word, (x ∈ (cmdSets l ++ u ++ cmdSets l2) ∧ decide (x.1 = d) = true) ↔
        x ∈ cmdSets (l ++ l2) ∧ decide (x.1 = d) = true := by
      intro x
      have e : (x ∈ (cmdSets l ++ u ++ cmdSets l2).filter fun x => x.1 = d) ↔ x ∈ (cmdSets (l ++ l2)).filter fun x => x.1 = d := by
        rw [hfilter d h1 h2]
      rw [List.mem_filter, List.mem_filter] at e
      exact e
    exact exists_congr hm
  · intro d h1 h2
    have := argValue_sets (l ++ l2) [] d (by simp)
    rw [List.append_nil] at this
    rw [← this]
    unfold argValue argLast
    rw [hfilter d h1 h2]
  · have e1 := nosets "infile" (by decide) l (fun s hs => List.mem_append_left _ hs)
    have e2 := nosets "infile" (by decide) l2 (fun s hs => List.mem_append_right _ hs)
    simp [argValue, argLast, List.filter_append, e1, e2, hu]
  · have e1 := nosets "outfile" (by decide) l (fun s hs => List.mem_append_left _ hs)
    have e2 := nosets "outfile" (by decide) l2 (fun s hs => List.mem_append_right _ hs)
    cases outfile <;> simp [argValue, argLast, List.filter_append, e1, e2, hu]

/-- A file that is named exists. -/
theorem argFile_set (files : Files) (l : List Setting) (d : String) (h : ∀ v, lastSet l d = some v → (files v).isSome = true) :
    argFile files (cmdSets l) d = some ((lastSet l d).bind files) := by
  unfold argFile
  have e := argValue_sets l [] d (by simp)
  rw [List.append_nil] at e
  rw [e]
  cases hv : lastSet l d with
  | none => rfl
  | some v =>
    obtain ⟨b, hb⟩ := Option.isSome_iff_exists.mp (h v hv)
    simp [hb]

theorem isOutput_isInt {v : Word} (h : isOutput v = true) : isInt v = true := by
  unfold isOutput at h
  unfold isInt
  cases hv : intOf v with
  | none => simp [hv] at h
  | some n => rfl

/-- **C132** for `fpfind`: with options in any order and any of the usual forms, naming existing files, the program runs with what the
options ask for; of options given several times, the last one counts. -/
theorem C132_fpfind (env : NumEnv) (fuel : Nat) (files : Files) (dirs : Word → EpochDir) (l : List Setting) (hne : l ≠ [])
    (hl : ∀ s ∈ l, s.Ok fpSpec) (hno : ∀ d ∈ ["help", "config", "save"], ¬ Given l d)
    (hnum : ∀ d ∈ ["num_wraps", "buffer_order", "initial_res", "final_res", "output"], ∀ v, lastSet l d = some v → ∃ n, Digits v n)
    (hfiles : ∀ d ∈ ["reference", "target"], ∀ v, lastSet l d = some v → (files v).isSome = true) (hsize : SizesNotZero l) :
    ∃ a, fpCli env fuel (cmdWords l) files dirs = .ran (fpMain env fuel a) ∧ FpMeaning files dirs l a := by
  have hparse := parse_tail (ws := []) (tail := []) fpSpec_good hl rfl rfl
  have hcp : consumePos fpSpec.pos [] = ([], [], []) := rfl
  rw [hcp, if_neg] at hparse
  swap
  · rintro (⟨o, ho, hr, _⟩ | ⟨p, hp, _⟩ | h)
    · exact absurd hr ((by decide : ∀ o ∈ fpSpec.opts, ¬ o.required = true) o ho)
    · simp at hp
    · simp at h
  simp only [List.append_nil] at hparse
  have flag : ∀ d : String, argFlag (cmdSets l) d = true ↔ Given l d := fun d => by
    have := argFlag_sets l [] d (by simp)
    rwa [List.append_nil] at this
  have val : ∀ d : String, argValue (cmdSets l) d = lastSet l d := fun d => by
    have := argValue_sets l [] d (by simp)
    rwa [List.append_nil] at this
  have flo : ∀ (d : String) (y : ℚ), FloatSet l d (some y) (some ((argFloat (cmdSets l) d).getD y)) := fun d y => by
    have := argFloat_set l (cmdSets l) d (val d) (some y)
    cases h : argFloat (cmdSets l) d with
    | none => rw [h] at this; simpa using this
    | some x => rw [h] at this; simpa using this
  have nat : ∀ (d : String) (ok : Word → Bool) (y : ℕ), (∀ o ∈ fpSpec.opts, o.dest = d → o.kind = .value ∧ o.ok = ok) →
      (∀ v, ok v = true → isInt v = true) → d ∈ ["num_wraps", "buffer_order", "initial_res", "final_res", "output"] →
      ∃ n, argNat (cmdSets l) d y = some n ∧ NatSet l d (some y) (some n) := by
    intro d ok y h1 h2 h3
    obtain ⟨n, h4, h5, h6⟩ := argNat_set hl (cmdSets l) d (val d) ok h1 h2 (hnum d h3) y
    exact ⟨n, h4, fun e => by rw [h5 e], fun v m e hm => by rw [h6 v m e hm]⟩
  obtain ⟨n1, k1, m1⟩ := nat "num_wraps" isInt 1 (by simp [fpSpec, argSwitch, argStore]) (fun _ h => h) (by decide)
  obtain ⟨n2, k2, m2⟩ := nat "buffer_order" isInt 26 (by simp [fpSpec, argSwitch, argStore]) (fun _ h => h) (by decide)
  obtain ⟨n3, k3, m3⟩ := nat "initial_res" isInt 16 (by simp [fpSpec, argSwitch, argStore]) (fun _ h => h) (by decide)
  obtain ⟨n4, k4, m4⟩ := nat "final_res" isInt 1 (by simp [fpSpec, argSwitch, argStore]) (fun _ h => h) (by decide)
  obtain ⟨n5, k5, m5⟩ := nat "output" isOutput 0 (by simp [fpSpec, argSwitch, argStore]) (fun _ h => isOutput_isInt h) (by decide)
  have f1 := argFile_set files l "reference" (hfiles _ (by decide))
  have f2 := argFile_set files l "target" (hfiles _ (by decide))
  have hres : n3 ≠ 0 := by
    cases e : lastSet l "initial_res" with
    | none => have := Option.some.inj (m3.1 e); omega
    | some v =>
      obtain ⟨n, hn⟩ := hnum "initial_res" (by decide) v e
      have := Option.some.inj (m3.2 v n e hn)
      rintro rfl
      exact hsize.1 v e (this ▸ hn)
  have hsep := hsize.2 _ (flo "separation" 6)
  obtain ⟨a, ha, hza⟩ : ∃ a, fpArgs files dirs (cmdSets l) = some a ∧ ¬ (a.initialRes = 0 ∨ a.separation = 0) := by
    unfold fpArgs
    rw [f1, f2, k1, k2, k3, k4, k5]
    exact ⟨_, rfl, by rintro (h | h); exacts [hres h, hsep h]⟩
  refine ⟨a, ?_, ?_⟩
  · unfold fpCli
    rw [hparse]
    simp only
    rw [if_neg, if_neg, ha]
    · simp only
      rw [if_neg hza]
    · rintro (h | h)
      · exact hno _ (by decide) ((flag _).mp h)
      · obtain ⟨s, l', rfl⟩ := List.exists_cons_of_ne_nil hne
        have : s.words ≠ [] := by cases s <;> simp [Setting.words]
        exact this (by simpa [cmdWords] using (List.append_eq_nil_iff.mp (by simpa [cmdWords] using h : s.words ++ cmdWords l' = [])).1)
    · rintro (h | h)
      · exact hno _ (by decide) ((flag _).mp h)
      · exact hno _ (by decide) ((flag _).mp h)
  · unfold fpArgs at ha
    rw [f1, f2, k1, k2, k3, k4, k5] at ha
    simp only [Option.bind_eq_bind, Option.bind_some, Option.pure_def, Option.some.injEq] at ha
    subst ha
    refine ⟨congrArg (Option.map dirs) (val _), congrArg (Option.map dirs) (val _), rfl, rfl, flag _, flo _ _, val _, ?_, m3, m2, m1, flo _ _, m4, flo _ _, m5, flag _, flo _ _,
      flo _ _, flo _ _, flag _, flag _, hres, hsep⟩
    simp only [val]
    refine ⟨fun e => by simp [e], fun v n e hn => ?_⟩
    rcases last_spec hl "skip_epochs" isInt (by simp [fpSpec, argSwitch, argStore]) with ⟨h4, _⟩ | ⟨w, h4, _, h5⟩
    · simp [h4] at e
    · rw [e] at h4
      obtain rfl : v = w := by simpa using h4
      simp [e, digits_intOf hn (isInt_ne h5)]

/-- **C132, violated**: options between the names of the input and the output file are refused, although options may come before and
after the names. -/
theorem C132_between_violated (fw : Nat) (files : Files) (l l2 : List Setting) (hl : ∀ s ∈ l ++ l2, s.Ok tsSpec) (h0 : l2 ≠ [])
    (infile outfile : Word) (h1 : PlainWord infile) (h2 : PlainWord outfile) :
    tsCli fw (cmdWords l ++ [infile] ++ cmdWords l2 ++ [outfile]) files = .exit 2 := by
  have := ts_loop hl h0 infile none (some outfile) ⟨h1, by simp⟩ (by simpa using h2)
  simp only [Option.toList_some] at this
  have e : fileWords false infile none = [infile] := rfl
  rw [e] at this
  unfold tsCli
  rw [if_neg (by simp), this, if_pos (Or.inr (by simp))]

/-- **C132**: without the required option `-A` nothing is run. -/
theorem C132_required (fw : Nat) (files : Files) (l : List Setting) (hl : ∀ s ∈ l, s.Ok tsSpec) (hA : ¬ Given l "A") (dashes : Bool)
    (infile : Word) (outfile : Option Word)
    (h : if dashes then ∀ o ∈ outfile, o ≠ ['-', '-'] else PlainWord infile ∧ ∀ o ∈ outfile, PlainWord o) :
    tsCli fw (cmdWords l ++ fileWords dashes infile outfile) files = .exit 2 := by
  obtain ⟨tail, h1, h2, h3⟩ := ts_positionals dashes infile outfile h
  have hparse := parse_tail tsSpec_good hl h1 h2
  rw [h3, if_pos] at hparse
  · unfold tsCli
    rw [if_neg (by cases dashes <;> simp [fileWords]), hparse]
  · refine Or.inl ⟨⟨["-A".toList], .value, "A", true, isFormat⟩, by simp [tsSpec], rfl, ?_⟩
    intro x hx e
    rcases List.mem_append.mp hx with hx | hx
    · exact hA ⟨x, hx, e⟩
    · simp at hx
      rcases hx with rfl | rfl <;> simp at e

/-- **C132**: a command line with a word that looks like an option but is none, before any `--`, is refused, whatever else it contains
(with `-h` as well, the help may be printed). -/
theorem C132_unknown (hS : GoodSpec S) {w : Word} (hw : Unknown S w) (ws1 ws2 : List Word) (hd : ['-', '-'] ∉ ws1) :
    ∃ e, argParse S (ws1 ++ w :: ws2) = .error e := by
  unfold argParse
  cases hc : classify S (ws1 ++ w :: ws2) with
  | none => exact ⟨_, rfl⟩
  | some l =>
    simp only
    split
    · exact ⟨_, rfl⟩
    · rename_i t ex ps hl
      have hm := classify_mem hw.2.2.1 (parse_unknown hS hw) hd hc
      have hex := loop_unknown rfl _ _ _ hm hl
      rw [if_pos (Or.inr (Or.inr (List.ne_nil_of_mem hex)))]
      exact ⟨_, rfl⟩

/-- Such command lines run nothing. -/
theorem C132_unknown_programs (env : NumEnv) (fuel fw : Nat) (files : Files) (dirs : Word → EpochDir) (w : Word) (ws1 ws2 : List Word)
    (hd : ['-', '-'] ∉ ws1) :
    (Unknown fpSpec w → fpCli env fuel (ws1 ++ w :: ws2) files dirs = .exit 2) ∧
      (Unknown tsSpec w → ∃ n, tsCli fw (ws1 ++ w :: ws2) files = .exit n) := by
  refine ⟨fun hw => ?_, fun hw => ?_⟩
  · obtain ⟨e, he⟩ := C132_unknown fpSpec_good hw ws1 ws2 hd
    unfold fpCli
    rw [he]
  · obtain ⟨e, he⟩ := C132_unknown tsSpec_good hw ws1 ws2 hd
    unfold tsCli
    rw [if_neg (by simp), he]
    cases e <;> exact ⟨_, rfl⟩

/-- There is no option `-n`. -/
theorem unknown_n : Unknown fpSpec ['-', 'n'] :=
  ⟨⟨'n', [], rfl, by decide⟩, fun h => absurd (looksNegative_spec h) (by decide), by decide, by decide, by decide⟩

/-- **C132, violated**: the usage in the README, `fpfind -t A -T B -n 1 -q 25 -S 4`, is refused, whatever the files: there is no option
`-n`. -/
theorem C132_readme_violated (env : NumEnv) (fuel : Nat) (files : Files) (dirs : Word → EpochDir) (A B : Word)
    (hA : A ≠ ['-', '-']) (hB : B ≠ ['-', '-']) :
    fpCli env fuel ["-t".toList, A, "-T".toList, B, "-n".toList, "1".toList, "-q".toList, "25".toList, "-S".toList, "4".toList]
      files dirs = .exit 2 :=
  (C132_unknown_programs env fuel 0 files dirs ['-', 'n'] ["-t".toList, A, "-T".toList, B]
    ["1".toList, "-q".toList, "25".toList, "-S".toList, "4".toList] (by simp [hA.symm, hB.symm])).1 unknown_n

/-- **C132, violated**: negative numbers with an exponent, such as `-1e-5`, are not accepted as a word of their own, by any of the
programs (`--precomp-start -1e-5` is refused; `--precomp-start=-1e-5` and `--precomp-start -0.00001` are not, by `C132_fpfind`). -/
theorem C132_exponent_violated (hS : GoodSpec S) (c : Char) (r : Word) (hc : c.isDigit = true ∨ c = '.') (h1 : ¬ NegNumber ('-' :: c :: r))
    (h2 : ' ' ∉ r) (h3 : '\n' ∉ r) (ws1 ws2 : List Word) (hd : ['-', '-'] ∉ ws1) :
    ∃ e, argParse S (ws1 ++ ('-' :: c :: r) :: ws2) = .error e := by
  have hc' : ∀ d : Char, d.isDigit = false → d ≠ '.' → c ≠ d := by
    rintro d hd1 hd2 rfl
    rcases hc with h | h
    · rw [hd1] at h
      simp at h
    · exact hd2 h
  have c1 := hc' '-' (by decide) (by decide)
  have c2 := hc' ' ' (by decide) (by decide)
  have c3 := hc' '\n' (by decide) (by decide)
  have c4 := hc' '=' (by decide) (by decide)
  refine C132_unknown hS ⟨⟨c, r, rfl, ?_⟩, h1, by simp [c1], by simp [c2.symm, h2], by simp [c3.symm, h3]⟩ ws1 ws2 hd
  intro o ho n hn
  have h4 : ∀ s, n ≠ '-' :: c :: s := by
    rintro s rfl
    rcases hS.names o ho _ hn with ⟨d, h, h5, h6, h7, h8⟩ | ⟨r', h, _⟩
    · simp at h
      exact hc' d h8 h7 h.1
    · simp at h
      exact c1 h.1
  refine ⟨h4 [], ?_⟩
  rintro ⟨s, hs⟩
  rw [List.takeWhile_cons, if_pos (by decide), List.takeWhile_cons, if_pos (by simpa using c4)] at hs
  exact h4 _ hs.symm

/-- For `fpfind`. -/
theorem C132_exponent_fpfind (env : NumEnv) (fuel : Nat) (files : Files) (dirs : Word → EpochDir) (ws1 ws2 : List Word)
    (hd : ['-', '-'] ∉ ws1) : fpCli env fuel (ws1 ++ "-1e-5".toList :: ws2) files dirs = .exit 2 := by
  obtain ⟨e, he⟩ := C132_exponent_violated fpSpec_good '1' "e-5".toList (Or.inl (by decide))
    (fun h => absurd (looksNegative_spec h) (by decide)) (by decide) (by decide) ws1 ws2 hd
  unfold fpCli
  have : "-1e-5".toList = '-' :: '1' :: "e-5".toList := by decide
  rw [this, he]

/-- **C132**: the beginning of exactly one long name stands for that name. -/
theorem C132_abbreviation (hS : GoodSpec S) {l : List Setting} (hl : ∀ s ∈ l, s.Ok S) {o : ArgOpt} {n r : Word} (ho : o ∈ S.opts)
    (hn : n ∈ o.names) (hr : r ≠ []) (he : '=' ∉ r) (hp : '-' :: '-' :: r <+: n)
    (hu : ∀ o' ∈ S.opts, ∀ n' ∈ o'.names, '-' :: '-' :: r <+: n' → n' = n) (ws : List Word) :
    argParse S (cmdWords l ++ ('-' :: '-' :: r) :: ws) = argParse S (cmdWords l ++ n :: ws) := by
  unfold argParse
  rw [classify_settings hS hl, classify_settings hS hl, classify_opt (by simpa using hr) (parse_abbrev hS ho hn he hp hu),
    classify_opt (name_head hS ho hn).2.1 (parse_name hS ho hn)]
  cases hc : classify S ws with
  | none => rfl
  | some tail =>
    simp only [Option.map_some]
    have hlen := settings_length l
    obtain ⟨k, hk⟩ : ∃ k, ∀ w : Word, (l.flatMap Setting.cls ++ (ArgCls.o ⟨some o, n, false, none⟩, w) :: tail).length + 1 = k + l.length := by
      refine ⟨(l.flatMap Setting.cls).length - l.length + tail.length + 2, fun w => ?_⟩
      simp only [List.length_append, List.length_cons]
      omega
    rw [hk, hk, loop_settings hS hl, loop_settings hS hl, loop_text rfl _ n]

/-- **C132**: the beginning of several long names, that is not itself a name, is refused. -/
theorem C132_ambiguous {o1 o2 : ArgOpt} {n1 n2 r : Word} (h1 : o1 ∈ S.opts) (hn1 : n1 ∈ o1.names)
    (h2 : o2 ∈ S.opts) (hn2 : n2 ∈ o2.names) (hne : n1 ≠ n2) (hr : r ≠ []) (he : '=' ∉ r) (hp1 : '-' :: '-' :: r <+: n1)
    (hp2 : '-' :: '-' :: r <+: n2) (hno : ∀ o ∈ S.opts, '-' :: '-' :: r ∉ o.names) (ws1 ws2 : List Word) (hd : ['-', '-'] ∉ ws1) :
    argParse S (ws1 ++ ('-' :: '-' :: r) :: ws2) = .error .error := by
  unfold argParse
  rw [classify_bad (by simpa using hr) (parse_ambiguous h1 hn1 h2 hn2 hne he hp1 hp2 hno) hd]

/-- The usage in the README: `parse_timestamps -A1 -X -p FILE` reads the file in the legacy format `a1` and prints its
statistics. -/
theorem C132_readme_timestamps (fw : Nat) (files : Files) (file : Word) (h : PlainWord file) :
    ∃ a, tsCli fw ["-A1".toList, "-X".toList, "-p".toList, file] files = .ran (tsMain fw a files) ∧
      a.inFmt = .a1 ∧ a.legacyIn = true ∧ a.print = true ∧ a.infile = file ∧ a.outfile = none ∧ a.filter.start = none ∧
      a.filter.stop = none ∧ a.filter.pattern = none := by
  obtain ⟨l, hl⟩ : ∃ l : List Setting, l = [.letters [] ⟨["-A".toList], .value, "A", true, isFormat⟩ 'A' ['1'],
    .flag (argSwitch ["-X"] "X") ['-', 'X'], .flag (argSwitch ["-p", "--print"] "print") ['-', 'p']] := ⟨_, rfl⟩
  have hs : cmdSets l = [("A", [['1']]), ("X", []), ("print", [])] := by rw [hl]; rfl
  have given : ∀ d, Given l d ↔ ∃ x ∈ cmdSets l, x.1 = d := fun d => Iff.rfl
  obtain ⟨a, h1, h2, h3, h4⟩ := C132_timestamps fw files l [] (by
      rw [hl, List.append_nil]
      intro s hs
      simp only [List.mem_cons, List.not_mem_nil, or_false] at hs
      rcases hs with rfl | rfl | rfl
      · exact ⟨by simp, by simp [tsSpec], by decide, Or.inr ⟨rfl, by simp, by decide, by decide⟩⟩
      · exact ⟨by simp [tsSpec], by decide, rfl⟩
      · exact ⟨by simp [tsSpec], by decide, rfl⟩)
    (by rw [List.append_nil, given, hs]; exact ⟨_, List.mem_cons_self, rfl⟩)
    (by intro v hv; rw [List.append_nil, lastSet, hs] at hv; simp at hv) false file none ⟨h, by simp⟩
  rw [List.append_nil] at h2
  refine ⟨a, ?_, ?_, ?_, ?_, h3, h4, ?_, ?_, ?_⟩
  · rw [← h1, hl]
    rfl
  · obtain ⟨v, hv, hf⟩ := h2.inFmt
    rw [lastSet, hs] at hv
    obtain rfl : ['1'] = v := by simpa using hv
    rcases hf with ⟨hf, _⟩ | ⟨_, hf⟩ | ⟨hf, _⟩
    · simp at hf
    · exact hf
    · simp at hf
  · rw [h2.legacyIn, given, hs]
    simp
  · rw [h2.print, given, hs]
    simp
  · refine h2.start.1 ?_
    rw [lastSet, hs]
    simp
  · refine h2.stop.1 ?_
    rw [lastSet, hs]
    simp
  · refine h2.pattern.1 ?_
    rw [lastSet, hs]
    simp

/-- The command line `fpfind -t A -T B -P --precomp-start=-1e-5`, with existing files, starts the search with precompensations. -/
theorem C132_fpfind_instance (env : NumEnv) (fuel : Nat) (files : Files) (dirs : Word → EpochDir) (A B : Word) (hA : PlainWord A)
    (hB : PlainWord B) (fA fB : Bytes) (h1 : files A = some fA) (h2 : files B = some fB) :
    ∃ a, fpCli env fuel ["-t".toList, A, "-T".toList, B, "-P".toList, "--precomp-start=-1e-5".toList] files dirs =
        .ran (fpMain env fuel a) ∧
      a.reference = some fA ∧ a.target = some fB ∧ a.sendfiles = none ∧ a.t1files = none ∧ a.precompEnable = true ∧
      a.precompStart = fl 53 (-1 / 10 ^ 5) ∧ a.bufferOrder = 26 ∧ a.threshold = 6 := by
  obtain ⟨l, hl⟩ : ∃ l : List Setting, l = [.pair (argStore ["-t", "--reference"] "reference" anyText) ['-', 't'] A,
    .pair (argStore ["-T", "--target"] "target" anyText) ['-', 'T'] B, .flag (argSwitch ["-P", "--precomp-enable"] "precomp_enable") ['-', 'P'],
    .equals (argStore ["--precomp-start"] "precomp_start" isFloat) "--precomp-start".toList "-1e-5".toList] := ⟨_, rfl⟩
  have hs : cmdSets l = [("reference", [A]), ("target", [B]), ("precomp_enable", []), ("precomp_start", ["-1e-5".toList])] := by
    rw [hl]; rfl
  have given : ∀ d, Given l d ↔ ∃ x ∈ cmdSets l, x.1 = d := fun d => Iff.rfl
  have none_of : ∀ d, d ∉ ["reference", "target", "precomp_enable", "precomp_start"] → lastSet l d = none := by
    intro d hd
    simp only [List.mem_cons, List.not_mem_nil, or_false, not_or] at hd
    rw [lastSet, hs]
    simp [Ne.symm hd.1, Ne.symm hd.2.1, Ne.symm hd.2.2.1, Ne.symm hd.2.2.2]
  obtain ⟨a, k1, k2⟩ := C132_fpfind env fuel files dirs l (by rw [hl]; simp) (by
      rw [hl]
      intro s hs
      simp only [List.mem_cons, List.not_mem_nil, or_false] at hs
      rcases hs with rfl | rfl | rfl | rfl
      · exact ⟨by simp [fpSpec], by decide, rfl, rfl, hA⟩
      · exact ⟨by simp [fpSpec], by decide, rfl, rfl, hB⟩
      · exact ⟨by simp [fpSpec], by decide, rfl⟩
      · exact ⟨by simp [fpSpec], by decide, rfl, by decide⟩)
    (by intro d hd; rw [given, hs]; simp at hd ⊢; rcases hd with rfl | rfl | rfl <;> simp)
    (by intro d hd v hv; rw [lastSet, hs] at hv; simp at hd; rcases hd with rfl | rfl | rfl | rfl | rfl <;> simp at hv)
    (by
      intro d hd v hv
      rw [lastSet, hs] at hv
      simp at hd
      rcases hd with rfl | rfl
      · obtain rfl : A = v := by simpa using hv
        simp [h1]
      · obtain rfl : B = v := by simpa using hv
        simp [h2])
    ⟨fun v hv => by rw [none_of _ (by decide)] at hv; simp at hv, fun x hx => by
      have := Option.some.inj (hx.1 (none_of _ (by decide)))
      rw [this]; norm_num⟩
  refine ⟨a, ?_, ?_, ?_, ?_, ?_, ?_, ?_, ?_, ?_⟩
  · rw [← k1, hl]
    rfl
  · rw [k2.reference, lastSet, hs]
    simp [h1]
  · rw [k2.target, lastSet, hs]
    simp [h2]
  · rw [k2.sendfiles, none_of _ (by decide)]
    rfl
  · rw [k2.t1files, none_of _ (by decide)]
    rfl
  · rw [k2.precompEnable, given, hs]
    simp
  · have hv : lastSet l "precomp_start" = some "-1e-5".toList := by
      rw [lastSet, hs]
      simp
    have hx : Denotes "-1e-5".toList (-1 / 10 ^ 5) :=
      ⟨['-'], ['1'], [], ['e', '-', '5'], 1, -5, by decide, by simp, ⟨[1], by simp, by simp⟩,
        Or.inr ⟨['5'], 5, by simp, ⟨[5], by simp, by simp⟩, Or.inr ⟨rfl, rfl⟩⟩, Or.inr ⟨rfl, by norm_num⟩⟩
    simpa using k2.precompStart.2 _ _ hv hx
  · simpa using k2.bufferOrder.1 (none_of _ (by decide))
  · simpa using k2.threshold.1 (none_of _ (by decide))

/-- A step of the loop for an option with several values. -/
theorem loop_many {o : ArgOpt} (hk : o.kind = .many) (nm : Word) (vs : List Word) (hne : vs ≠ []) (tail : List (ArgCls × Word))
    (ht : ∀ x, tail.head? = some x → x.1.isArg = false) (n : Nat) (ps : List ArgPos) :
    argLoop S (n + 1) ((.o ⟨some o, nm, false, none⟩, nm) :: (vs.map (fun v => (ArgCls.a, v)) ++ tail)) ps =
      if vs.all o.ok then
        match argLoop S n tail ps with
        | .error e => .error e
        | .ok (t2, ex2, ps2) => .ok ((o.dest, vs) :: t2, ex2, ps2)
      else .error .error := by
  have htake : (vs.map (fun v => (ArgCls.a, v)) ++ tail).takeWhile (fun x => x.1.isArg) = vs.map (fun v => (ArgCls.a, v)) := by
    clear hne
    induction vs with
    | nil =>
      cases tail with
      | nil => rfl
      | cons x tail => simp [ht x rfl]
    | cons v vs ih =>
      rw [List.map_cons, List.cons_append, List.takeWhile_cons, if_pos (by simp [ArgCls.isArg]), ih]
  have hm : matchArgument .many (vs.map (fun v => (ArgCls.a, v)) ++ tail) = .ok vs.length := by
    unfold matchArgument
    simp only [htake, List.length_map]
    obtain ⟨v, vs', rfl⟩ := List.exists_cons_of_ne_nil hne
    rfl
  rw [argLoop, if_neg (by simp [ArgCls.isOpt])]
  unfold consumeOpt
  simp only [hk, hm]
  have e1 : ((vs.map (fun v => (ArgCls.a, v)) ++ tail).take vs.length).map (·.2) = vs := by
    rw [List.take_left' (by simp), List.map_map]
    exact List.map_id _
  have e2 : (vs.map (fun v => (ArgCls.a, v)) ++ tail).drop vs.length = tail := List.drop_left' (by simp)
  rw [e1, e2]
  by_cases hv : vs.all o.ok = true
  · rw [if_pos hv]
    simp only [List.nil_append, takeActions, takeAction, hv, hk, if_true]
    simp
    cases argLoop S n tail ps <;> rfl
  · rw [if_neg hv]
    simp only [List.nil_append, takeActions, takeAction, if_neg hv]

/-- The option `-t` of `generate_freqcd_testcase`. -/
def genT : ArgOpt := ⟨["-t".toList], .many, "t", false, isInt⟩

theorem gen_parse {l l2 : List Setting} (hl : ∀ s ∈ l ++ l2, s.Ok genSpec) (vs : List Word) (hne : vs ≠ []) (hv : ∀ v ∈ vs, PlainWord v) :
    argParse genSpec (cmdWords l ++ (['-', 't'] :: vs) ++ cmdWords l2) =
      if vs.all isInt then .ok (cmdSets l ++ ("t", vs) :: (cmdSets l2 ++ [("infile", [])])) else .error .error := by
  have hT : genT ∈ genSpec.opts := by simp [genSpec, genT]
  have hTn : ['-', 't'] ∈ genT.names := by decide
  obtain ⟨A, hA⟩ : ∃ A : List (ArgCls × Word), A = vs.map fun v => (.a, v) := ⟨_, rfl⟩
  have hcls : classify genSpec (cmdWords l ++ (['-', 't'] :: vs) ++ cmdWords l2) =
      some (l.flatMap Setting.cls ++ ((.o ⟨some genT, ['-', 't'], false, none⟩, ['-', 't']) :: (A ++ l2.flatMap Setting.cls))) := by
    have e := classify_settings genSpec_good (fun s hs => hl s (List.mem_append_right l hs)) []
    rw [List.append_nil] at e
    rw [List.append_assoc, classify_settings genSpec_good (fun s hs => hl s (List.mem_append_left _ hs)), List.cons_append,
      classify_opt (by decide) (parse_name genSpec_good hT hTn), classify_plain genSpec_good vs hv, e]
    simp [classify, hA]
  have ht : ∀ x, (l2.flatMap Setting.cls).head? = some x → x.1.isArg = false := by
    intro x hx
    by_cases h0 : l2 = []
    · simp [h0] at hx
    · obtain ⟨h, w, r, e⟩ := cls_first h0
      rw [e] at hx
      simp at hx
      rw [← hx]
      rfl
  have hlen := settings_length l
  have hlen2 := settings_length l2
  have hfin : ∀ n, argLoop genSpec (n + 1 + l2.length) (l2.flatMap Setting.cls) genSpec.pos = .ok (cmdSets l2 ++ [("infile", [])], [], []) := by
    intro n
    have := loop_settings genSpec_good (fun s hs => hl s (List.mem_append_right l hs)) (n + 1) [] genSpec.pos
    rw [List.append_nil] at this
    rw [this]
    rfl
  unfold argParse
  rw [hcls]
  simp only
  obtain ⟨n, hn⟩ : ∃ n, (l.flatMap Setting.cls ++ ((ArgCls.o ⟨some genT, ['-', 't'], false, none⟩, ['-', 't']) ::
      (A ++ l2.flatMap Setting.cls))).length + 1 = (n + 1 + l2.length + 1) + l.length := by
    simp only [List.length_append, List.length_cons]
    exact ⟨(l.flatMap Setting.cls).length - l.length + A.length + ((l2.flatMap Setting.cls).length - l2.length), by omega⟩
  rw [hn, loop_settings genSpec_good (fun s hs => hl s (List.mem_append_left _ hs)), hA, loop_many rfl _ _ hne _ ht, hfin]
  by_cases hi : vs.all isInt = true
  · have hi' : vs.all genT.ok = true := hi
    rw [if_pos hi, if_pos hi']
    simp only
    rw [if_neg]
    · rfl
    · rintro (⟨o, ho, hr, _⟩ | ⟨p, hp, _⟩ | h)
      · exact absurd hr ((by decide : ∀ o ∈ genSpec.opts, ¬ o.required = true) o ho)
      · simp at hp
      · exact h rfl
  · have hi' : ¬ vs.all genT.ok = true := hi
    rw [if_neg hi, if_neg hi']

/-- **C132** for `generate_freqcd_testcase -t …`: the numbers after `-t` are the times, whatever options come before and after. -/
theorem C132_testcase (fw : Nat) (l l2 : List Setting) (hl : ∀ s ∈ l ++ l2, s.Ok genSpec) (vs : List Word) (ns : List ℕ) (hne : vs ≠ [])
    (hv : List.Forall₂ (fun v n => v ≠ [] ∧ Digits v n) vs ns) (temp : List Char) (stdin : Bytes) (lines : List Typed) (w : World) :
    ∃ a, genCli fw (cmdWords l ++ (['-', 't'] :: vs) ++ cmdWords l2) temp stdin lines w = .ran (genMain fw a temp stdin lines w) ∧
      a.o = lastSet (l ++ l2) "o" ∧ a.t = some (ns.map fun n : ℕ => (n : ℤ)) ∧ (a.x = true ↔ Given (l ++ l2) "x") ∧ a.infile = none := by
  have hint : vs.all isInt = true ∧ (∀ v ∈ vs, PlainWord v) ∧ vs.filterMap intOf = ns.map fun n : ℕ => (n : ℤ) := by
    clear hne
    induction hv with
    | nil => simp
    | cons h _ ih =>
      rename_i v n vs ns _
      have h1 := digits_intOf h.2 h.1
      refine ⟨?_, ?_, ?_⟩
      · rw [List.all_cons, ih.1]
        simp [isInt, h1]
      · intro x hx
        rcases List.mem_cons.mp hx with rfl | hx
        · obtain ⟨c, r, rfl⟩ := List.exists_cons_of_ne_nil h.1
          have := digits_all h.2 c List.mem_cons_self
          left
          rintro e
          simp at e
          subst e
          simp at this
        · exact ih.2.1 x hx
      · rw [List.filterMap_cons_some h1, ih.2.2]
        rfl
  obtain ⟨h1, h2, h3⟩ := hint
  have hparse := gen_parse hl vs hne h2
  rw [if_pos h1] at hparse
  obtain ⟨t, ht⟩ : ∃ t, t = cmdSets l ++ ("t", vs) :: (cmdSets l2 ++ [("infile", [])]) := ⟨_, rfl⟩
  rw [← ht] at hparse
  have hfilter : ∀ d : String, d ≠ "infile" → d ≠ "t" → t.filter (fun x => x.1 = d) = (cmdSets (l ++ l2)).filter (fun x => x.1 = d) := by
    intro d h1 h2
    rw [ht, List.filter_append, List.filter_cons_of_neg (by simpa using h2.symm), List.filter_append]
    simp [h1.symm, cmdSets]
  have nosets : ∀ d : String, (∀ o ∈ genSpec.opts, o.kind = .flag ∨ o.kind = .value → o.dest ≠ d) → ∀ l', (∀ s ∈ l', s ∈ l ++ l2) →
      (cmdSets l').filter (fun x => x.1 = d) = [] := by
    intro d hd l' hl'
    refine List.filter_eq_nil_iff.mpr fun x hx => ?_
    obtain ⟨o, ho, h4, h5⟩ := sets_mem (fun s hs => hl s (hl' s hs)) hx
    simpa using fun e => hd o ho (h5.imp And.left And.left) (h4.symm.trans e)
  refine ⟨⟨argValue t "o", (argLast t "t").map fun l => l.filterMap intOf, argFlag t "x", argValue t "infile"⟩, ?_, ?_, ?_, ?_, ?_⟩
  · unfold genCli
    rw [if_neg (by simp), hparse]
  · have := argValue_sets (l ++ l2) [] "o" (by simp)
    rw [List.append_nil] at this
    rw [← this]
    unfold argValue argLast
    rw [hfilter "o" (by decide) (by decide)]
  · have e1 := nosets "t" (by decide) l (fun s hs => List.mem_append_left _ hs)
    have e2 := nosets "t" (by decide) l2 (fun s hs => List.mem_append_right _ hs)
    simp [argLast, ht, List.filter_append, e1, e2, h3]
  · have := argFlag_sets (l ++ l2) [] "x" (by simp)
    rw [List.append_nil] at this
    rw [← this]
    unfold argFlag
    simp only [List.any_eq_true]
    refine exists_congr fun x => ?_
    have e : (x ∈ t.filter fun x => x.1 = "x") ↔ x ∈ (cmdSets (l ++ l2)).filter fun x => x.1 = "x" := by
      rw [hfilter "x" (by decide) (by decide)]
    rw [List.mem_filter, List.mem_filter] at e
    exact e
  · have e1 := nosets "infile" (by decide) l (fun s hs => List.mem_append_left _ hs)
    have e2 := nosets "infile" (by decide) l2 (fun s hs => List.mem_append_right _ hs)
    simp [argValue, argLast, ht, List.filter_append, e1, e2]

/-- **C132, violated**: a name of a file after the times of `-t` is taken for a time, and the command line refused. -/
theorem C132_swallowed_violated (fw : Nat) (l l2 : List Setting) (hl : ∀ s ∈ l ++ l2, s.Ok genSpec) (vs : List Word) (file : Word)
    (hv : ∀ v ∈ vs, PlainWord v) (hf : PlainWord file) (hi : isInt file = false) (temp : List Char) (stdin : Bytes) (lines : List Typed)
    (w : World) : genCli fw (cmdWords l ++ (['-', 't'] :: (vs ++ [file])) ++ cmdWords l2) temp stdin lines w = .exit 2 := by
  have := gen_parse hl (vs ++ [file]) (by simp) (by
    intro v hv'
    rcases List.mem_append.mp hv' with h | h
    · exact hv v h
    · rw [List.mem_singleton] at h
      exact h ▸ hf)
  rw [if_neg (by simp [hi])] at this
  unfold genCli
  rw [if_neg (by simp), this]

/-- The first usage given in the source, `-o .input -t 0 1000000000 2000000000 -x`: the file gets the events of these times, but not
in the legacy format (`C56_violated`). -/
theorem C132_testcase_instance (fw : Nat) (temp : List Char) (stdin : Bytes) (lines : List Typed) (w : World) :
    genCli fw ["-o".toList, ".input".toList, "-t".toList, "0".toList, "1000000000".toList, "2000000000".toList, "-x".toList]
        temp stdin lines w =
      .ran (genMain fw ⟨some ".input".toList, some [0, 1000000000, 2000000000], true, none⟩ temp stdin lines w) := by
  obtain ⟨a, h1, h2, h3, h4, h5⟩ := C132_testcase fw [.pair (argStore ["-o"] "o" anyText) ['-', 'o'] ".input".toList]
    [.flag (argSwitch ["-x"] "x") ['-', 'x']] (by
      intro s hs
      simp only [List.cons_append, List.nil_append, List.mem_cons, List.not_mem_nil, or_false] at hs
      rcases hs with rfl | rfl
      · exact ⟨by simp [genSpec], by decide, rfl, rfl, Or.inl (by decide)⟩
      · exact ⟨by simp [genSpec], by decide, rfl⟩)
    ["0".toList, "1000000000".toList, "2000000000".toList] [0, 1000000000, 2000000000] (by simp)
    (.cons ⟨by decide, [0], by simp, by simp⟩ (.cons ⟨by decide, [1, 0, 0, 0, 0, 0, 0, 0, 0, 0], by simp, by simp [Nat.ofDigits]⟩
      (.cons ⟨by decide, [2, 0, 0, 0, 0, 0, 0, 0, 0, 0], by simp, by simp [Nat.ofDigits]⟩ .nil))) temp stdin lines w
  obtain ⟨o, t, x, i⟩ := a
  simp only at h2 h3 h4 h5
  have hx : x = true := h4.mpr ⟨("x", []), by simp [cmdSets, Setting.sets, argSwitch], rfl⟩
  subst h2 h3 h5 hx
  rw [show (["-o".toList, ".input".toList, "-t".toList, "0".toList, "1000000000".toList, "2000000000".toList, "-x".toList] : List Word) =
    cmdWords [.pair (argStore ["-o"] "o" anyText) ['-', 'o'] ".input".toList] ++ (['-', 't'] :: ["0".toList, "1000000000".toList, "2000000000".toList]) ++
      cmdWords [.flag (argSwitch ["-x"] "x") ['-', 'x']] from rfl, h1]
  rfl

end Fp
