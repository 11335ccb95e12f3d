import Verif.Lemmas.FpText2

/-! # The line printed by fpfind -/
namespace Fp
open Spec

/-- **C86**: the line shows the frequency and, unless removed, the time, separated by one tab, with nothing before, between
or after them. -/
theorem C86_line (o : FpOutput) (h : ∀ x, o.df = .inl x → fl 53 x = x) : Printed o (fpLine o) := by
  have hf : FreqText (dfText o.df) o.df := by
    cases hd : o.df with
    | inl x => exact reprFloat_spec (h x hd)
    | inr n => exact intText_spec n
  refine ⟨dfText o.df, hf, ?_⟩
  obtain ⟨r, hr, -⟩ := freqText_denotes hf
  obtain ⟨h0, h1⟩ := denotes_chars hr
  unfold fpLine
  cases ht : o.dt with
  | none =>
    left
    simp only []
    have := rstrip_tab [] h0 fun c hc => (numchar_not_space (h1 c hc)).1
    rw [List.nil_append] at this
    rw [this]
    exact ⟨trivial, rfl⟩
  | some dt =>
    right
    refine ⟨dt, intText dt, rfl, intText_spec dt, ?_⟩
    obtain ⟨g0, g1⟩ := denotes_chars (intText_denotes (intText_spec dt))
    have := rstrip_tab (dfText o.df ++ ['\t']) g0 fun c hc => (numchar_not_space (g1 c hc)).1
    simp only []
    rw [List.append_assoc _ (intText dt)] at this
    rw [this]
    simp

/-- **C86**: a line shows only one result, so that its reader gets back the frequency and the time. -/
theorem C86_unique (o o' : FpOutput) (line : List Char) (h : Printed o line) (h' : Printed o' line) : o = o' := by
  obtain ⟨f, h1, h2⟩ := h
  obtain ⟨f', h1', h2'⟩ := h'
  obtain ⟨r, hr, -⟩ := freqText_denotes h1
  obtain ⟨r', hr', -⟩ := freqText_denotes h1'
  have k : ∀ c ∈ f, ¬ (c = '\t' ∨ c = '\n') := fun c hc => not_or.mpr (numchar_not_space ((denotes_chars hr).2 c hc)).2
  have k' : ∀ c ∈ f', ¬ (c = '\t' ∨ c = '\n') := fun c hc => not_or.mpr (numchar_not_space ((denotes_chars hr').2 c hc)).2
  have key : f = f' ∧ o.dt = o'.dt := by
    rcases h2 with ⟨e1, e2⟩ | ⟨dt, t, e1, e3, e2⟩ <;> rcases h2' with ⟨e1', e2'⟩ | ⟨dt', t', e1', e3', e2'⟩ <;>
      rw [e2] at e2' <;> (try simp only [List.append_assoc, List.cons_append] at e2')
    · exact ⟨(split_unique k k' (.inr rfl) (.inr rfl) e2').1, by rw [e1, e1']⟩
    · exact absurd (split_unique k k' (.inr rfl) (.inl rfl) e2').2.1 (by decide)
    · exact absurd (split_unique k k' (.inl rfl) (.inr rfl) e2').2.1 (by decide)
    · obtain ⟨q1, -, q2⟩ := split_unique k k' (.inl rfl) (.inl rfl) e2'
      have q3 : t = t' := List.append_cancel_right q2
      subst q3
      have : (.inr dt : ℚ ⊕ ℤ) = .inr dt' := freqText_unique (d := .inr dt) (d' := .inr dt') e3 e3'
      rw [e1, e1', Sum.inr.inj this]
      exact ⟨q1, rfl⟩
  obtain ⟨rfl, e⟩ := key
  have := freqText_unique h1 h1'
  cases o; cases o'; simp_all

/-- **C86**: `float` of a printed double is the same double. -/
theorem C86_float (t : List Char) (x : ℚ) (h : DoubleText t x) : floatText t = .ok x := by
  obtain ⟨r, h1, h2, -⟩ := h
  rw [floatText, decimalOf_spec h1]
  simp only [h2]

/-- **C86** for every value of `--output`. -/
theorem C86_output (flag : Nat) (dt df : ℚ) (hdf : fl 53 df = df) :
    Printed (fpOutput (fl 53) flag dt df) (fpLine (fpOutput (fl 53) flag dt df)) := by
  apply C86_line
  intro x hx
  unfold fpOutput at hx
  simp only [invertComp] at hx
  split_ifs at hx
  all_goals try simp only [Sum.inl.injEq, reduceCtorEq] at hx
  · rw [← hx]
    exact fl_idem 53 (by norm_num) _
  · rw [← hx, hdf]

/-! ## C87 -/

/-- **C87**: a line printed by fpfind, read by `freqcd` as an update of the correction. -/
theorem C87_line (f : BitVec 32) (o : FpOutput) (line : List Char) (h : Printed o (line ++ ['\n'])) (hn : ∀ n, o.df = .inr n → |n| < 2 ^ 31) :
    fcorrUpdate f (textBytes line) = applied f o := by
  obtain ⟨t, h1, h2⟩ := h
  obtain ⟨r, hr, h3⟩ := freqText_denotes h1
  rcases h2 with ⟨e1, e2⟩ | ⟨dt, t', e1, -, e2⟩
  · have e3 : line = t := List.append_cancel_right e2
    subst e3
    unfold applied
    rw [e1]
    cases hd : o.df with
    | inr n =>
      rw [hd] at h1
      simp only []
      exact C46_update_partial f _ n (numeral_of_int h1) (by have := abs_lt.mp (hn n hd); omega)
    | inl x =>
      simp only []
      apply C46_malformed
      obtain ⟨b, k1, k2⟩ := head_byte hr []
      rw [List.append_nil] at k1
      rcases (h3.1 x hd).2 with hc | hc
      · exact not_numeral k1 k2 (c := 46) (List.mem_map.mpr ⟨'.', hc, rfl⟩) (by decide) (by decide) (by decide)
      · exact not_numeral k1 k2 (c := 101) (List.mem_map.mpr ⟨'e', hc, rfl⟩) (by decide) (by decide) (by decide)
  · have e3 : line = t ++ '\t' :: t' := by
      have : line ++ ['\n'] = (t ++ '\t' :: t') ++ ['\n'] := e2
      exact List.append_cancel_right this
    subst e3
    have e4 : applied f o = f := by
      unfold applied
      rw [e1]
      cases o.df <;> rfl
    rw [e4]
    apply C46_malformed
    obtain ⟨b, k1, k2⟩ := head_byte hr ('\t' :: t')
    exact not_numeral k1 k2 (c := 9) (List.mem_map.mpr ⟨'\t', by simp, rfl⟩) (by decide) (by decide) (by decide)

/-- **C87**: the lines printed for the results `outs` arrive at the frequency channel; those that consist of a number of units
2^-34 in range become the correction in force, one after the other, the others have no effect.  As for C45, every read has to
contain the end of a line. -/
theorem C87_channel_partial (legacy : Bool) (rs : List Round) (s s1 : FState) (fcorr : BitVec 32) (fo : Bool) (src : Bytes)
    (outs : List FpOutput) (ls : List (List Char)) (hls : List.Forall₂ (fun o l => Printed o (l ++ ['\n'])) outs ls)
    (hn : ∀ o ∈ outs, ∀ n, o.df = .inr n → |n| < 2 ^ 31)
    (h : Initial s fcorr fo src (textBytes (ls.flatMap (· ++ ['\n'])))) (h1 : fRun legacy rs s = .ok (s1, none))
    (hread : ∀ c ∈ freqReads legacy rs s, c = [] ∨ (10 : UInt8) ∈ c) (hall : s1.freqSrc = []) :
    s1.fcorr = outs.foldl applied fcorr := by
  have hb : ∀ l ∈ ls, (10 : UInt8) ∉ textBytes l ∧ (textBytes l).takeWhile (· ≠ 0) = textBytes l := by
    clear h h1 hread hall hn
    induction hls with
    | nil => simp
    | cons hh _ ih =>
      intro l hl
      rcases List.mem_cons.mp hl with rfl | hl
      · exact (line_bytes hh).2
      · exact ih l hl
  have e : s1.fcorr = (ls.map textBytes).foldl (fun f l => fcorrUpdate f (l.takeWhile (· ≠ 0))) fcorr := by
    refine C45_lines_partial legacy rs s s1 fcorr fo src _ h h1 hread _ [] ?_
    rw [hall, List.length_nil, Nat.sub_zero, List.take_length]
    refine ⟨?_, ?_, by simp⟩
    · rw [List.append_nil]
      clear h h1 hread hall hn hls hb
      induction ls with
      | nil => rfl
      | cons l ls ih =>
        have : textBytes ((l :: ls).flatMap (· ++ ['\n'])) = (textBytes l ++ [10]) ++ textBytes (ls.flatMap (· ++ ['\n'])) := by
          unfold textBytes
          simp
        rw [this, ih]
        rfl
    · intro l hl
      obtain ⟨x, hx, rfl⟩ := List.mem_map.mp hl
      exact (hb x hx).1
  rw [e]
  clear e h h1 hread hall
  induction hls generalizing fcorr with
  | nil => rfl
  | cons hh _ ih =>
    rw [List.map_cons, List.foldl_cons, List.foldl_cons, (hb _ (by simp)).2, C87_line fcorr _ _ hh (hn _ (by simp))]
    exact ih _ (fun o ho => hn o (by simp [ho])) (fun l hl => hb l (by simp [hl]))

/-- **C87**: given to the option -f, a number of units 2^-34 is the correction, or refused if it is out of range. -/
theorem C87_option_partial (prog : Bytes) (o : FpOutput) (n : ℤ) (line : List Char) (h : Printed o (line ++ ['\n'])) (h1 : o.df = .inr n)
    (h2 : o.dt = none) (hn : |n| < 2 ^ 31) :
    Ends [prog, [45, 102], textBytes line] (if |n| < 2 ^ 21 then
      .ok { fcorr := BitVec.ofInt 32 n, legacy := false, infile := [], outfile := [], freqfile := [] } else .error (.error 5)) := by
  have ht : IntText line n := by
    obtain ⟨t, a1, ⟨-, a2⟩ | ⟨dt, t', a3, -⟩⟩ := h
    · have e3 : line = t := List.append_cancel_right a2
      rw [h1] at a1
      rw [e3]
      exact a1
    · rw [h2] at a3
      exact absurd a3 (by simp)
  have hb := abs_lt.mp hn
  have hnum := numeral_of_int ht
  have hm := C53_meaning prog [.arg 102 (textBytes line)] [[45, 102], textBytes line]
    (Written.separate [] 102 (textBytes line) [] [] (by simp) (by simp [ArgLetter]) .nil)
    (by
      intro it hit
      simp only [List.mem_singleton] at hit
      subst hit
      exact .inr ⟨rfl, n, hnum, by omega, by omega⟩) n hnum
  have hti : (BitVec.ofInt 32 n).toInt = n := by
    rw [BitVec.toInt_ofInt]
    exact Int.bmod_eq_of_le (by omega) (by omega)
  have hf : ∀ c : UInt8, Item.flag c ∉ [Item.arg 102 (textBytes line)] := by simp
  have hl : ∀ c : UInt8, c ≠ 102 → lastArg c [Item.arg 102 (textBytes line)] = none := by
    intro c hc
    simp [lastArg, Ne.symm hc]
  simp only [hf, if_false, hti, decide_false, hl 105 (by decide), hl 111 (by decide), hl 70 (by decide), Option.getD_none] at hm
  have : (|n| < 2 ^ 21 ∨ n = -2 ^ 31) ↔ |n| < 2 ^ 21 := by
    constructor
    · rintro (h | h)
      · exact h
      · omega
    · exact .inl
  simpa only [this] using hm

/-- **C87 fails** for the option -f: given the frequency as a fraction, 3.33e-06, freqcd does not refuse it but applies the
correction 3 (units of 2^-34). -/
theorem C87_option_violated : ∃ line : List Char, Printed ⟨.inl (fl 53 (1 / 300000)), none⟩ (line ++ ['\n']) ∧
    Ends [[], [45, 102], textBytes line] (.ok { fcorr := 3, legacy := false, infile := [], outfile := [], freqfile := [] }) := by
  refine ⟨"3.3333333333333333e-06".toList, ?_, 3, ?_⟩
  · have := C86_line ⟨.inl (fl 53 (1 / 300000)), none⟩ (by rintro x hx; rw [← Sum.inl.inj hx]; exact fl_idem 53 (by norm_num) _)
    rwa [show fpLine ⟨.inl (fl 53 (1 / 300000)), none⟩ = "3.3333333333333333e-06".toList ++ ['\n'] by decide +kernel] at this
  · intro fuel hf
    obtain ⟨k, rfl⟩ : ∃ k, fuel = k + 2 := ⟨fuel - 2, by omega⟩
    have e : textBytes "3.3333333333333333e-06".toList = [51, 46, 51, 51, 51, 51, 51, 51, 51, 51, 51, 51, 51, 51, 51, 51, 51, 51, 101, 45, 48, 54] := by
      decide +kernel
    rw [e]
    rfl

/-- Instances of C86: the four kinds of output. -/
example : fpLine (fpOutput (fl 53) 0 (12345 / 10) (fl 53 (1 / 300000))) = "3.3333333333333333e-06\t1234\n".toList ∧
    fpLine (fpOutput (fl 53) 4 (12345 / 10) (fl 53 (1 / 300000))) = "3.3333333333333333e-06\n".toList ∧
    fpLine (fpOutput (fl 53) 2 (12345 / 10) (fl 53 (1 / 300000))) = "57266\t1234\n".toList ∧
    fpLine (fpOutput (fl 53) 14 (12345 / 10) (fl 53 (1 / 300000))) = "57266\n".toList ∧
    fpLine (fpOutput (fl 53) 8 (-12345 / 10) 0) = "0.0\t-9876\n".toList ∧ fl 53 (fl 53 (1 / 300000)) = fl 53 (1 / 300000) := by
  decide +kernel

/-- Instance of `C87_channel_partial`: the lines "57266", "0.25" and "-7\t12" arrive in one read; the correction becomes 57266. -/
example : ∃ (s s1 : FState) (rs : List Round) (outs : List FpOutput) (ls : List (List Char)),
    List.Forall₂ (fun o l => Printed o (l ++ ['\n'])) outs ls ∧ Initial s 5 true [] (textBytes (ls.flatMap (· ++ ['\n']))) ∧
    fRun false rs s = .ok (s1, none) ∧ (∀ c ∈ freqReads false rs s, c = [] ∨ (10 : UInt8) ∈ c) ∧ s1.freqSrc = [] ∧
    outs.foldl applied 5 = 57266 ∧ s1.fcorr = 57266 := by
  have hb : textBytes (["57266".toList, "0.25".toList, "-7\t12".toList].flatMap (· ++ ['\n'])) =
      [53, 55, 50, 54, 54, 10, 48, 46, 50, 53, 10, 45, 55, 9, 49, 50, 10] := by decide +kernel
  obtain ⟨s1, h1, h2, h3, h4⟩ := demo_run false [{ selectOk := true, inRead := none, freqRead := some (some 50), write := some 8192 }] 0 5 true []
    [53, 55, 50, 54, 54, 10, 48, 46, 50, 53, 10, 45, 55, 9, 49, 50, 10] _ _ _ none ⟨rfl, rfl, rfl, by decide +kernel⟩
  have hi := demo_initial 0 5 true [] [53, 55, 50, 54, 54, 10, 48, 46, 50, 53, 10, 45, 55, 9, 49, 50, 10]
  obtain ⟨hw, ho, -⟩ := initial_wf hi
  have q1 := C86_line ⟨.inr 57266, none⟩ (by simp)
  have q2 := C86_line ⟨.inl (1 / 4), none⟩ (by rintro x hx; rw [← Sum.inl.inj hx]; decide +kernel)
  have q3 := C86_line ⟨.inr (-7), some 12⟩ (by simp)
  rw [show fpLine ⟨.inr 57266, none⟩ = "57266".toList ++ ['\n'] by decide +kernel] at q1
  rw [show fpLine ⟨.inl (1 / 4), none⟩ = "0.25".toList ++ ['\n'] by decide +kernel] at q2
  rw [show fpLine ⟨.inr (-7), some 12⟩ = "-7\t12".toList ++ ['\n'] by decide +kernel] at q3
  refine ⟨_, s1, _, [⟨.inr 57266, none⟩, ⟨.inl (1 / 4), none⟩, ⟨.inr (-7), some 12⟩], ["57266".toList, "0.25".toList, "-7\t12".toList],
    .cons q1 (.cons q2 (.cons q3 .nil)), by rw [hb]; exact hi, h1, ?_, ?_, by decide +kernel, by rw [h4]; decide +kernel⟩
  · rw [aReads_eq hw ho, demo_abst]
    decide +kernel
  · have := (C45_exact false _ _ s1 5 true [] _ hi h1 _ _ (Classical.choose_spec (Classical.choose_spec (lines_exist _)))).2
    rw [aReads_eq hw ho, demo_abst] at this
    have hl := congrArg List.length this
    rw [List.length_append] at hl
    apply List.eq_nil_of_length_eq_zero
    have e : ((aReads false [{ selectOk := true, inRead := none, freqRead := some (some 50), write := some 8192 }]
      (demoA 0 5 true [] [53, 55, 50, 54, 54, 10, 48, 46, 50, 53, 10, 45, 55, 9, 49, 50, 10])).flatten).length = 17 := by
      decide +kernel
    simp only [List.length_cons, List.length_nil] at hl
    omega

end Fp
