import Verif.Lemmas.Text2

namespace Fp
open Spec

/-- C81: the description of the command line help, for docstrings without `~`. -/
theorem C81_description_partial (s : List Char) :
    ∃ d, BeforeChangelog s d ∧ ('~' ∉ d → Reflow d (parseDocstring s)) := by
  refine ⟨_, partitionHead_spec s, fun hd => ?_⟩
  unfold parseDocstring
  simp only []
  generalize partitionHead "Changelog:".toList s = d at hd
  rcases first_run d with hn | ⟨a, k, rest, h1, h2, h3, rfl⟩
  · left
    refine ⟨hn, ?_⟩
    rw [subFirstRun_none _ _ hn, subRuns_none _ _ _ hn]
    have := subLiteral_free "\n\n".toList d [] hd
    rw [List.append_nil] at this
    rw [this]
    simp [subLiteral]
  · right
    have ha : '~' ∉ a := fun hh => hd (by simp [hh])
    have hr : '~' ∉ rest := fun hh => hd (by simp [hh])
    refine ⟨a, k, rest, _, h1, h2, h3, rfl, subRuns_flow rest, ?_⟩
    rw [subFirstRun_run _ _ _ _ h1 h2 h3, List.append_assoc, subRuns_append _ _ _ _ h1 (.inr rfl),
      subRuns_append _ placeholder _ _ (by decide) (.inr rfl), subLiteral_free _ _ _ ha, subLiteral_hit]
    have hf : '~' ∉ subRuns " ".toList false rest := by
      intro hh
      rcases subRuns_sub _ _ _ hh with h' | h'
      · exact hr h'
      · exact absurd h' (by decide)
    have := subLiteral_free "\n\n".toList _ [] hf
    rw [List.append_nil] at this
    rw [this]
    simp [subLiteral]

/-- Example: the result for a short docstring. -/
example : '~' ∉ "Find peaks.\n\nUses the FFT\nof both sides.\n\nChangelog:\n    2022".toList ∧
    parseDocstring "Find peaks.\n\nUses the FFT\nof both sides.\n\nChangelog:\n    2022".toList =
      "Find peaks.\n\nUses the FFT of both sides. ".toList := by decide +kernel

/-- C81: a docstring with the placeholder itself is changed. -/
theorem C81_placeholder_violated :
    parseDocstring "The mark ~~~PLACEHOLDER~~~ is special.".toList = "The mark \n\n is special.".toList := by decide +kernel

/-- C82: the text of a failed search is its message, followed by the values that were given. -/
theorem C82_text (e : PeakFindingFailed) :
    let given := shownValues e.s e.r e.dt1 e.dt2 e.dt e.df
    ∃ ts, List.Forall₂ Shown.As given ts ∧
      e.str = if given = [] then e.message else e.message ++ " (".toList ++ commaList ts ++ ")".toList := by
  refine ⟨_, List.rel_append (List.rel_append (List.rel_append (List.rel_append (List.rel_append
    (forall2_opt e.s _ _ fun x => shown_plain "S".toList 8 3 x)
    (forall2_opt e.r _ _ fun x => shown_plain "r".toList 5 0 x))
    (forall2_opt e.dt1 _ _ fun x => shown_plain "dt1".toList 11 0 x))
    (forall2_opt e.dt2 _ _ fun x => shown_plain "dt2".toList 11 0 x))
    (forall2_opt e.dt _ _ fun x => shown_plain "dt".toList 11 0 x))
    (forall2_opt e.df _ _ fun x => shown_ppm x), ?_⟩
  unfold PeakFindingFailed.str
  simp only [joinWith_comma]
  obtain ⟨m, s, r, a, b, c, d⟩ := e
  cases s <;> cases r <;> cases a <;> cases b <;> cases c <;> cases d <;> simp [shownValues]

/-- Example. -/
example : PeakFindingFailed.str { message := "Low significance".toList, s := some (9 / 2), r := some 256, df := some (1 / 10 ^ 5) } =
    "Low significance (S=   4.500, r=  256, df=10.0000ppm)".toList := by decide +kernel

/-- C83: help texts marked `rawtext|` keep their lines; all others are left to argparse. -/
theorem C83_raw_lines (wrap : List Char → ℕ → List (List Char)) (text : List Char) (width : ℕ) (h : '\r' ∉ text) :
    LinesOf text (splitHelp wrap ("rawtext|".toList ++ text) width) := by
  unfold splitHelp
  have hp : rawIndicator.isPrefixOf ("rawtext|".toList ++ text) = true := List.isPrefixOf_iff_prefix.mpr ⟨text, rfl⟩
  rw [if_pos hp]
  have : ("rawtext|".toList ++ text).drop rawIndicator.length = text := by
    have e : rawIndicator.length = "rawtext|".toList.length := rfl
    rw [e, List.drop_left]
  rw [this]
  simpa using splitLines_spec text h [] false (by simp) (by simp) (by simp)

/-- C83: other help texts. -/
theorem C83_wrapped (wrap : List Char → ℕ → List (List Char)) (text : List Char) (width : ℕ)
    (h : ¬ "rawtext|".toList <+: text) : splitHelp wrap text width = wrap text width := by
  unfold splitHelp
  rw [if_neg]
  intro hh
  exact h (List.isPrefixOf_iff_prefix.mp hh)

/-- Example. -/
example : splitHelp (fun _ _ => []) "rawtext|0: first\n\n1: second\n".toList 80 =
    ["0: first".toList, [], "1: second".toList] := by decide +kernel

/-- C83: an option is shown with all its names, and its arguments once, at the end. -/
theorem C83_invocation (options : List (List Char)) (h : options ≠ []) (args : List Char) :
    formatInvocation options true args = commaList options ∧
    formatInvocation options false args = commaList options ++ " ".toList ++ args := by
  unfold formatInvocation
  simp only [joinWith_comma]
  refine ⟨rfl, ?_⟩
  obtain ⟨l, a, rfl⟩ : ∃ l a, options = l ++ [a] := ⟨_, _, (List.dropLast_append_getLast h).symm⟩
  rw [List.dropLast_concat, List.getLast?_concat]
  cases l with
  | nil => simp [commaList]
  | cons b l => simp [commaList]

/-- Example. -/
example : formatInvocation ["-s".toList, "--skip".toList] false "SKIP".toList = "-s, --skip SKIP".toList := by decide +kernel

end Fp
