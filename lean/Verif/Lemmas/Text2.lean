import Verif.Model.UtilsText
import Verif.Spec.Text
import Verif.Lemmas.Decimal

/-! Helper lemmas for `Verif/Props/Text.lean`. -/
namespace Fp
open Spec

theorem partitionHead_spec (s : List Char) : BeforeChangelog s (partitionHead "Changelog:".toList s) := by
  induction s with
  | nil => exact .inl ⟨rfl, by decide⟩
  | cons c r ih =>
    rw [partitionHead]
    by_cases h : "Changelog:".toList.isPrefixOf (c :: r) = true
    · rw [if_pos h]
      obtain ⟨rest, h⟩ := List.isPrefixOf_iff_prefix.mp h
      exact .inr ⟨rest, by rw [List.nil_append, h], fun _ _ _ => Nat.zero_le _⟩
    · rw [if_neg h]
      have hnp : ¬ "Changelog:".toList <+: c :: r := fun hh => h (List.isPrefixOf_iff_prefix.mpr hh)
      rcases ih with ⟨e, hn⟩ | ⟨rest, e, hmin⟩
      · rw [e]
        refine .inl ⟨rfl, fun hh => ?_⟩
        rcases List.infix_cons_iff.mp hh with h1 | h1
        · exact hnp h1
        · exact hn h1
      · refine .inr ⟨rest, by rw [List.cons_append, List.cons_append, ← e], fun d' rest' h' => ?_⟩
        cases d' with
        | nil => exact absurd ⟨rest', by rw [h']; simp⟩ hnp
        | cons c' d' =>
          rw [List.cons_append, List.cons_append] at h'
          have := hmin d' rest' (List.cons.inj h').2
          simpa using this

/-- A text is free of newlines, or has a first run of them. -/
theorem first_run (d : List Char) : '\n' ∉ d ∨
    ∃ s k rest, '\n' ∉ s ∧ 1 ≤ k ∧ rest.head? ≠ some '\n' ∧ d = s ++ List.replicate k '\n' ++ rest := by
  induction d with
  | nil => left; simp
  | cons c r ih =>
    by_cases hc : c = '\n'
    · subst hc
      right
      rcases ih with h | ⟨s, k, rest, h1, h2, h3, h4⟩
      · refine ⟨[], 1, r, by simp, le_refl _, ?_, by simp⟩
        intro hh
        exact h (List.mem_of_mem_head? (by rw [hh]; rfl))
      · by_cases hs : s = []
        · subst hs
          exact ⟨[], k + 1, rest, by simp, by omega, h3, by rw [h4, List.replicate_succ]; simp⟩
        · refine ⟨[], 1, r, by simp, le_refl _, ?_, by simp⟩
          obtain ⟨a, s', rfl⟩ := List.exists_cons_of_ne_nil hs
          rw [h4]
          simp only [List.cons_append, List.head?_cons]
          intro hh
          injection hh with hh
          exact h1 (by rw [hh]; simp)
    · rcases ih with h | ⟨s, k, rest, h1, h2, h3, h4⟩
      · left; simp [h, Ne.symm hc]
      · right
        exact ⟨c :: s, k, rest, by simp [h1, Ne.symm hc], h2, h3, by rw [h4]; simp⟩

theorem subFirstRun_none (rep d : List Char) (h : '\n' ∉ d) : subFirstRun rep d = d := by
  induction d with
  | nil => rfl
  | cons c r ih =>
    simp only [List.mem_cons, not_or] at h
    rw [subFirstRun, if_neg (Ne.symm h.1), ih h.2]

theorem subFirstRun_run (rep s rest : List Char) (k : ℕ) (h1 : '\n' ∉ s) (h2 : 1 ≤ k) (h3 : rest.head? ≠ some '\n') :
    subFirstRun rep (s ++ List.replicate k '\n' ++ rest) = s ++ rep ++ rest := by
  induction s with
  | nil =>
    obtain ⟨j, rfl⟩ : ∃ j, k = j + 1 := ⟨k - 1, by omega⟩
    simp only [List.nil_append, List.replicate_succ, List.cons_append, subFirstRun, if_true]
    congr 1
    rw [List.dropWhile_append_of_pos (by intro c hc; rw [List.eq_of_mem_replicate hc]; rfl)]
    cases rest with
    | nil => rfl
    | cons c r =>
      have : (c == '\n') = false := by
        simp only [List.head?_cons, ne_eq, Option.some.injEq] at h3
        simpa using h3
      rw [List.dropWhile_cons, this]
      rfl
  | cons c r ih =>
    simp only [List.mem_cons, not_or] at h1
    simp only [List.cons_append, subFirstRun]
    rw [if_neg (Ne.symm h1.1), ih h1.2]

theorem subRuns_none (rep d : List Char) (b : Bool) (h : '\n' ∉ d) : subRuns rep b d = d := by
  induction d generalizing b with
  | nil => rfl
  | cons c r ih =>
    simp only [List.mem_cons, not_or] at h
    rw [subRuns, if_neg (Ne.symm h.1), ih _ h.2]

theorem subRuns_head (rep rest : List Char) (b : Bool) (h : rest.head? ≠ some '\n') :
    subRuns rep b rest = subRuns rep false rest := by
  cases rest with
  | nil => rfl
  | cons c r =>
    simp only [List.head?_cons, ne_eq, Option.some.injEq] at h
    rw [subRuns, subRuns, if_neg h, if_neg h]

theorem subRuns_append (rep s rest : List Char) (b : Bool) (h1 : '\n' ∉ s) (h2 : s ≠ [] ∨ b = false) :
    subRuns rep b (s ++ rest) = s ++ subRuns rep false rest := by
  induction s generalizing b with
  | nil => simp at h2; rw [h2]; rfl
  | cons c r ih =>
    simp only [List.mem_cons, not_or] at h1
    rw [List.cons_append, subRuns, if_neg (Ne.symm h1.1), ih _ h1.2 (.inr rfl), List.cons_append]

theorem subRuns_run (rep rest : List Char) (k : ℕ) (h2 : 1 ≤ k) (h3 : rest.head? ≠ some '\n') :
    subRuns rep false (List.replicate k '\n' ++ rest) = rep ++ subRuns rep false rest := by
  obtain ⟨j, rfl⟩ : ∃ j, k = j + 1 := ⟨k - 1, by omega⟩
  have : ∀ j, subRuns rep true (List.replicate j '\n' ++ rest) = subRuns rep false rest := by
    intro j
    induction j with
    | zero => exact subRuns_head rep rest true h3
    | succ j ih => rw [List.replicate_succ, List.cons_append, subRuns, if_pos rfl, if_pos rfl, ih]
  rw [List.replicate_succ, List.cons_append, subRuns, if_pos rfl, this]
  simp

theorem subRuns_flow (d : List Char) : Flow d (subRuns " ".toList false d) := by
  induction hn : d.length using Nat.strong_induction_on generalizing d with
  | _ n ih =>
    rcases first_run d with h | ⟨s, k, rest, h1, h2, h3, rfl⟩
    · rw [subRuns_none _ _ _ h]; exact .last d h
    · rw [List.append_assoc, subRuns_append _ _ _ _ h1 (.inr rfl), subRuns_run _ _ _ h2 h3, ← List.append_assoc]
      refine .more s rest _ k h1 h2 h3 (ih rest.length ?_ rest rfl)
      rw [← hn]; simp; omega

theorem subRuns_sub (d : List Char) (b : Bool) : ∀ c ∈ subRuns " ".toList b d, c ∈ d ∨ c = ' ' := by
  induction d generalizing b with
  | nil => simp [subRuns]
  | cons a r ih =>
    intro c hc
    rw [subRuns] at hc
    split_ifs at hc
    · rcases ih _ c hc with h | h
      · exact .inl (List.mem_cons_of_mem _ h)
      · exact .inr h
    · rcases List.mem_append.mp hc with h | h
      · right; simpa using h
      · rcases ih _ c h with h | h
        · exact .inl (List.mem_cons_of_mem _ h)
        · exact .inr h
    · rcases List.mem_cons.mp hc with rfl | h
      · left; simp
      · rcases ih _ c h with h | h
        · exact .inl (List.mem_cons_of_mem _ h)
        · exact .inr h

theorem placeholder_prefix {c : Char} {r : List Char} (h : c ≠ '~') : ¬ placeholder.isPrefixOf (c :: r) = true := by
  intro hh
  have : placeholder = '~' :: "~~PLACEHOLDER~~~".toList := by decide
  rw [this, List.isPrefixOf_cons₂] at hh
  simp at hh
  exact h hh.1.symm

theorem subLiteral_free (rep s rest : List Char) (h : '~' ∉ s) :
    subLiteral placeholder rep 0 (s ++ rest) = s ++ subLiteral placeholder rep 0 rest := by
  induction s with
  | nil => rfl
  | cons c r ih =>
    simp only [List.mem_cons, not_or] at h
    rw [List.cons_append, subLiteral, if_neg (placeholder_prefix (Ne.symm h.1)), ih h.2, List.cons_append]

theorem subLiteral_skip (pat rep a rest : List Char) :
    subLiteral pat rep a.length (a ++ rest) = subLiteral pat rep 0 rest := by
  induction a with
  | nil => cases rest <;> rfl
  | cons c r ih => rw [List.length_cons, List.cons_append, subLiteral, ih]

theorem subLiteral_hit (rep rest : List Char) :
    subLiteral placeholder rep 0 (placeholder ++ rest) = rep ++ subLiteral placeholder rep 0 rest := by
  have e : placeholder = '~' :: "~~PLACEHOLDER~~~".toList := by decide
  have hp : placeholder.isPrefixOf (placeholder ++ rest) = true := List.isPrefixOf_iff_prefix.mpr ⟨rest, rfl⟩
  have h2 := subLiteral_skip placeholder rep "~~PLACEHOLDER~~~".toList rest
  conv_lhs => rw [show placeholder ++ rest = '~' :: ("~~PLACEHOLDER~~~".toList ++ rest) by rw [e]; rfl]
  rw [subLiteral, if_pos (by rw [e] at hp ⊢; exact hp)]
  congr 1

theorem formatF_spec (d : ℕ) (x : ℚ) : ∃ r, Denotes (formatF d x) r ∧ |r - x| ≤ 10 ^ (-(d : ℤ)) / 2 ∧
    ∃ k : ℤ, r = k * 10 ^ (-(d : ℤ)) := by
  have hd : (0 : ℚ) < 10 ^ d := by positivity
  have h0 : 0 ≤ rne (|x| * 10 ^ d) := by
    have := le_rne_int (x := |x| * 10 ^ d) (n := 0) (by push_cast; positivity)
    exact this
  have h1 := rne_spec (|x| * 10 ^ d)
  have hm : (((rne (|x| * 10 ^ d)).toNat : ℕ) : ℚ) = (rne (|x| * 10 ^ d) : ℚ) := by
    exact_mod_cast Int.toNat_of_nonneg h0
  rw [← hm] at h1
  unfold formatF
  simp only []
  generalize (rne (|x| * 10 ^ d)).toNat = m at h1
  have hD : Digits (natDigits (m / 10 ^ d) ++ fixDigits d m) m := by
    have := digits_append (natDigits_spec (m / 10 ^ d)) (fixDigits_spec d m)
    rwa [fixDigits_length, Nat.div_add_mod'] at this
  have hF : (if d = 0 then [] else '.' :: fixDigits d m) = (if fixDigits d m = [] then [] else '.' :: fixDigits d m) := by
    by_cases h : d = 0
    · subst h; rfl
    · rw [if_neg h, if_neg (fun hh => h (by have := congrArg List.length hh; rwa [fixDigits_length] at this))]
  rw [hF, List.append_assoc]
  have habs : |(m : ℚ) * 10 ^ (-(d : ℤ)) - (|x|)| ≤ 10 ^ (-(d : ℤ)) / 2 := by
    rw [zpow_neg, zpow_natCast, ← div_eq_mul_inv]
    have : |(m : ℚ) / 10 ^ d - (|x|)| = |(m : ℚ) - |x| * 10 ^ d| / 10 ^ d := by
      conv_rhs => rw [← abs_of_pos hd, ← abs_div, abs_of_pos hd, sub_div, mul_div_cancel_right₀ _ hd.ne']
    rw [this, div_le_iff₀ hd]
    calc _ ≤ _ := h1
      _ = _ := by field_simp
  by_cases hx : x < 0
  · rw [if_pos hx]
    refine ⟨-(m * 10 ^ (-(d : ℤ))), ⟨['-'], _, _, [], m, 0, by rw [List.append_nil], natDigits_ne _, hD, .inl ⟨rfl, rfl⟩,
      .inr ⟨rfl, by rw [fixDigits_length, zero_sub]⟩⟩, ?_, -m, by push_cast; ring⟩
    rw [abs_of_neg hx] at habs
    rw [abs_sub_comm]
    convert habs using 2
    ring
  · rw [if_neg hx]
    refine ⟨m * 10 ^ (-(d : ℤ)), ⟨[], _, _, [], m, 0, by rw [List.append_nil], natDigits_ne _, hD, .inl ⟨rfl, rfl⟩,
      .inl ⟨rfl, by rw [fixDigits_length, zero_sub]⟩⟩, ?_, m, by push_cast; ring⟩
    rwa [abs_of_nonneg (not_lt.mp hx)] at habs

theorem joinWith_comma (l : List (List Char)) : joinWith ", ".toList l = commaList l := by
  match l with
  | [] => rfl
  | [a] => simp [joinWith, commaList]
  | a :: b :: l =>
    rw [joinWith, joinWith_comma (b :: l)]
    simp [commaList]

theorem shown_plain (label : List Char) (w d : ℕ) (x : ℚ) :
    Shown.As ⟨label, [], w, d, x, 0⟩ (label ++ "=".toList ++ padLeft w (formatF d x)) := by
  obtain ⟨r, h1, h2, h3⟩ := formatF_spec d x
  refine ⟨formatF d x, x, r, ?_, h1, by simp, h2, h3⟩
  simp [padLeft]

theorem shown_ppm (x : ℚ) :
    Shown.As ⟨"df".toList, "ppm".toList, 0, 4, x * 10 ^ 6, |x * 10 ^ 6| * 2 ^ (-53 : ℤ)⟩
      ("df=".toList ++ formatF 4 (fl 53 (x * 1000000)) ++ "ppm".toList) := by
  obtain ⟨r, h1, h2, h3⟩ := formatF_spec 4 (fl 53 (x * 1000000))
  refine ⟨_, _, r, ?_, h1, ?_, h2, h3⟩
  · simp
  · have := fl_err 53 (x * 1000000)
    norm_num at this ⊢
    exact this

theorem forall2_opt (v : Option ℚ) (g : ℚ → Shown) (f : ℚ → List Char) (h : ∀ x, (g x).As (f x)) :
    List.Forall₂ Shown.As (v.toList.map g) (match v with | none => [] | some x => [f x]) := by
  cases v with
  | none => exact .nil
  | some x => exact .cons (h x) .nil

theorem lineEnd_iff (c : Char) : isLineEnd c = true ↔ LineEnd c := by
  simp only [isLineEnd, LineEnd, List.mem_cons, List.mem_nil_iff, or_false, decide_eq_true_eq]
  omega

theorem notEnd_iff (c : Char) : isLineEnd c = false ↔ ¬ LineEnd c := by
  rw [← lineEnd_iff]; simp

theorem splitLines_spec (text : List Char) (h : '\r' ∉ text) (cur : List Char) (started : Bool)
    (hc : ∀ c ∈ cur, isLineEnd c = false) (hs : started = false → cur = []) (hs' : started = true → cur ≠ []) :
    LinesOf (cur.reverse ++ text) (splitLinesGo cur started text) := by
  induction text generalizing cur started with
  | nil =>
    cases started with
    | false => rw [hs rfl]; exact .nil
    | true =>
      have : splitLinesGo cur true [] = [cur.reverse] := rfl
      rw [this, List.append_nil]
      exact .last _ (by simpa using hs' rfl) (by simpa [notEnd_iff] using hc)
  | cons c r ih =>
    simp only [List.mem_cons, not_or] at h
    have e : splitLinesGo cur started (c :: r) =
        if isLineEnd c then cur.reverse :: splitLinesGo [] false r else splitLinesGo (c :: cur) true r := by
      rw [splitLinesGo]
      intro r' h1 h2
      exact absurd h1 (Ne.symm h.1)
    rw [e]
    by_cases hl : isLineEnd c = true
    · rw [if_pos hl]
      refine .more _ c r _ (by simpa [notEnd_iff] using hc) ((lineEnd_iff c).mp hl) ?_
      simpa using ih h.2 [] false (by simp) (by simp) (by simp)
    · rw [if_neg hl]
      have := ih h.2 (c :: cur) true (by
        intro a ha
        rcases List.mem_cons.mp ha with rfl | ha
        · simpa using hl
        · exact hc a ha) (by simp) (by simp)
      simpa using this

end Fp
