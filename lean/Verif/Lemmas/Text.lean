import Verif.Lemmas.Raw

/-! Helper lemmas about hexadecimal text. -/
namespace Fp
open Spec

theorem hexVal_hexChar (d : Nat) (h : d < 16) : hexVal (hexChar d) = some d := by
  have : ∀ d : Fin 16, hexVal (hexChar d.val) = some d.val := by decide
  exact this ⟨d, h⟩

theorem hexChar_props (d : Nat) (h : d < 16) :
    isSpace (hexChar d) = false ∧ hexChar d ≠ '_' ∧ hexChar d ≠ 'x' ∧ hexChar d ≠ 'X' ∧ hexChar d ≠ '-' ∧
      hexChar d ≠ '+' ∧ hexChar d ≠ '\n' := by
  have : ∀ d : Fin 16, isSpace (hexChar d.val) = false ∧ hexChar d.val ≠ '_' ∧ hexChar d.val ≠ 'x' ∧
      hexChar d.val ≠ 'X' ∧ hexChar d.val ≠ '-' ∧ hexChar d.val ≠ '+' ∧ hexChar d.val ≠ '\n' := by decide
  exact this ⟨d, h⟩

/-- The digits, least significant first. -/
def hexDigs (n : Nat) : List Nat := if n < 16 then [n] else n % 16 :: hexDigs (n / 16)
termination_by n
decreasing_by omega

theorem hexRev_eq (n : Nat) : hexRev n = (hexDigs n).map hexChar := by
  induction n using Nat.strongRecOn with
  | ind n ih =>
    rw [hexRev, hexDigs]
    split
    · rfl
    · rw [List.map_cons, ih (n / 16) (by omega)]

theorem hexDigs_lt (n : Nat) : ∀ d ∈ hexDigs n, d < 16 := by
  induction n using Nat.strongRecOn with
  | ind n ih =>
    rw [hexDigs]
    split
    · simpa
    · intro d hd
      rcases List.mem_cons.mp hd with rfl | hd
      · omega
      · exact ih (n / 16) (by omega) d hd

theorem hexDigs_ne (n : Nat) : hexDigs n ≠ [] := by
  rw [hexDigs]; split <;> simp

theorem hexDigs_foldr (n : Nat) : (hexDigs n).foldr (fun d acc => acc * 16 + d) 0 = n := by
  induction n using Nat.strongRecOn with
  | ind n ih =>
    rw [hexDigs]
    split
    · simp
    · rw [List.foldr_cons, ih (n / 16) (by omega)]; omega

theorem hexDigs_length (w n : Nat) (hw : 0 < w) (h : n < 16 ^ w) : (hexDigs n).length ≤ w := by
  induction w generalizing n with
  | zero => omega
  | succ w ih =>
    rw [hexDigs]
    split
    · simp
    · rw [List.length_cons]
      rcases Nat.eq_zero_or_pos w with rfl | hpos
      · simp at h; omega
      · have := ih (n / 16) hpos (by rw [Nat.pow_succ] at h; omega)
        omega

/-- The digits of the padded number, most significant first. -/
def padDigs (w n : Nat) : List Nat := List.replicate (w - (hexDigs n).length) 0 ++ (hexDigs n).reverse

theorem hexPad_eq (w n : Nat) : hexPad w n = (padDigs w n).map hexChar := by
  unfold hexPad hexOf padDigs
  rw [hexRev_eq, List.map_append, List.map_reverse, List.length_reverse, List.length_map, List.map_replicate]
  rfl

theorem padDigs_lt (w n : Nat) : ∀ d ∈ padDigs w n, d < 16 := by
  intro d hd
  unfold padDigs at hd
  rcases List.mem_append.mp hd with hd | hd
  · have := (List.mem_replicate.mp hd).2; omega
  · exact hexDigs_lt n d (List.mem_reverse.mp hd)

theorem padDigs_ne (w n : Nat) : padDigs w n ≠ [] := by
  unfold padDigs
  simp [hexDigs_ne]

theorem padDigs_foldl (w n : Nat) : (padDigs w n).foldl (fun acc d => acc * 16 + d) 0 = n := by
  unfold padDigs
  rw [List.foldl_append]
  have h0 : ∀ k, (List.replicate k 0).foldl (fun acc d => acc * 16 + d) 0 = 0 := by
    intro k
    induction k with
    | zero => rfl
    | succ k ih => rw [List.replicate_succ, List.foldl_cons]; exact ih
  rw [h0, List.foldl_reverse]
  exact hexDigs_foldr n

theorem hexPad_length (w n : Nat) (hw : 0 < w) (h : n < 16 ^ w) : (hexPad w n).length = w := by
  rw [hexPad_eq, List.length_map, padDigs, List.length_append, List.length_replicate, List.length_reverse]
  have := hexDigs_length w n hw h
  omega

theorem hexDigitsVal_digs (ds : List Nat) (acc : Nat) (us : Bool) (h : ∀ d ∈ ds, d < 16) (hne : ds ≠ [] ∨ us = false) :
    hexDigitsVal acc us (ds.map hexChar) = some (ds.foldl (fun acc d => acc * 16 + d) acc) := by
  induction ds generalizing acc us with
  | nil => rcases hne with h | h <;> simp_all [hexDigitsVal]
  | cons d ds ih =>
    have hd := h d (by simp)
    rw [List.map_cons, hexDigitsVal, if_neg (hexChar_props d hd).2.1, hexVal_hexChar d hd, List.foldl_cons]
    exact ih _ _ (fun d hd => h d (by simp [hd])) (Or.inr rfl)

theorem hexBody_digs (ds : List Nat) (h : ∀ d ∈ ds, d < 16) (hne : ds ≠ []) :
    hexBody (ds.map hexChar) = some (ds.foldl (fun acc d => acc * 16 + d) 0) := by
  have key := hexDigitsVal_digs ds 0 true h (Or.inl hne)
  rw [← key]
  match ds, h with
  | [], _ => rfl
  | [d], h =>
    simp only [List.map_cons, List.map_nil]
    unfold hexBody
    split
    · rename_i heq; simp at heq
    · rfl
  | d :: e :: ds, h =>
    have he := hexChar_props e (h e (by simp))
    simp only [List.map_cons]
    unfold hexBody
    split
    · rename_i x rest heq
      simp only [List.cons.injEq] at heq
      obtain ⟨h1, h2, h3⟩ := heq
      rw [if_neg (by rw [← h2]; simp [he.2.2.1, he.2.2.2.1]), h1, h2, h3]
    · rfl

theorem stripBy_eq_self (sp : Char → Bool) (s : List Char) (h : ∀ c ∈ s, sp c = false) : stripBy sp s = s := by
  have key : ∀ l : List Char, (∀ c ∈ l, sp c = false) → l.dropWhile sp = l := by
    intro l hl
    cases l with
    | nil => rfl
    | cons c cs => rw [List.dropWhile_cons_of_neg]; simp [hl c (by simp)]
  unfold stripBy
  rw [key s h, key s.reverse (fun c hc => h c (List.mem_reverse.mp hc)), List.reverse_reverse]

theorem isIntSpace_of (c : Char) (h : isSpace c = false) : isIntSpace c = false := by
  simp [isSpace, isIntSpace] at h ⊢
  tauto

theorem isLineSpace_of (c : Char) (h : isSpace c = false) : isLineSpace c = false := by
  simp [isSpace, isLineSpace] at h ⊢
  tauto

theorem pyInt16_digs (ds : List Nat) (h : ∀ d ∈ ds, d < 16) (hne : ds ≠ []) :
    pyInt16 (ds.map hexChar) = some ((ds.foldl (fun acc d => acc * 16 + d) 0 : Nat) : ℤ) := by
  have hs : stripBy isIntSpace (ds.map hexChar) = ds.map hexChar := by
    apply stripBy_eq_self
    intro c hc
    obtain ⟨d, hd, rfl⟩ := List.mem_map.mp hc
    exact isIntSpace_of _ (hexChar_props d (h d hd)).1
  have hb := hexBody_digs ds h hne
  unfold pyInt16
  rw [hs]
  cases ds with
  | nil => exact absurd rfl hne
  | cons d ds =>
    have hd := hexChar_props d (h d (by simp))
    rw [List.map_cons] at hb ⊢
    split
    · rename_i heq; simp only [List.cons.injEq] at heq; exact absurd heq.1 hd.2.2.2.2.1
    · rename_i heq; simp only [List.cons.injEq] at heq; exact absurd heq.1 hd.2.2.2.2.2.1
    · rw [hb]; rfl

theorem pyInt16_hexPad (w n : Nat) : pyInt16 (hexPad w n) = some (n : ℤ) := by
  rw [hexPad_eq, pyInt16_digs _ (padDigs_lt w n) (padDigs_ne w n), padDigs_foldl]

/-- A non-empty line of visible characters. -/
def Line (l : List Char) : Prop := l ≠ [] ∧ ∀ c ∈ l, isSpace c = false

theorem Line_hexPad (w n : Nat) : Line (hexPad w n) := by
  rw [hexPad_eq]
  refine ⟨by simp [padDigs_ne], ?_⟩
  intro c hc
  obtain ⟨d, hd, rfl⟩ := List.mem_map.mp hc
  exact (hexChar_props d (padDigs_lt w n d hd)).1

theorem not_nl {l : List Char} (h : Line l) : '\n' ∉ l := by
  intro hc
  have := h.2 _ hc
  simp [isSpace] at this

theorem splitNl_noNl (l : List Char) (h : '\n' ∉ l) : splitNl l = [l] := by
  induction l with
  | nil => rfl
  | cons c cs ih =>
    rw [splitNl, if_neg (by rintro rfl; simp at h), ih (fun hc => h (by simp [hc]))]

theorem splitNl_append (l rest : List Char) (h : '\n' ∉ l) : splitNl (l ++ '\n' :: rest) = l :: splitNl rest := by
  induction l with
  | nil => simp [splitNl]
  | cons c cs ih =>
    rw [List.cons_append, splitNl, if_neg (by rintro rfl; simp at h), ih (fun hc => h (by simp [hc]))]

/-- Lines, each followed by a newline. -/
def textOf (lines : List (List Char)) : List Char := lines.flatMap (fun l => l ++ ['\n'])

theorem splitNl_textOf (lines : List (List Char)) (h : ∀ l ∈ lines, Line l) (rest : List Char) :
    splitNl (textOf lines ++ rest) = lines ++ splitNl rest := by
  induction lines with
  | nil => rfl
  | cons l ls ih =>
    have : textOf (l :: ls) ++ rest = l ++ '\n' :: (textOf ls ++ rest) := by simp [textOf, List.flatMap_cons]
    rw [this, splitNl_append _ _ (not_nl (h l (by simp))), ih (fun l hl => h l (by simp [hl]))]
    rfl

theorem dropWhile_line (l rest : List Char) (h : Line l) : (l ++ rest).dropWhile isSpace = l ++ rest := by
  obtain ⟨h1, h2⟩ := h
  cases l with
  | nil => exact absurd rfl h1
  | cons c cs => rw [List.cons_append, List.dropWhile_cons_of_neg]; simp [h2 c (by simp)]

theorem Line_reverse {l : List Char} (h : Line l) : Line l.reverse :=
  ⟨by simpa using h.1, fun c hc => h.2 c (List.mem_reverse.mp hc)⟩

/-- `buffer.strip().split("\n")` on complete lines. -/
theorem splitNl_strip_textOf (lines : List (List Char)) (h : ∀ l ∈ lines, Line l) (hne : lines ≠ []) :
    splitNl (strip (textOf lines)) = lines := by
  obtain ⟨init, last, rfl⟩ : ∃ init last, lines = init ++ [last] :=
    ⟨lines.dropLast, lines.getLast hne, (List.dropLast_append_getLast hne).symm⟩
  have hlast : Line last := h last (by simp)
  have e1 : textOf (init ++ [last]) = textOf init ++ (last ++ ['\n']) := by simp [textOf]
  have e2 : (textOf init ++ (last ++ ['\n'])).dropWhile isSpace = textOf init ++ (last ++ ['\n']) := by
    cases init with
    | nil => exact dropWhile_line last ['\n'] hlast
    | cons l ls =>
      have : textOf (l :: ls) ++ (last ++ ['\n']) = l ++ ('\n' :: (textOf ls ++ (last ++ ['\n']))) := by
        simp [textOf]
      rw [this]
      exact dropWhile_line l _ (h l (by simp))
  have e3 : strip (textOf (init ++ [last])) = textOf init ++ last := by
    unfold strip stripBy
    rw [e1, e2]
    have : (textOf init ++ (last ++ ['\n'])).reverse = '\n' :: (last.reverse ++ (textOf init).reverse) := by simp
    rw [this, List.dropWhile_cons_of_pos (by decide), dropWhile_line _ _ (Line_reverse hlast)]
    simp
  rw [e3, splitNl_textOf init (fun l hl => h l (by simp [hl])), splitNl_noNl last (not_nl hlast)]

theorem hexPad_no_comment (w n : Nat) : '#' ∉ hexPad w n := by
  rw [hexPad_eq]
  intro hc
  obtain ⟨d, hd, he⟩ := List.mem_map.mp hc
  have hlt := padDigs_lt w n d hd
  have key : ∀ d < 16, hexChar d ≠ '#' := by decide
  exact key d hlt he

theorem dropComment_eq (l : List Char) (h : '#' ∉ l) : dropComment l = l := by
  unfold dropComment
  induction l with
  | nil => rfl
  | cons c l ih =>
    rw [List.takeWhile_cons_of_pos (by simp only [decide_eq_true_eq]; rintro rfl; exact h (by simp)),
      ih fun hc => h (List.mem_cons_of_mem _ hc)]

/-- Complete lines and a last one that may be empty. -/
theorem genfromtxt_lines (w : Nat) (lines : List (List Char)) (last : List Char) (h : ∀ l ∈ lines, Line l) (hl : last = [] ∨ Line last)
    (hc : ∀ l ∈ lines ++ [last], '#' ∉ l) (hw : ∀ l ∈ lines ++ [last], l.length ≤ w) :
    genfromtxt w (textOf lines ++ last) = (fun ls : List (List Char) => if ls.length = 1 then .error .typeError else .ok ls)
      (lines ++ if last = [] then [] else [last]) := by
  unfold genfromtxt
  have hnl : '\n' ∉ last := by
    rcases hl with h | h
    · simp [h]
    · exact not_nl h
  have e1 : splitNl (textOf lines ++ last) = lines ++ [last] := by
    rw [splitNl_textOf lines h, splitNl_noNl last hnl]
  have hstrip : ∀ l : List Char, '#' ∉ l → (∀ c ∈ l, isSpace c = false) → stripBy isLineSpace (dropComment l) = l := by
    intro l h1 h2
    rw [dropComment_eq l h1]
    exact stripBy_eq_self _ l fun c hc => isLineSpace_of c (h2 c hc)
  have e2 : ((splitNl (textOf lines ++ last)).map (fun l => stripBy isLineSpace (dropComment l))).filter (fun l => l ≠ []) =
      lines ++ if last = [] then [] else [last] := by
    rw [e1, List.map_append]
    have hm : lines.map (fun l => stripBy isLineSpace (dropComment l)) = lines := by
      conv_rhs => rw [← List.map_id lines]
      apply List.map_congr_left
      intro l hl
      exact hstrip l (hc l (by simp [hl])) (h l hl).2
    rw [hm, List.filter_append]
    have hf : lines.filter (fun l => decide (l ≠ [])) = lines := by
      apply List.filter_eq_self.mpr
      intro l hl
      simp [(h l hl).1]
    rw [hf, List.map_singleton, hstrip last (hc last (by simp))
      (by rcases hl with h | h
          · simp [h]
          · exact h.2)]
    by_cases hle : last = [] <;> simp [hle]
  have e3 : (lines ++ if last = [] then [] else [last]).map (List.take w) = lines ++ if last = [] then [] else [last] := by
    conv_rhs => rw [← List.map_id (lines ++ if last = [] then [] else [last])]
    apply List.map_congr_left
    intro l hl'
    refine List.take_of_length_le (hw l ?_)
    by_cases hle : last = []
    · simp only [hle, if_true, List.append_nil] at hl'
      simp [hl']
    · simpa [hle] using hl'
  simp only [e2]
  generalize (lines ++ if last = [] then [] else [last]) = ls at *
  match ls, e3 with
  | [], _ => simp
  | [l], _ => simp
  | l :: m :: ls, e3 => simp only [e3]; simp

theorem genfromtxt_textOf (w : Nat) (lines : List (List Char)) (h : ∀ l ∈ lines, Line l)
    (hc : ∀ l ∈ lines, '#' ∉ l) (hw : ∀ l ∈ lines, l.length ≤ w) :
    genfromtxt w (textOf lines) = if lines.length = 1 then .error .typeError else .ok lines := by
  have := genfromtxt_lines w lines [] h (Or.inl rfl)
    (by intro l hl; rcases List.mem_append.mp hl with h | h
        · exact hc l h
        · simp_all)
    (by intro l hl; rcases List.mem_append.mp hl with h | h
        · exact hw l h
        · simp_all)
  simpa using this

theorem parseAllHex_pad (w : Nat) (ns : List Nat) :
    parseAllHex (ns.map (hexPad w)) = .ok (ns.map (fun n : Nat => (n : ℤ))) := by
  induction ns with
  | nil => rfl
  | cons n ns ih => simp [parseAllHex, pyInt16_hexPad, ih, bind, Except.bind, pure, Except.pure]

end Fp
