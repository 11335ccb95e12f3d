import Verif.Lemmas.TextDamage

/-!
# C116: damaged text files (a0, a2)

A text file that holds something else than hexadecimal numbers is refused, whichever reader is used.  A file that was cut
short is refused if the cut leaves half an event of two lines (a0).  A cut *inside* the last line is not noticed: the digits
that are left make another number, and the readers return an event that was never recorded.
-/
namespace Fp
open Spec

/-! ## Characters that belong to no number -/

/-- **C116** (characters, files read at once): a character that is no part of a hexadecimal number, within the columns that
are read, is refused. -/
theorem C116_characters {c : Char} (hc : Foreign c) (hh : c ≠ '#') (fw : Nat) (res : Tsres) (frac : Bool) (file : List Char) :
    (InField 8 c file → readA0 fw res frac file = .error .valueError ∨ readA0 fw res frac file = .error .typeError) ∧
    (InField 16 c file → readA2 fw res frac file = .error .valueError ∨ readA2 fw res frac file = .error .typeError) := by
  constructor
  · intro h
    unfold readA0
    rcases genfromtxt_foreign hc hh 8 file h with h | ⟨ls, h, hl⟩
    · rw [h]; exact Or.inr rfl
    · rw [h]
      left
      simp only [bind, Except.bind]
      exact decodeA0_foreign hc fw res frac ls hl
  · intro h
    unfold readA2
    rcases genfromtxt_foreign hc hh 16 file h with h | ⟨ls, h, hl⟩
    · rw [h]; exact Or.inr rfl
    · rw [h]
      left
      simp only [bind, Except.bind]
      exact decodeA2_foreign hc fw res frac ls hl

/-- **C116** (characters, streamed files): anywhere in the file, whatever the size of the buffer. -/
theorem C116_characters_stream {c : Char} (hc : Foreign c) (fw : Nat) (res : Tsres) (frac : Bool) (b : Nat) (file : List Char)
    (h : c ∈ file) :
    (∃ e, (sreadA0 fw res frac (b + 1) file).1.2 = some e) ∧ (∃ e, (sreadA2 fw res frac (b + 1) file).1.2 = some e) := by
  constructor
  · exact streamLoop_refused _ _ (by positivity) c (fun part hp =>
      ⟨_, decodeA0_foreign hc fw res frac _ (stream_line hc part hp)⟩) file h
  · exact streamLoop_refused _ _ (by positivity) c (fun part hp =>
      ⟨_, decodeA2_foreign hc fw res frac _ (stream_line hc part hp)⟩) file h

/-- Hypotheses of `C116_characters`: a line of a table in decimals, behind a good line. -/
example : Foreign '.' ∧ InField 8 '.' ("0000040f\n12.5\n".toList) :=
  ⟨⟨by decide, by decide, by decide⟩, "0000040f\n".toList, "12".toList, "5\n".toList, by decide, Or.inr ⟨"0000040f".toList, by decide⟩,
    by decide, by decide, by decide⟩

/-! ## Files cut short: a2 -/

/-- **C116 is violated** for a2 files cut inside a line: all readers return, without an error, an event that is not in the
file; its time is too early. -/
theorem C116_cut_a2_violated (fw : Nat) (hfw : 54 ≤ fw) (res : Tsres) (frac : Bool) (pre : List (Nat × Nat)) (e : Nat × Nat)
    (hpre : ∀ r ∈ pre, Valid r ∧ r.1 < 2 ^ 53) (he : Valid e ∧ e.1 < 2 ^ 53) (j : Nat) (hj : 1 ≤ j ∧ j ≤ 15) :
    (0 < e.1 → (cutA2 j e).1 < e.1) ∧
    (pre ≠ [] → readA2 fw res frac (pre.flatMap a2Event ++ (a2Event e).take j) =
      .ok ((pre ++ [cutA2 j e]).map fun r => (readValue res frac r.1, r.2))) ∧
    ∀ b, (sreadA2 fw res frac (b + 1) (pre.flatMap a2Event ++ (a2Event e).take j)).1.2 = none ∧
      (sreadA2 fw res frac (b + 1) (pre.flatMap a2Event ++ (a2Event e).take j)).1.1.flatten =
        (pre ++ [cutA2 j e]).map fun r => (readValue res frac r.1, r.2) :=
  ⟨cutA2_early e he.1 j hj.2, a2_cut_reads fw hfw res frac pre e hpre he j ⟨hj.1, by omega⟩⟩

/-- A file that only lacks its last newline is read completely. -/
theorem C116_newline_a2 (fw : Nat) (hfw : 54 ≤ fw) (res : Tsres) (frac : Bool) (pre : List (Nat × Nat)) (e : Nat × Nat)
    (hpre : ∀ r ∈ pre, Valid r ∧ r.1 < 2 ^ 53) (he : Valid e ∧ e.1 < 2 ^ 53) :
    (pre ≠ [] → readA2 fw res frac (pre.flatMap a2Event ++ (a2Event e).take 16) =
      .ok ((pre ++ [e]).map fun r => (readValue res frac r.1, r.2))) ∧
    ∀ b, (sreadA2 fw res frac (b + 1) (pre.flatMap a2Event ++ (a2Event e).take 16)).1.2 = none ∧
      (sreadA2 fw res frac (b + 1) (pre.flatMap a2Event ++ (a2Event e).take 16)).1.1.flatten =
        (pre ++ [e]).map fun r => (readValue res frac r.1, r.2) := by
  have h2 := he.1.2
  have hc : cutA2 16 e = e := by
    unfold cutA2
    simp only [Nat.sub_self, Nat.pow_zero, Nat.div_one]
    ext
    · show (e.1 * 2 ^ 10 + e.2) / 2 ^ 10 = e.1
      omega
    · show (e.1 * 2 ^ 10 + e.2) % 16 = e.2
      omega
  have := a2_cut_reads fw hfw res frac pre e hpre he 16 (by omega)
  rwa [hc] at this

/-! ## Files cut short: a0 -/

/-- **C116** for a0 files cut inside the first line of an event, or between its lines: half an event is refused.  Missing:
cuts inside the second line, which are not noticed (`C116_cut_a0_violated`). -/
theorem C116_cut_a0_partial (fw : Nat) (hfw : 54 ≤ fw) (res : Tsres) (frac : Bool) (pre : List (Nat × Nat)) (e : Nat × Nat)
    (hpre : ∀ r ∈ pre, Valid r ∧ r.1 < 2 ^ 53) (he : Valid e) (j : Nat) (hj : 1 ≤ j ∧ j ≤ 9) :
    (readA0 fw res frac (pre.flatMap a0Event ++ (a0Event e).take j) =
      if pre = [] then .error .typeError else .error .valueError) ∧
    ∀ b, (sreadA0 fw res frac (b + 1) (pre.flatMap a0Event ++ (a0Event e).take j)).1.2 = some .valueError ∧
      ∃ k, pre.length ≤ k + b ∧ valuesOf (sreadA0 fw res frac (b + 1) (pre.flatMap a0Event ++ (a0Event e).take j)).1.1.flatten =
        (pre.take k).map fun r => ((readValue res frac r.1).val, r.2) := by
  obtain ⟨h1, h2, h3⟩ := a0_cut_reads fw res frac pre e (fun r hr => (hpre r hr).1) he j ⟨hj.1, by omega⟩
  constructor
  · by_cases hp : pre = []
    · rw [if_pos hp]; exact h2 hp hj.2
    · rw [if_neg hp, h1 (Or.inl hp), cutResultA0, if_pos hj.2]
  · intro b
    obtain ⟨gs, g, hg1, -, hg3, hg⟩ := h3 b
    rw [hg, cutResultA0, if_pos hj.2]
    refine ⟨rfl, gs.flatten.length, ?_, ?_⟩
    · rw [← hg1, List.length_append]; omega
    · have e1 : pre.take gs.flatten.length = gs.flatten := by rw [← hg1]; simp
      rw [e1]
      simp only [endWith]
      rw [← List.map_flatten]
      refine values_a0 fw hfw res frac _ fun r hr => (hpre r ?_).2
      rw [← hg1]; simp only [List.mem_append]; exact Or.inl hr

/-- **C116 is violated** for a0 files cut inside the second line of an event: all readers return, without an error, an event
with the right pattern that is too early. -/
theorem C116_cut_a0_violated (fw : Nat) (hfw : 54 ≤ fw) (res : Tsres) (frac : Bool) (pre : List (Nat × Nat)) (e : Nat × Nat)
    (hpre : ∀ r ∈ pre, Valid r ∧ r.1 < 2 ^ 53) (he : Valid e ∧ e.1 < 2 ^ 53) (i : Nat) (hi : 1 ≤ i ∧ i ≤ 7) :
    (2 ^ 22 ≤ e.1 → (cutA0 i e).1 < e.1) ∧
    (∃ out, readA0 fw res frac (pre.flatMap a0Event ++ (a0Event e).take (9 + i)) = .ok out ∧
      valuesOf out = (pre ++ [cutA0 i e]).map fun r => ((readValue res frac r.1).val, r.2)) ∧
    ∀ b, (sreadA0 fw res frac (b + 1) (pre.flatMap a0Event ++ (a0Event e).take (9 + i))).1.2 = none ∧
      valuesOf (sreadA0 fw res frac (b + 1) (pre.flatMap a0Event ++ (a0Event e).take (9 + i))).1.1.flatten =
        (pre ++ [cutA0 i e]).map fun r => ((readValue res frac r.1).val, r.2) := by
  obtain ⟨h1, -, h3⟩ := a0_cut_reads fw res frac pre e (fun r hr => (hpre r hr).1) he.1 (9 + i) (by omega)
  have hcut := cutA0_valid e he i
  have hall : ∀ r ∈ pre ++ [cutA0 i e], r.1 < 2 ^ 53 := by
    intro r hr
    rcases List.mem_append.mp hr with hr | hr
    · exact (hpre r hr).2
    · rw [List.mem_singleton] at hr; subst hr
      exact lt_of_le_of_lt hcut.1 he.2
  refine ⟨hcut.2 hi.2, ⟨_, ?_, values_a0 fw hfw res frac _ hall⟩, ?_⟩
  · rw [h1 (Or.inr (by omega)), cutResultA0, if_neg (by omega), show 9 + i - 9 = i by omega]
  · intro b
    obtain ⟨gs, g, hg1, -, -, hg⟩ := h3 b
    rw [hg, cutResultA0, if_neg (by omega), show 9 + i - 9 = i by omega]
    refine ⟨rfl, ?_⟩
    simp only [endWith]
    rw [List.flatten_append, List.flatten_singleton, ← List.map_flatten, ← List.map_append, ← List.append_assoc, hg1]
    exact values_a0 fw hfw res frac _ hall

/-- A file that only lacks its last newline is read completely. -/
theorem C116_newline_a0 (fw : Nat) (hfw : 54 ≤ fw) (res : Tsres) (frac : Bool) (pre : List (Nat × Nat)) (e : Nat × Nat)
    (hpre : ∀ r ∈ pre, Valid r ∧ r.1 < 2 ^ 53) (he : Valid e ∧ e.1 < 2 ^ 53) :
    (∃ out, readA0 fw res frac (pre.flatMap a0Event ++ (a0Event e).take 17) = .ok out ∧
      valuesOf out = (pre ++ [e]).map fun r => ((readValue res frac r.1).val, r.2)) ∧
    ∀ b, (sreadA0 fw res frac (b + 1) (pre.flatMap a0Event ++ (a0Event e).take 17)).1.2 = none ∧
      valuesOf (sreadA0 fw res frac (b + 1) (pre.flatMap a0Event ++ (a0Event e).take 17)).1.1.flatten =
        (pre ++ [e]).map fun r => ((readValue res frac r.1).val, r.2) := by
  obtain ⟨h1, -, h3⟩ := a0_cut_reads fw res frac pre e (fun r hr => (hpre r hr).1) he.1 17 (by omega)
  have hc : cutA0 (17 - 9) e = e := by
    unfold cutA0
    simp only [Nat.sub_self, Nat.pow_zero, Nat.div_one, Nat.reduceSub]
    ext
    · show e.1 / 2 ^ 22 * 2 ^ 22 + e.1 % 2 ^ 22 = e.1
      omega
    · rfl
  have hall : ∀ r ∈ pre ++ [e], r.1 < 2 ^ 53 := by
    intro r hr
    rcases List.mem_append.mp hr with hr | hr
    · exact (hpre r hr).2
    · rw [List.mem_singleton] at hr; subst hr
      exact he.2
  refine ⟨⟨_, ?_, values_a0 fw hfw res frac _ hall⟩, ?_⟩
  · rw [h1 (Or.inr (by omega)), cutResultA0, if_neg (by omega), hc]
  · intro b
    obtain ⟨gs, g, hg1, -, -, hg⟩ := h3 b
    rw [hg, cutResultA0, if_neg (by omega), hc]
    refine ⟨rfl, ?_⟩
    simp only [endWith]
    rw [List.flatten_append, List.flatten_singleton, ← List.map_flatten, ← List.map_append, ← List.append_assoc, hg1]
    exact values_a0 fw hfw res frac _ hall

/-- Hypotheses of the theorems on cuts, and two cuts: the line `0000000000800401` (32 ns, pattern 1) after 15 digits is read
as 2 ns without a pattern. -/
example : (Valid (8193, 1) ∧ 8193 < 2 ^ 53) ∧ cutA2 15 (8193, 1) = (512, 0) ∧ cutA0 7 (2 ^ 26 + 5, 3) = (2 ^ 22 + 5, 3) := by
  refine ⟨⟨⟨by norm_num, by norm_num⟩, by norm_num⟩, by decide, by decide⟩

end Fp
