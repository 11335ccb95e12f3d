import Verif.Lemmas.Text
import Verif.Lemmas.RawA1

/-! Helper lemmas for `Verif/Props/RawText.lean`. -/
namespace Fp
open Spec

theorem map_no_comment (w : Nat) (ns : List Nat) : ∀ l ∈ ns.map (hexPad w), '#' ∉ l := by
  intro l hl
  obtain ⟨n, -, rfl⟩ := List.mem_map.mp hl
  exact hexPad_no_comment w n

theorem writeA0_text (fw : Nat) (res : Tsres) (events : List (Num × Nat)) :
    writeA0 fw res events =
      textOf (((consolidateEvents fw res false events).flatMap (fun n => [n % 2 ^ 32, n / 2 ^ 32])).map (hexPad 8)) := by
  unfold writeA0 textOf
  generalize consolidateEvents fw res false events = lines
  induction lines with
  | nil => rfl
  | cons n ns ih =>
    rw [List.flatMap_cons, ih, List.flatMap_cons, List.map_append, List.flatMap_append, and32, shr_eq]
    simp

theorem writeA2_text (fw : Nat) (res : Tsres) (events : List (Num × Nat)) :
    writeA2 fw res events = textOf ((consolidateEvents fw res false events).map (hexPad 16)) := by
  unfold writeA2 textOf
  rw [List.flatMap_map]

theorem decodeRowA0_eq (fw : Nat) (res : Tsres) (frac : Bool) (n : Nat) (h : n < 2 ^ 64) :
    decodeRowA0 fw res frac (((n % 2 ^ 32 : Nat) : ℤ), ((n / 2 ^ 32 : Nat) : ℤ)) =
      (formatTimestamp fw res frac (.flt (fl 53 ((n / 1024 : Nat) : ℚ))), n % 16) := by
  unfold decodeRowA0
  simp only [Int.toNat_natCast]
  rw [shl_eq, shr_eq, and15]
  have h1 : (n / 2 ^ 32 * 2 ^ 22) % 2 ^ 64 = n / 2 ^ 32 * 2 ^ 22 := Nat.mod_eq_of_lt (by omega)
  rw [h1, fl_nat 53 (n % 2 ^ 32 / 2 ^ 10) (by omega)]
  have h2 : fl 53 ((n / 2 ^ 32 * 2 ^ 22 : Nat) : ℚ) = ((n / 2 ^ 32 * 2 ^ 22 : Nat) : ℚ) := by
    have := fl_exact 53 ((n / 2 ^ 32 : Nat) : ℤ) 22 (by
      rw [abs_of_nonneg (by positivity)]
      have : n / 2 ^ 32 < 2 ^ 53 := by omega
      exact_mod_cast this)
    have e : (((n / 2 ^ 32 : Nat) : ℤ) : ℚ) * (2 : ℚ) ^ (22 : ℤ) = ((n / 2 ^ 32 * 2 ^ 22 : Nat) : ℚ) := by
      rw [Nat.cast_mul, Int.cast_natCast]
      norm_num
    rw [e] at this
    exact this
  rw [h2, ← Nat.cast_add]
  have h3 : n / 2 ^ 32 * 2 ^ 22 + n % 2 ^ 32 / 2 ^ 10 = n / 1024 := by omega
  have h4 : n % 2 ^ 32 % 16 = n % 16 := by omega
  rw [h3, h4]

theorem decodeA0_vals (fw : Nat) (res : Tsres) (frac : Bool) (ts : List (List Char)) (lines : List Nat) (hne : lines ≠ [])
    (hp : parseAllHex ts = .ok ((lines.flatMap (fun n => [n % 2 ^ 32, n / 2 ^ 32])).map (fun n : Nat => (n : ℤ))))
    (h : ∀ n ∈ lines, n < 2 ^ 64) :
    decodeA0 fw res frac ts =
      .ok (lines.map (fun n => (formatTimestamp fw res frac (.flt (fl 53 ((n / 1024 : Nat) : ℚ))), n % 16))) := by
  unfold decodeA0
  rw [hp]
  have hb : ∀ v ∈ (lines.flatMap (fun n => [n % 2 ^ 32, n / 2 ^ 32])).map (fun n : Nat => (n : ℤ)), 0 ≤ v ∧ v < 2 ^ 32 := by
    intro v hv
    obtain ⟨m, hm, rfl⟩ := List.mem_map.mp hv
    obtain ⟨n, hn, hm⟩ := List.mem_flatMap.mp hm
    have := h n hn
    simp only [List.mem_cons, List.not_mem_nil, or_false] at hm
    omega
  have e1 : (lines.flatMap (fun n => [n % 2 ^ 32, n / 2 ^ 32])).map (fun n : Nat => (n : ℤ)) =
      (lines.map (fun n => (((n % 2 ^ 32 : Nat) : ℤ), ((n / 2 ^ 32 : Nat) : ℤ)))).flatMap (fun r => [r.1, r.2]) := by
    clear hb hne h hp
    induction lines with
    | nil => rfl
    | cons n ns ih => rw [List.flatMap_cons, List.map_append, ih]; rfl
  have hdt : discoverDtype ((lines.flatMap (fun n => [n % 2 ^ 32, n / 2 ^ 32])).map (fun n : Nat => (n : ℤ))) = .int64 := by
    unfold discoverDtype
    rw [if_neg, if_neg, if_pos]
    · rw [List.all_eq_true]
      intro v hv
      have := hb v hv
      simp only [decide_eq_true_eq]
      omega
    · simp only [List.any_eq_true, not_exists, not_and]
      intro v hv
      have := hb v hv
      simp only [decide_eq_true_eq]
      omega
    · cases lines with
      | nil => exact absurd rfl hne
      | cons n ns => simp
  simp only [bind, Except.bind]
  rw [hdt]
  have hall : ((lines.flatMap (fun n => [n % 2 ^ 32, n / 2 ^ 32])).map (fun n : Nat => (n : ℤ))).all
      (fun v => decide (0 ≤ v)) = true := by
    rw [List.all_eq_true]
    intro v hv
    simpa using (hb v hv).1
  rw [hall]
  simp only [if_pos, and_self]
  rw [e1, reshape2_rows]
  simp only [pure, Except.pure]
  rw [List.map_map]
  congr 1
  apply List.map_congr_left
  intro n hn
  exact decodeRowA0_eq fw res frac n (h n hn)

theorem decodeA0_lines (fw : Nat) (res : Tsres) (frac : Bool) (lines : List Nat) (hne : lines ≠ [])
    (h : ∀ n ∈ lines, n < 2 ^ 64) :
    decodeA0 fw res frac ((lines.flatMap (fun n => [n % 2 ^ 32, n / 2 ^ 32])).map (hexPad 8)) =
      .ok (lines.map (fun n => (formatTimestamp fw res frac (.flt (fl 53 ((n / 1024 : Nat) : ℚ))), n % 16))) :=
  decodeA0_vals fw res frac _ lines hne (parseAllHex_pad _ _) h

theorem decodeA2_vals (fw : Nat) (res : Tsres) (frac : Bool) (ts : List (List Char)) (lines : List Nat) (hne : lines ≠ [])
    (hp : parseAllHex ts = .ok (lines.map (fun n : Nat => (n : ℤ))))
    (h : (∀ n ∈ lines, n < 2 ^ 63) ∨ (∀ n ∈ lines, 2 ^ 63 ≤ n ∧ n < 2 ^ 64)) :
    decodeA2 fw res frac ts =
      .ok (lines.map (fun n => (formatTimestamp fw res frac (.u64 (n / 1024)), n % 16))) := by
  unfold decodeA2
  rw [hp]
  have hne' : lines.map (fun n : Nat => (n : ℤ)) ≠ [] := by simpa using hne
  have hno : ¬ (lines.map (fun n : Nat => (n : ℤ))).any (fun x => decide (x < -2 ^ 63 ∨ 2 ^ 64 ≤ x)) = true := by
    simp only [List.any_eq_true, not_exists, not_and]
    intro v hv
    obtain ⟨n, hn, rfl⟩ := List.mem_map.mp hv
    have : n < 2 ^ 64 := by
      rcases h with h | h
      · have := h n hn; omega
      · exact (h n hn).2
    simp only [decide_eq_true_eq]
    omega
  have hdt : discoverDtype (lines.map (fun n : Nat => (n : ℤ))) = .int64 ∨
      discoverDtype (lines.map (fun n : Nat => (n : ℤ))) = .uint64 := by
    unfold discoverDtype
    rw [if_neg hne', if_neg hno]
    rcases h with h | h
    · left
      rw [if_pos]
      rw [List.all_eq_true]
      intro v hv
      obtain ⟨n, hn, rfl⟩ := List.mem_map.mp hv
      have := h n hn
      simp only [decide_eq_true_eq]; omega
    · right
      rw [if_neg, if_pos]
      · rw [List.all_eq_true]
        intro v hv
        obtain ⟨n, hn, rfl⟩ := List.mem_map.mp hv
        have := h n hn
        simp only [decide_eq_true_eq]; omega
      · rw [List.all_eq_true]
        intro hall
        obtain ⟨n, ns, rfl⟩ : ∃ n ns, lines = n :: ns := by
          cases lines with
          | nil => exact absurd rfl hne
          | cons n ns => exact ⟨n, ns, rfl⟩
        have h1 := hall (n : ℤ) (by simp)
        have h2 := h n (by simp)
        simp only [decide_eq_true_eq] at h1
        omega
  have hall : (lines.map (fun n : Nat => (n : ℤ))).all (fun v => decide (0 ≤ v)) = true := by
    rw [List.all_eq_true]
    intro v hv
    obtain ⟨n, hn, rfl⟩ := List.mem_map.mp hv
    simp
  simp only [bind, Except.bind]
  rw [if_pos ⟨hdt, hall⟩]
  simp only [pure, Except.pure]
  rw [List.map_map]
  congr 1
  apply List.map_congr_left
  intro n hn
  simp only [Function.comp, Int.toNat_natCast]
  rw [shr_eq, and15]
  rfl

theorem decodeA2_lines (fw : Nat) (res : Tsres) (frac : Bool) (lines : List Nat) (hne : lines ≠ [])
    (h : (∀ n ∈ lines, n < 2 ^ 63) ∨ (∀ n ∈ lines, 2 ^ 63 ≤ n ∧ n < 2 ^ 64)) :
    decodeA2 fw res frac (lines.map (hexPad 16)) =
      .ok (lines.map (fun n => (formatTimestamp fw res frac (.u64 (n / 1024)), n % 16))) :=
  decodeA2_vals fw res frac _ lines hne (parseAllHex_pad _ _) h

theorem decodeA2_mixed (fw : Nat) (res : Tsres) (frac : Bool) (lines : List Nat)
    (h1 : ∃ n ∈ lines, n < 2 ^ 63) (h2 : ∃ n ∈ lines, 2 ^ 63 ≤ n) (h64 : ∀ n ∈ lines, n < 2 ^ 64) :
    decodeA2 fw res frac (lines.map (hexPad 16)) = .error .typeError := by
  unfold decodeA2
  rw [parseAllHex_pad]
  obtain ⟨a, ha, hal⟩ := h1
  obtain ⟨b, hb, hbl⟩ := h2
  have hdt : discoverDtype (lines.map (fun n : Nat => (n : ℤ))) = .float64 := by
    unfold discoverDtype
    rw [if_neg, if_neg, if_neg, if_neg]
    · rw [List.all_eq_true]
      intro hall
      have := hall (a : ℤ) (List.mem_map.mpr ⟨a, ha, rfl⟩)
      simp only [decide_eq_true_eq] at this
      omega
    · rw [List.all_eq_true]
      intro hall
      have := hall (b : ℤ) (List.mem_map.mpr ⟨b, hb, rfl⟩)
      simp only [decide_eq_true_eq] at this
      omega
    · simp only [List.any_eq_true, not_exists, not_and]
      intro v hv
      obtain ⟨n, hn, rfl⟩ := List.mem_map.mp hv
      have := h64 n hn
      simp only [decide_eq_true_eq]
      omega
    · intro hc
      simp at hc
      subst hc
      simp at ha
  simp only [bind, Except.bind]
  rw [hdt]
  simp

theorem forall2_valid {events : List (Num × Nat)} {raws : List (Nat × Nat)} {res : Tsres}
    (h : List.Forall₂ (fun (e : Num × Nat) r => e.1.val = timeIn res r.1 ∧ e.2 = r.2 ∧ Valid r) events raws) :
    ∀ r ∈ raws, Valid r := by
  induction h with
  | nil => simp
  | cons hh _ ih =>
    intro r hr
    rcases List.mem_cons.mp hr with rfl | hr
    · exact hh.2.2
    · exact ih r hr

theorem lines_lt {raws : List (Nat × Nat)} (hv : ∀ r ∈ raws, Valid r) :
    ∀ n ∈ raws.map (fun r => r.1 * 1024 + r.2), n < 2 ^ 64 := by
  intro n hn
  obtain ⟨r, hr, rfl⟩ := List.mem_map.mp hn
  have h1 := (hv r hr).1
  have h2 := (hv r hr).2
  omega

theorem hexPad_words_line (lines : List Nat) (h : ∀ n ∈ lines, n < 2 ^ 64) :
    ∀ l ∈ (lines.flatMap (fun n => [n % 2 ^ 32, n / 2 ^ 32])).map (hexPad 8), Line l ∧ l.length = 8 := by
  intro l hl
  obtain ⟨m, hm, rfl⟩ := List.mem_map.mp hl
  obtain ⟨n, hn, hm⟩ := List.mem_flatMap.mp hm
  refine ⟨Line_hexPad 8 m, hexPad_length 8 m (by norm_num) ?_⟩
  have := h n hn
  simp only [List.mem_cons, List.not_mem_nil, or_false] at hm
  norm_num
  omega

/-- The number a reader of the a0 format returns for the raw time `t`: it went through a 64-bit float. -/
def a0Value (fw : Nat) (res : Tsres) (frac : Bool) (t : Nat) : Num :=
  formatTimestamp fw res frac (.flt (fl 53 (t : ℚ)))

theorem readA0_raws (fw : Nat) (hfw : 54 ≤ fw) (res res' : Tsres) (frac' : Bool) (events : List (Num × Nat))
    (raws : List (Nat × Nat)) (hne : raws ≠ [])
    (h : List.Forall₂ (fun e r => e.1.val = timeIn res r.1 ∧ e.2 = r.2 ∧ Valid r) events raws) :
    readA0 fw res' frac' (writeA0 fw res events) = .ok (raws.map fun r => (a0Value fw res' frac' r.1, r.2)) := by
  have hv := forall2_valid h
  have hl := lines_lt hv
  unfold readA0
  rw [writeA0_text, consolidateEvents_eq fw hfw res events raws h]
  rw [genfromtxt_textOf 8 _ (fun l hl' => (hexPad_words_line _ hl l hl').1) (map_no_comment 8 _)
    (fun l hl' => le_of_eq (hexPad_words_line _ hl l hl').2)]
  rw [if_neg]
  · simp only [bind, Except.bind]
    rw [decodeA0_lines fw res' frac' _ (by simpa using hne) hl, List.map_map]
    congr 1
    apply List.map_congr_left
    intro r hr
    have h2 := (hv r hr).2
    simp only [Function.comp, a0Value]
    rw [show (r.1 * 1024 + r.2) / 1024 = r.1 by omega, show (r.1 * 1024 + r.2) % 16 = r.2 by omega]
  · rw [List.length_map, flatMap_length_const _ 2 (by simp)]
    omega

theorem fl53_even (t : Nat) (h : t < 2 ^ 54) (he : t < 2 ^ 53 ∨ t % 2 = 0) : fl 53 (t : ℚ) = t := by
  rcases he with he | he
  · exact fl_nat 53 t he
  · have := fl_exact 53 ((t / 2 : Nat) : ℤ) 1 (by
      rw [abs_of_nonneg (by positivity)]
      have : t / 2 < 2 ^ 53 := by omega
      exact_mod_cast this)
    have e : (((t / 2 : Nat) : ℤ) : ℚ) * (2 : ℚ) ^ (1 : ℤ) = (t : ℚ) := by
      rw [zpow_one]
      have : t / 2 * 2 = t := by omega
      exact_mod_cast this
    rw [e] at this
    exact this

theorem a0Value_val (fw : Nat) (hfw : 54 ≤ fw) (res : Tsres) (frac : Bool) (t : Nat) (h : t < 2 ^ 54)
    (he : t < 2 ^ 53 ∨ t % 2 = 0) : (a0Value fw res frac t).val = (readValue res frac t).val := by
  have htf : t < 2 ^ fw := lt_of_lt_of_le h (Nat.pow_le_pow_right (by norm_num) hfw)
  unfold a0Value
  rw [fl53_even t h he, ← formatTimestamp_u64 fw res frac t htf]
  unfold formatTimestamp
  cases frac
  · simp only [Bool.false_eq_true, if_false]
    split
    · rw [toU64_nat, Nat.mod_eq_of_lt (by omega)]; rfl
    · rfl
  · rfl

theorem a2_lines_ok (lines : List Nat) (h : ∀ n ∈ lines, n < 2 ^ 64) :
    ∀ l ∈ lines.map (hexPad 16), Line l ∧ l.length = 16 := by
  intro l hl
  obtain ⟨m, hm, rfl⟩ := List.mem_map.mp hl
  exact ⟨Line_hexPad 16 m, hexPad_length 16 m (by norm_num) (by have := h m hm; norm_num; omega)⟩

theorem formatTimestamp_homogeneous {α : Type} (fw : Nat) (res : Tsres) (frac : Bool) (xs : List α) (f : α → ℚ) :
    Homogeneous (xs.map fun x => formatTimestamp fw res frac (.flt (f x))) := by
  by_cases h : frac = true
  · right; intro y hy; obtain ⟨x, _, rfl⟩ := List.mem_map.mp hy; exact ⟨_, by rw [formatTimestamp, if_pos h]⟩
  · by_cases h2 : res ≠ .ps4
    · left; intro y hy; obtain ⟨x, _, rfl⟩ := List.mem_map.mp hy
      exact ⟨_, by rw [formatTimestamp, if_neg h, if_pos h2]⟩
    · right; intro y hy; obtain ⟨x, _, rfl⟩ := List.mem_map.mp hy
      exact ⟨_, by rw [formatTimestamp, if_neg h, if_neg h2]⟩

end Fp
