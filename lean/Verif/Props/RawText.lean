import Verif.Lemmas.RawText

/-! # Properties of the text formats a0 and a2: C05, C06, C08 -/
namespace Fp
open Spec

/-! ## C05: a0 -/

/-- **C05** (file contents): the a0 file consists of the documented lines. -/
theorem C05_a0_file (fw : Nat) (hfw : 54 ≤ fw) (res : Tsres) (events : List (Num × Nat)) (raws : List (Nat × Nat))
    (h : List.Forall₂ (fun e r => e.1.val = timeIn res r.1 ∧ e.2 = r.2 ∧ Valid r) events raws) :
    writeA0 fw res events = raws.flatMap a0Event := by
  have hv := forall2_valid h
  unfold writeA0
  rw [consolidateEvents_eq fw hfw res events raws h]
  clear h
  induction raws with
  | nil => rfl
  | cons r rs ih =>
    obtain ⟨h1, h2⟩ := hv r (by simp)
    rw [List.map_cons, List.flatMap_cons, List.flatMap_cons, ih (fun r hr => hv r (by simp [hr])), a0Event, and32, shr_eq]
    rw [show (r.1 * 1024 + r.2) % 2 ^ 32 = r.1 % 2 ^ 22 * 2 ^ 10 + r.2 by omega,
      show (r.1 * 1024 + r.2) / 2 ^ 32 = r.1 / 2 ^ 22 by omega]

/-- **C05** for all times that a 64-bit float can represent (everything below 2^53, and the even times above): the
round trip returns the written times, in the unit and mode requested from the reader, and the patterns.  Missing: the odd
times from 2^53 on, where the code is wrong (`C05_a0_negation`). -/
theorem C05_a0_roundtrip_partial (fw : Nat) (hfw : 54 ≤ fw) (res res' : Tsres) (frac' : Bool) (events : List (Num × Nat))
    (raws : List (Nat × Nat)) (hne : raws ≠ [])
    (h : List.Forall₂ (fun e r => e.1.val = timeIn res r.1 ∧ e.2 = r.2 ∧ Valid r) events raws)
    (hrep : ∀ r ∈ raws, r.1 < 2 ^ 53 ∨ r.1 % 2 = 0) :
    ∃ out, readA0 fw res' frac' (writeA0 fw res events) = .ok out ∧
      out.map (fun e => (e.1.val, e.2)) = raws.map (fun r => ((readValue res' frac' r.1).val, r.2)) ∧
      Homogeneous (out.map Prod.fst) := by
  refine ⟨_, readA0_raws fw hfw res res' frac' events raws hne h, ?_, ?_⟩
  · rw [List.map_map]
    apply List.map_congr_left
    intro r hr
    simp only [Function.comp]
    rw [a0Value_val fw hfw res' frac' r.1 (forall2_valid h r hr).1 (hrep r hr)]
  · rw [List.map_map]
    exact formatTimestamp_homogeneous fw res' frac' raws (fun r => fl 53 (r.1 : ℚ))

/-- **C05** is violated for *every* odd time from 2^53 on: the raw integer mode returns a different number. -/
theorem C05_a0_negation (t : Nat) (h1 : 2 ^ 53 ≤ t) (h2 : t < 2 ^ 54) (hodd : t % 2 = 1) :
    ∃ x, readA0 64 .ps4 false (writeA0 64 .ps4 [(.u64 t, 1)]) = .ok [(x, 1)] ∧ x.val ≠ t := by
  have h : List.Forall₂ (fun (e : Num × Nat) r => e.1.val = timeIn .ps4 r.1 ∧ e.2 = r.2 ∧ Valid r)
      [(Num.u64 t, 1)] [(t, 1)] := by
    refine .cons ⟨?_, rfl, h2, by norm_num⟩ .nil
    simp [Num.val, timeIn, Tsres.value]
  refine ⟨a0Value 64 .ps4 false t, readA0_raws 64 (by norm_num) .ps4 .ps4 false _ _ (by simp) h, ?_⟩
  have hq1 : (2 : ℚ) ^ (53 : ℤ) ≤ (t : ℚ) := by exact_mod_cast h1
  have hq2 : (t : ℚ) < 2 ^ ((53 : ℤ) + 1) := by
    have : (t : ℚ) < ((2 ^ 54 : Nat) : ℚ) := by exact_mod_cast h2
    refine lt_of_lt_of_eq this ?_
    norm_num
  have hfl := fl_eval 53 (t : ℚ) 53 hq1 hq2
  simp only [a0Value, formatTimestamp, Bool.false_eq_true, if_false, ne_eq, not_true_eq_false, Num.val]
  rw [hfl]
  intro hc
  generalize rne ((t : ℚ) / 2 ^ ((53 : ℤ) - (((53 : ℕ) : ℤ) - 1))) = m at hc
  have hc' : (m : ℚ) * 2 = (t : ℚ) := by
    have e : (2 : ℚ) ^ ((53 : ℤ) - (((53 : ℕ) : ℤ) - 1)) = 2 := by norm_num
    rwa [e] at hc
  have : m * 2 = (t : ℤ) := by exact_mod_cast hc'
  omega

/-- Converting the largest event from a0 to a1 makes it the smallest: the time wraps around to 0. -/
theorem C05_a0_to_a1_wraps :
    ∃ evs, readA0 64 .ps4 false (writeA0 64 .ps4 [(.u64 (2 ^ 54 - 1), 1)]) = .ok evs ∧
      writeA1 64 false .ps4 evs = a1Event false (0, 1) := by
  have h : List.Forall₂ (fun (e : Num × Nat) r => e.1.val = timeIn .ps4 r.1 ∧ e.2 = r.2 ∧ Valid r)
      [(Num.u64 (2 ^ 54 - 1), 1)] [(2 ^ 54 - 1, 1)] := by
    refine .cons ⟨?_, rfl, by norm_num [Valid]⟩ .nil
    norm_num [Num.val, timeIn, Tsres.value]
  refine ⟨_, readA0_raws 64 (by norm_num) .ps4 .ps4 false _ _ (by simp) h, ?_⟩
  have hfl : fl 53 ((2 ^ 54 - 1 : Nat) : ℚ) = 2 ^ 54 := by
    rw [fl_eval 53 _ 53 (by norm_num) (by norm_num)]
    have : rne (((2 ^ 54 - 1 : Nat) : ℚ) / 2 ^ ((53 : ℤ) - (((53 : ℕ) : ℤ) - 1))) = 2 ^ 53 := by
      norm_num [rne]
    rw [this]; norm_num
  have hc : consolidate 64 .ps4 (a0Value 64 .ps4 false (2 ^ 54 - 1), 1) = 1 := by
    simp only [a0Value, formatTimestamp, Bool.false_eq_true, if_false, ne_eq, not_true_eq_false, consolidate, Num.val]
    rw [hfl]
    have h3 : fl 64 ((2 : ℚ) ^ 54) = ((2 ^ 54 : Nat) : ℚ) := by
      have := fl_nat 64 (2 ^ 54) (by norm_num)
      rw [← this]; norm_num
    rw [h3]
    have h4 : ((2 ^ 54 : Nat) : ℚ) * ((Tsres.ps4.value / Tsres.ps4.value : Nat) : ℚ) = ((2 ^ 54 : Nat) : ℚ) := by
      norm_num [Tsres.value]
    rw [h4, fl_nat 64 (2 ^ 54) (by norm_num), toU64_nat]
    norm_num [shl_eq]
  simp only [writeA1, consolidateEvents, List.map_cons, List.map_nil, Bool.false_eq_true, if_false, hc]
  decide

/-- **C05**, an empty list of events cannot be read back: `TypeError`. -/
theorem C05_a0_empty (fw : Nat) (res res' : Tsres) (frac' : Bool) :
    readA0 fw res' frac' (writeA0 fw res []) = .error .typeError := by
  rfl

/-- Hypotheses of C05 are satisfiable, with times on both sides of 2^53. -/
example : List.Forall₂ (fun (e : Num × Nat) r => e.1.val = timeIn .ps4 r.1 ∧ e.2 = r.2 ∧ Valid r)
    [(Num.u64 12345, 3), (Num.u64 (2 ^ 53 + 2), 8)] [(12345, 3), (2 ^ 53 + 2, 8)] ∧
    ∀ r ∈ [(12345, 3), (2 ^ 53 + 2, 8)], r.1 < 2 ^ 53 ∨ r.1 % 2 = 0 := by
  refine ⟨.cons ⟨?_, rfl, by norm_num [Valid]⟩ (.cons ⟨?_, rfl, by norm_num [Valid]⟩ .nil), by decide⟩
  · norm_num [Num.val, timeIn, Tsres.value]
  · norm_num [Num.val, timeIn, Tsres.value]

/-! ## C06: a2 -/

/-- **C06** (file contents): the a2 file consists of the documented lines. -/
theorem C06_a2_file (fw : Nat) (hfw : 54 ≤ fw) (res : Tsres) (events : List (Num × Nat)) (raws : List (Nat × Nat))
    (h : List.Forall₂ (fun e r => e.1.val = timeIn res r.1 ∧ e.2 = r.2 ∧ Valid r) events raws) :
    writeA2 fw res events = raws.flatMap a2Event := by
  unfold writeA2
  rw [consolidateEvents_eq fw hfw res events raws h, List.flatMap_map]
  rfl

/-- **C06** for lists of at least two events that are all below 2^53 or all from 2^53 on. -/
theorem C06_a2_roundtrip_partial (fw : Nat) (hfw : 54 ≤ fw) (res res' : Tsres) (frac' : Bool) (events : List (Num × Nat))
    (raws : List (Nat × Nat)) (hlen : 2 ≤ raws.length)
    (h : List.Forall₂ (fun e r => e.1.val = timeIn res r.1 ∧ e.2 = r.2 ∧ Valid r) events raws)
    (huni : (∀ r ∈ raws, r.1 < 2 ^ 53) ∨ (∀ r ∈ raws, 2 ^ 53 ≤ r.1)) :
    readA2 fw res' frac' (writeA2 fw res events) = .ok (raws.map fun r => (readValue res' frac' r.1, r.2)) := by
  have hv := forall2_valid h
  have hl := lines_lt hv
  unfold readA2
  rw [writeA2_text, consolidateEvents_eq fw hfw res events raws h,
    genfromtxt_textOf 16 _ (fun l hl' => (a2_lines_ok _ hl l hl').1) (map_no_comment 16 _) (fun l hl' => le_of_eq (a2_lines_ok _ hl l hl').2)]
  rw [if_neg (by rw [List.length_map, List.length_map]; omega)]
  simp only [bind, Except.bind]
  rw [decodeA2_lines fw res' frac' _ (by rw [← List.length_pos_iff, List.length_map]; omega)]
  · rw [List.map_map]
    congr 1
    apply List.map_congr_left
    intro r hr
    obtain ⟨h1, h2⟩ := hv r hr
    have hlt : r.1 < 2 ^ fw := lt_of_lt_of_le h1 (Nat.pow_le_pow_right (by norm_num) hfw)
    simp only [Function.comp]
    rw [show (r.1 * 1024 + r.2) / 1024 = r.1 by omega, show (r.1 * 1024 + r.2) % 16 = r.2 by omega,
      formatTimestamp_u64 fw res' frac' r.1 hlt]
  · rcases huni with hu | hu
    · left
      intro n hn
      obtain ⟨r, hr, rfl⟩ := List.mem_map.mp hn
      have := hu r hr
      have := (hv r hr).2
      omega
    · right
      intro n hn
      refine ⟨?_, hl n hn⟩
      obtain ⟨r, hr, rfl⟩ := List.mem_map.mp hn
      have := hu r hr
      omega

/-- **C06** is violated for every single event: `TypeError` instead of the event. -/
theorem C06_a2_negation_single (fw : Nat) (res res' : Tsres) (frac' : Bool) (e : Num × Nat) :
    readA2 fw res' frac' (writeA2 fw res [e]) = .error .typeError := by
  unfold readA2
  have hl : ∀ n ∈ consolidateEvents fw res false [e], n < 2 ^ 64 := by
    intro n hn
    simp [consolidateEvents] at hn
    rw [hn]; exact consolidate_lt fw res e
  rw [writeA2_text, genfromtxt_textOf 16 _ (fun l hl' => (a2_lines_ok _ hl l hl').1) (map_no_comment 16 _)
    (fun l hl' => le_of_eq (a2_lines_ok _ hl l hl').2)]
  simp [consolidateEvents, bind, Except.bind]

/-- **C06** is violated for every list with times on both sides of 2^53: `TypeError` instead of the events. -/
theorem C06_a2_negation_mixed (fw : Nat) (hfw : 54 ≤ fw) (res res' : Tsres) (frac' : Bool) (events : List (Num × Nat))
    (raws : List (Nat × Nat))
    (h : List.Forall₂ (fun e r => e.1.val = timeIn res r.1 ∧ e.2 = r.2 ∧ Valid r) events raws)
    (h1 : ∃ r ∈ raws, r.1 < 2 ^ 53) (h2 : ∃ r ∈ raws, 2 ^ 53 ≤ r.1) :
    readA2 fw res' frac' (writeA2 fw res events) = .error .typeError := by
  have hv := forall2_valid h
  have hl := lines_lt hv
  unfold readA2
  rw [writeA2_text, consolidateEvents_eq fw hfw res events raws h,
    genfromtxt_textOf 16 _ (fun l hl' => (a2_lines_ok _ hl l hl').1) (map_no_comment 16 _) (fun l hl' => le_of_eq (a2_lines_ok _ hl l hl').2)]
  split
  · rfl
  · simp only [bind, Except.bind]
    apply decodeA2_mixed
    · obtain ⟨r, hr, hlt⟩ := h1
      refine ⟨_, List.mem_map.mpr ⟨r, hr, rfl⟩, ?_⟩
      have := (hv r hr).2
      omega
    · obtain ⟨r, hr, hlt⟩ := h2
      exact ⟨_, List.mem_map.mpr ⟨r, hr, rfl⟩, by omega⟩
    · exact hl

/-- Hypotheses of C06 are satisfiable (upper half), and so are those of the mixed negation. -/
example : List.Forall₂ (fun (e : Num × Nat) r => e.1.val = timeIn .ps4 r.1 ∧ e.2 = r.2 ∧ Valid r)
    [(Num.u64 (2 ^ 53 + 1), 3), (Num.u64 (2 ^ 54 - 1), 8)] [(2 ^ 53 + 1, 3), (2 ^ 54 - 1, 8)] ∧
    (∀ r ∈ [(2 ^ 53 + 1, 3), (2 ^ 54 - 1, 8)], 2 ^ 53 ≤ r.1) ∧
    List.Forall₂ (fun (e : Num × Nat) r => e.1.val = timeIn .ps4 r.1 ∧ e.2 = r.2 ∧ Valid r)
    [(Num.u64 7, 3), (Num.u64 (2 ^ 54 - 1), 8)] [(7, 3), (2 ^ 54 - 1, 8)] := by
  refine ⟨.cons ⟨?_, rfl, by norm_num [Valid]⟩ (.cons ⟨?_, rfl, by norm_num [Valid]⟩ .nil), by decide,
    .cons ⟨?_, rfl, by norm_num [Valid]⟩ (.cons ⟨?_, rfl, by norm_num [Valid]⟩ .nil)⟩ <;>
  norm_num [Num.val, timeIn, Tsres.value]

/-! ## C08: streaming text readers -/

/-- **C08** (a0): for every buffer size the batches are the consecutive groups of one list of events, which carries the
written times and patterns; the generator ends without an exception and the number of batches is the announced one. -/
theorem C08_sread_a0_partial (fw : Nat) (hfw : 54 ≤ fw) (res res' : Tsres) (frac' : Bool) (bufferSize : Nat)
    (hb : 0 < bufferSize) (events : List (Num × Nat)) (raws : List (Nat × Nat))
    (h : List.Forall₂ (fun e r => e.1.val = timeIn res r.1 ∧ e.2 = r.2 ∧ Valid r) events raws)
    (hrep : ∀ r ∈ raws, r.1 < 2 ^ 53 ∨ r.1 % 2 = 0) :
    ∃ evs, evs.map (fun (e : Num × Nat) => (e.1.val, e.2)) = raws.map (fun r => ((readValue res' frac' r.1).val, r.2)) ∧
      Homogeneous (evs.map Prod.fst) ∧
      IsBatching bufferSize evs (sreadA0 fw res' frac' bufferSize (writeA0 fw res events)).1.1 ∧
      (sreadA0 fw res' frac' bufferSize (writeA0 fw res events)).1.2 = none ∧
      (sreadA0 fw res' frac' bufferSize (writeA0 fw res events)).2 =
        (sreadA0 fw res' frac' bufferSize (writeA0 fw res events)).1.1.length := by
  obtain ⟨b, rfl⟩ : ∃ b, bufferSize = b + 1 := ⟨bufferSize - 1, by omega⟩
  have hv := forall2_valid h
  have hl := lines_lt hv
  have hcons := consolidateEvents_eq fw hfw res events raws h
  obtain ⟨lines, hlines⟩ : ∃ l, l = raws.map (fun r => r.1 * 1024 + r.2) := ⟨_, rfl⟩
  rw [← hlines] at hl hcons
  have hw : writeA0 fw res events =
      lines.flatMap (fun n => textOf ([n % 2 ^ 32, n / 2 ^ 32].map (hexPad 8))) := by
    rw [writeA0_text, hcons]
    unfold textOf
    clear hlines hl hcons
    induction lines with
    | nil => rfl
    | cons n ns ih => rw [List.flatMap_cons, List.map_append, List.flatMap_append, ih, List.flatMap_cons]
  have hlen : ∀ n ∈ lines, (textOf ([n % 2 ^ 32, n / 2 ^ 32].map (hexPad 8))).length = 18 := by
    intro n hn
    have := hl n hn
    simp only [textOf, List.map_cons, List.map_nil, List.flatMap_cons, List.flatMap_nil, List.length_append,
      List.length_nil, List.length_cons]
    rw [hexPad_length 8 _ (by norm_num) (by norm_num; omega), hexPad_length 8 _ (by norm_num) (by norm_num; omega)]
  have hs := streamLoop_units (fun buffer => decodeA0 fw res' frac' (splitNl (strip buffer)))
    (fun n => textOf ([n % 2 ^ 32, n / 2 ^ 32].map (hexPad 8)))
    (fun g => g.map (fun n => (formatTimestamp fw res' frac' (.flt (fl 53 ((n / 1024 : Nat) : ℚ))), n % 16)))
    18 (by norm_num) b lines hlen (by
      intro g hg
      have hgm := groups_mem b lines g hg
      have hgl : ∀ n ∈ g, n < 2 ^ 64 := by
        intro n hn
        apply hl
        rw [← groups_flatten b lines]
        exact List.mem_flatten.mpr ⟨g, hg, hn⟩
      have e : g.flatMap (fun n => textOf ([n % 2 ^ 32, n / 2 ^ 32].map (hexPad 8))) =
          textOf ((g.flatMap (fun n => [n % 2 ^ 32, n / 2 ^ 32])).map (hexPad 8)) := by
        unfold textOf
        clear hgl hgm hg
        induction g with
        | nil => rfl
        | cons n ns ih => rw [List.flatMap_cons, ih, List.flatMap_cons, List.map_append, List.flatMap_append]
      rw [e, splitNl_strip_textOf]
      · exact decodeA0_lines fw res' frac' g hgm.1 hgl
      · intro l hl'; exact (hexPad_words_line g hgl l hl').1
      · obtain ⟨n, ns, rfl⟩ : ∃ n ns, g = n :: ns := by
          cases g with
          | nil => exact absurd rfl hgm.1
          | cons n ns => exact ⟨n, ns, rfl⟩
        simp)
  refine ⟨lines.map (fun n => (formatTimestamp fw res' frac' (.flt (fl 53 ((n / 1024 : Nat) : ℚ))), n % 16)), ?_, ?_, ?_, ?_, ?_⟩
  · rw [hlines, List.map_map, List.map_map]
    apply List.map_congr_left
    intro r hr
    have h2 := (hv r hr).2
    simp only [Function.comp]
    rw [show (r.1 * 1024 + r.2) / 1024 = r.1 by omega, show (r.1 * 1024 + r.2) % 16 = r.2 by omega,
      ← a0Value_val fw hfw res' frac' r.1 (hv r hr).1 (hrep r hr)]
    rfl
  · rw [List.map_map]
    exact formatTimestamp_homogeneous fw res' frac' lines (fun n => fl 53 ((n / 1024 : Nat) : ℚ))
  · rw [hw]
    simp only [sreadA0, hs]
    rw [groups_map]
    exact groups_batching b _
  · rw [hw]; simp only [sreadA0, hs]
  · rw [hw]
    simp only [sreadA0, hs]
    rw [flatMap_length_const' _ 18 _ hlen, numBatches_units _ _ _ (by norm_num), List.length_map, groups_length]

/-- **C08** (a2), for lists of events all below or all from 2^53 on (of any length, also a single event). -/
theorem C08_sread_a2_partial (fw : Nat) (hfw : 54 ≤ fw) (res res' : Tsres) (frac' : Bool) (bufferSize : Nat)
    (hb : 0 < bufferSize) (events : List (Num × Nat)) (raws : List (Nat × Nat))
    (h : List.Forall₂ (fun e r => e.1.val = timeIn res r.1 ∧ e.2 = r.2 ∧ Valid r) events raws)
    (huni : (∀ r ∈ raws, r.1 < 2 ^ 53) ∨ (∀ r ∈ raws, 2 ^ 53 ≤ r.1)) :
    IsBatching bufferSize (raws.map fun r => (readValue res' frac' r.1, r.2))
        (sreadA2 fw res' frac' bufferSize (writeA2 fw res events)).1.1 ∧
      (sreadA2 fw res' frac' bufferSize (writeA2 fw res events)).1.2 = none ∧
      (sreadA2 fw res' frac' bufferSize (writeA2 fw res events)).2 =
        (sreadA2 fw res' frac' bufferSize (writeA2 fw res events)).1.1.length := by
  obtain ⟨b, rfl⟩ : ∃ b, bufferSize = b + 1 := ⟨bufferSize - 1, by omega⟩
  have hv := forall2_valid h
  have hl := lines_lt hv
  have hmap : raws.map (fun r => (readValue res' frac' r.1, r.2)) = (raws.map (fun r => r.1 * 1024 + r.2)).map
      (fun n => (formatTimestamp fw res' frac' (.u64 (n / 1024)), n % 16)) := by
    rw [List.map_map]
    apply List.map_congr_left
    intro r hr
    obtain ⟨h1, h2⟩ := hv r hr
    have hlt : r.1 < 2 ^ fw := lt_of_lt_of_le h1 (Nat.pow_le_pow_right (by norm_num) hfw)
    simp only [Function.comp]
    rw [show (r.1 * 1024 + r.2) / 1024 = r.1 by omega, show (r.1 * 1024 + r.2) % 16 = r.2 by omega,
      formatTimestamp_u64 fw res' frac' r.1 hlt]
  have huni' : (∀ n ∈ raws.map (fun r => r.1 * 1024 + r.2), n < 2 ^ 63) ∨
      (∀ n ∈ raws.map (fun r => r.1 * 1024 + r.2), 2 ^ 63 ≤ n ∧ n < 2 ^ 64) := by
    rcases huni with hu | hu
    · left
      intro n hn
      obtain ⟨r, hr, rfl⟩ := List.mem_map.mp hn
      have := hu r hr
      have := (hv r hr).2
      omega
    · right
      intro n hn
      refine ⟨?_, hl n hn⟩
      obtain ⟨r, hr, rfl⟩ := List.mem_map.mp hn
      have := hu r hr
      omega
  rw [hmap]
  have hw : writeA2 fw res events =
      (raws.map (fun r => r.1 * 1024 + r.2)).flatMap (fun n => textOf [hexPad 16 n]) := by
    rw [writeA2_text, consolidateEvents_eq fw hfw res events raws h]
    unfold textOf
    simp [List.flatMap_map]
  generalize raws.map (fun r => r.1 * 1024 + r.2) = lines at *
  have hlen : ∀ n ∈ lines, (textOf [hexPad 16 n]).length = 17 := by
    intro n hn
    have := hl n hn
    simp only [textOf, List.flatMap_cons, List.flatMap_nil, List.length_append, List.length_nil, List.length_cons]
    rw [hexPad_length 16 _ (by norm_num) (by norm_num; omega)]
  have hs := streamLoop_units (fun buffer => decodeA2 fw res' frac' (splitNl (strip buffer)))
    (fun n => textOf [hexPad 16 n])
    (fun g => g.map (fun n => (formatTimestamp fw res' frac' (.u64 (n / 1024)), n % 16)))
    17 (by norm_num) b lines hlen (by
      intro g hg
      have hgm := groups_mem b lines g hg
      have hsub : ∀ n ∈ g, n ∈ lines := by
        intro n hn
        rw [← groups_flatten b lines]
        exact List.mem_flatten.mpr ⟨g, hg, hn⟩
      have e : g.flatMap (fun n => textOf [hexPad 16 n]) = textOf (g.map (hexPad 16)) := by
        unfold textOf
        simp [List.flatMap_map]
      rw [e, splitNl_strip_textOf]
      · apply decodeA2_lines fw res' frac' g hgm.1
        rcases huni' with hu | hu
        · exact Or.inl (fun n hn => hu n (hsub n hn))
        · exact Or.inr (fun n hn => hu n (hsub n hn))
      · intro l hl'; exact (a2_lines_ok g (fun n hn => hl n (hsub n hn)) l hl').1
      · simpa using hgm.1)
  rw [hw]
  refine ⟨?_, ?_, ?_⟩
  · simp only [sreadA2, hs]
    rw [groups_map]
    exact groups_batching b _
  · simp only [sreadA2, hs]
  · simp only [sreadA2, hs]
    rw [flatMap_length_const' _ 17 _ hlen, numBatches_units _ _ _ (by norm_num), List.length_map, groups_length]

/-- **C08** (a2) is violated when times lie on both sides of 2^53: with a buffer of one event both events are read, with
a buffer of two events the generator raises. -/
theorem C08_sread_a2_negation :
    (sreadA2 64 .ps4 false 1 (writeA2 64 .ps4 [(.u64 0, 1), (.u64 (2 ^ 53), 1)])).1.2 = none ∧
    (sreadA2 64 .ps4 false 2 (writeA2 64 .ps4 [(.u64 0, 1), (.u64 (2 ^ 53), 1)])).1.2 = some .typeError := by
  have h : List.Forall₂ (fun (e : Num × Nat) r => e.1.val = timeIn .ps4 r.1 ∧ e.2 = r.2 ∧ Valid r)
      [(Num.u64 0, 1), (Num.u64 (2 ^ 53), 1)] [(0, 1), (2 ^ 53, 1)] := by
    refine .cons ⟨?_, rfl, by norm_num [Valid]⟩ (.cons ⟨?_, rfl, by norm_num [Valid]⟩ .nil) <;>
    norm_num [Num.val, timeIn, Tsres.value]
  have hw : writeA2 64 .ps4 [(.u64 0, 1), (.u64 (2 ^ 53), 1)] =
      textOf [hexPad 16 1] ++ textOf [hexPad 16 (9223372036854775809)] := by
    rw [writeA2_text, consolidateEvents_eq 64 (by norm_num) .ps4 _ _ h]
    simp [textOf]
  have l1 : (textOf [hexPad 16 1]).length = 17 := by
    simp [textOf, hexPad_length 16 1 (by norm_num) (by norm_num)]
  have l2 : (textOf [hexPad 16 (9223372036854775809)]).length = 17 := by
    simp [textOf, hexPad_length 16 (9223372036854775809) (by norm_num) (by norm_num)]
  obtain ⟨o1, d1⟩ : ∃ o, decodeA2 64 .ps4 false (splitNl (strip (textOf [hexPad 16 1]))) = .ok o := by
    rw [splitNl_strip_textOf _ (by simpa using Line_hexPad 16 1) (by simp)]
    exact ⟨_, decodeA2_lines 64 .ps4 false [1] (by simp) (by left; simp)⟩
  obtain ⟨o2, d2⟩ : ∃ o, decodeA2 64 .ps4 false (splitNl (strip (textOf [hexPad 16 9223372036854775809]))) = .ok o := by
    rw [splitNl_strip_textOf _ (by simpa using Line_hexPad 16 9223372036854775809) (by simp)]
    exact ⟨_, decodeA2_lines 64 .ps4 false [9223372036854775809] (by simp) (by right; simp)⟩
  have d3 : decodeA2 64 .ps4 false (splitNl (strip (textOf [hexPad 16 1] ++ textOf [hexPad 16 (9223372036854775809)]))) =
      .error .typeError := by
    have e : textOf [hexPad 16 1] ++ textOf [hexPad 16 (9223372036854775809)] = textOf [hexPad 16 1, hexPad 16 (9223372036854775809)] := by
      simp [textOf]
    rw [e, splitNl_strip_textOf _ (by simp [Line_hexPad]) (by simp)]
    exact decodeA2_mixed 64 .ps4 false [1, 9223372036854775809] ⟨1, by simp⟩ ⟨9223372036854775809, by simp⟩ (by simp)
  rw [hw]
  constructor
  · simp only [sreadA2]
    rw [streamLoop]
    have t1 : (textOf [hexPad 16 1] ++ textOf [hexPad 16 (9223372036854775809)]).take (1 * 17) = textOf [hexPad 16 1] := by
      rw [List.take_append_of_le_length (by omega), List.take_of_length_le (by omega)]
    have t2 : (textOf [hexPad 16 1] ++ textOf [hexPad 16 (9223372036854775809)]).drop (1 * 17) =
        textOf [hexPad 16 (9223372036854775809)] := by
      rw [List.drop_append_of_le_length (by omega), List.drop_of_length_le (by omega), List.nil_append]
    have n1 : textOf [hexPad 16 1] ≠ [] := by intro hc; rw [hc] at l1; simp at l1
    have n2 : textOf [hexPad 16 (9223372036854775809)] ≠ [] := by intro hc; rw [hc] at l2; simp at l2
    rw [t1, dif_neg n1, d1, t2]
    simp only []
    rw [streamLoop, List.take_of_length_le (by omega), dif_neg n2, d2, List.drop_of_length_le (by omega)]
    simp only []
    rw [streamLoop]
    simp
  · simp only [sreadA2]
    rw [streamLoop]
    have hlen : (textOf [hexPad 16 1] ++ textOf [hexPad 16 (9223372036854775809)]).length = 34 := by
      rw [List.length_append]; omega
    have n1 : textOf [hexPad 16 1] ++ textOf [hexPad 16 (9223372036854775809)] ≠ [] := by
      intro hc; rw [hc] at hlen; simp at hlen
    rw [List.take_of_length_le (by omega), dif_neg n1, d3]

end Fp
