import Verif.Lemmas.RawA1

/-! # Properties of the binary a1 format: C01, C02, C03, C04 and the a1 part of C07 -/
namespace Fp
open Spec

/-! ## C01: write/read round trip -/

/-- **C01** (file contents).  For every list of events that the format can hold, given to the writer at any resolution
(as numbers `e.1` equal to the event time in that unit), the file is the concatenation of the documented 8-byte events. -/
theorem C01_a1_file (fw : Nat) (hfw : 54 ≤ fw) (legacy : Bool) (res : Tsres) (events : List (Num × Nat))
    (raws : List (Nat × Nat))
    (h : List.Forall₂ (fun e r => e.1.val = timeIn res r.1 ∧ e.2 = r.2 ∧ Valid r) events raws) :
    writeA1 fw legacy res events = raws.flatMap (a1Event legacy) := by
  unfold writeA1
  rw [consolidateEvents_eq fw hfw res events raws h, List.flatMap_map]
  have hv : ∀ r ∈ raws, Valid r := by
    clear hfw
    induction h with
    | nil => simp
    | cons hh _ ih =>
      intro r hr
      rcases List.mem_cons.mp hr with rfl | hr
      · exact hh.2.2
      · exact ih r hr
  clear h
  induction raws with
  | nil => rfl
  | cons r rs ih =>
    rw [List.flatMap_cons, List.flatMap_cons, ih (fun r hr => hv r (by simp [hr])),
      encode_eq_a1Event legacy r (hv r (by simp))]

/-- **C01** (round trip).  Reading back at any resolution and mode returns the event times in that unit and the
patterns; in particular with `res' = res` the fractional mode returns the very numbers written. -/
theorem C01_a1_roundtrip (fw : Nat) (hfw : 54 ≤ fw) (legacy : Bool) (res res' : Tsres) (frac' : Bool)
    (events : List (Num × Nat)) (raws : List (Nat × Nat))
    (h : List.Forall₂ (fun e r => e.1.val = timeIn res r.1 ∧ e.2 = r.2 ∧ Valid r) events raws) :
    readA1 fw legacy res' frac' (writeA1 fw legacy res events) =
      .ok (raws.map fun r => (readValue res' frac' r.1, r.2)) := by
  have hv : ∀ r ∈ raws, Valid r := by
    clear hfw
    induction h with
    | nil => simp
    | cons hh _ ih =>
      intro r hr
      rcases List.mem_cons.mp hr with rfl | hr
      · exact hh.2.2
      · exact ih r hr
  unfold writeA1
  rw [consolidateEvents_eq fw hfw res events raws h]
  have hl : ∀ n ∈ raws.map (fun r => r.1 * 1024 + r.2), n < 2 ^ 64 := by
    intro n hn
    obtain ⟨r, hr, rfl⟩ := List.mem_map.mp hn
    have := hv r hr
    have h1 := this.1
    have h2 := this.2
    omega
  have := readA1_lines fw legacy res' frac' _ hl [] (by simp)
  rw [List.append_nil] at this
  rw [this, List.map_map]
  congr 1
  apply List.map_congr_left
  intro r hr
  obtain ⟨h1, h2⟩ := hv r hr
  have hlt : r.1 < 2 ^ fw := lt_of_lt_of_le h1 (Nat.pow_le_pow_right (by norm_num) hfw)
  simp only [Function.comp]
  rw [show (r.1 * 1024 + r.2) / 1024 = r.1 by omega, show (r.1 * 1024 + r.2) % 16 = r.2 by omega,
    formatTimestamp_u64 fw res' frac' r.1 hlt]

/-- **C01**, the plain form: raw integer events written and read in raw integer mode come back unchanged. -/
theorem C01_a1_roundtrip_raw (fw : Nat) (hfw : 54 ≤ fw) (legacy : Bool) (raws : List (Nat × Nat))
    (h : ∀ r ∈ raws, Valid r) :
    readA1 fw legacy .ps4 false (writeA1 fw legacy .ps4 (raws.map fun r => (.u64 r.1, r.2))) =
      .ok (raws.map fun r => (.u64 r.1, r.2)) := by
  rw [C01_a1_roundtrip fw hfw legacy .ps4 .ps4 false _ raws]
  · congr 1
    apply List.map_congr_left
    intro r _
    simp [readValue, floor_timeIn, Tsres.shift]
  · rw [List.forall₂_map_left_iff]
    rw [List.forall₂_same]
    intro r hr
    refine ⟨?_, rfl, h r hr⟩
    simp [Num.val, timeIn, Tsres.value]

/-- A non-trivial instance of the hypotheses of C01: the largest event, at 1 ns resolution (not an integer there). -/
example : List.Forall₂ (fun e r => e.1.val = timeIn .ns1 r.1 ∧ e.2 = r.2 ∧ Valid r)
    [((Num.flt ((2 ^ 54 - 1) / 256), 15) : Num × Nat), (Num.u64 3, 8)] [(2 ^ 54 - 1, 15), (768, 8)] := by
  refine .cons ⟨?_, rfl, by norm_num [Valid]⟩ (.cons ⟨?_, rfl, by norm_num [Valid]⟩ .nil)
  · norm_num [Num.val, timeIn, Tsres.value]
  · norm_num [Num.val, timeIn, Tsres.value]

/-! ## C02: canonicalisation -/

/-- **C02**.  Every file of whole events is read without an exception, and writing back the result (raw integer mode)
reproduces the file except that the flag bits 4..9 of every event are cleared. -/
theorem C02_a1_canonical (fw : Nat) (hfw : 54 ≤ fw) (legacy : Bool) (file : Bytes) (h8 : file.length % 8 = 0) :
    ∃ evs, readA1 fw legacy .ps4 false file = .ok evs ∧ evs.length = file.length / 8 ∧
      writeA1 fw legacy .ps4 evs = clearFlags legacy file := by
  obtain ⟨lines, hl, rfl⟩ := lines_of_file legacy file h8
  have hr := readA1_lines fw legacy .ps4 false lines hl [] (by simp)
  rw [List.append_nil] at hr
  refine ⟨_, hr, ?_, ?_⟩
  · rw [List.length_map, flatMap_length_const _ 8 (encodeA1_length legacy)]; omega
  · unfold writeA1
    rw [consolidate_back fw hfw lines hl, clearFlags_lines legacy lines hl]

/-- **C02**, idempotence: clearing the flags twice changes nothing more, so a second read/write cycle reproduces the
first output exactly. -/
theorem C02_a1_idempotent (legacy : Bool) (file : Bytes) :
    clearFlags legacy (clearFlags legacy file) = clearFlags legacy file := by
  have hand : ∀ (b m : UInt8), b &&& m &&& m = b &&& m := by
    intro b m
    rw [UInt8.and_assoc, UInt8.and_self]
  induction h : file.length using Nat.strongRecOn generalizing file with
  | ind n ih =>
    match file, h with
    | b0 :: b1 :: b2 :: b3 :: b4 :: b5 :: b6 :: b7 :: rest, h =>
      have ihr := ih rest.length (by simp at h; omega) rest rfl
      cases legacy <;> simp [clearFlags, ihr, hand]
    | [], _ => rfl
    | [_], _ => rfl
    | [_, _], _ => rfl
    | [_, _, _], _ => rfl
    | [_, _, _, _], _ => rfl
    | [_, _, _, _, _], _ => rfl
    | [_, _, _, _, _, _], _ => rfl
    | [_, _, _, _, _, _, _], _ => rfl

/-- **C02**, conversion between the two word orders: writing in the other order exchanges the words of every event (and
clears the flags); converting back afterwards therefore gives the same file as not converting. -/
theorem C02_a1_convert (fw : Nat) (hfw : 54 ≤ fw) (legacy : Bool) (file : Bytes) (h8 : file.length % 8 = 0) :
    ∃ evs, readA1 fw legacy .ps4 false file = .ok evs ∧
      writeA1 fw (!legacy) .ps4 evs = swapHalves (clearFlags legacy file) ∧
      ∃ evs', readA1 fw (!legacy) .ps4 false (writeA1 fw (!legacy) .ps4 evs) = .ok evs' ∧
        writeA1 fw legacy .ps4 evs' = clearFlags legacy file := by
  obtain ⟨lines, hl, rfl⟩ := lines_of_file legacy file h8
  have hr := readA1_lines fw legacy .ps4 false lines hl [] (by simp)
  rw [List.append_nil] at hr
  have hcl : ∀ n ∈ lines.map clearLine, n < 2 ^ 64 := by
    intro n hn
    obtain ⟨m, hm, rfl⟩ := List.mem_map.mp hn
    have := hl m hm
    unfold clearLine; omega
  refine ⟨_, hr, ?_, ?_⟩
  · unfold writeA1
    rw [consolidate_back fw hfw lines hl, clearFlags_lines legacy lines hl]
    clear hr hl
    generalize lines.map clearLine = ls at hcl
    induction ls with
    | nil => rfl
    | cons n ns ih =>
      rw [List.flatMap_cons, List.flatMap_cons, swapHalves_encode n (hcl n (by simp)),
        ih (fun n hn => hcl n (by simp [hn]))]
  · unfold writeA1
    rw [consolidate_back fw hfw lines hl]
    have hr' := readA1_lines fw (!legacy) .ps4 false _ hcl [] (by simp)
    rw [List.append_nil] at hr'
    refine ⟨_, hr', ?_⟩
    have hcc : (lines.map clearLine).map clearLine = lines.map clearLine := by
      rw [List.map_map]
      apply List.map_congr_left
      intro n hn
      simp only [Function.comp, clearLine]; omega
    rw [consolidate_back fw hfw _ hcl, clearFlags_lines legacy lines hl, hcc]

/-- The hypothesis of C02 is met by a file with all flag bits set, on which the flags are really cleared. -/
example : ([255, 255, 255, 255, 255, 255, 255, 255] : Bytes).length % 8 = 0 ∧
    clearFlags false [255, 255, 255, 255, 255, 255, 255, 255] = [15, 252, 255, 255, 255, 255, 255, 255] ∧
    clearFlags true [255, 255, 255, 255, 255, 255, 255, 255] = [255, 255, 255, 255, 15, 252, 255, 255] := by decide

/-! ## C03: resolution modes -/

/-- **C03** (exactness).  With 80-bit floats (any float with at least 54 bits of precision) the value returned for a
stored event is exactly `raw*res/256`, or its floor in integer mode. -/
theorem C03_modes_exact (fw : Nat) (hfw : 54 ≤ fw) (legacy : Bool) (res : Tsres) (frac : Bool) (raws : List (Nat × Nat))
    (h : ∀ r ∈ raws, Valid r) :
    readA1 fw legacy res frac (raws.flatMap (a1Event legacy)) =
      .ok (raws.map fun r => (readValue res frac r.1, r.2)) := by
  have hf : List.Forall₂ (fun (e : Num × Nat) r => e.1.val = timeIn .ps4 r.1 ∧ e.2 = r.2 ∧ Valid r)
      (raws.map fun r => (Num.u64 r.1, r.2)) raws := by
    rw [List.forall₂_map_left_iff, List.forall₂_same]
    intro r hr
    refine ⟨?_, rfl, h r hr⟩
    simp [Num.val, timeIn, Tsres.value]
  rw [← C01_a1_file fw hfw legacy .ps4 _ raws hf, C01_a1_roundtrip fw hfw legacy .ps4 res frac _ raws hf]

/-- **C03** (monotonicity), for every float width including the 64-bit fallback: a later event never gets a smaller
value. -/
theorem C03_modes_monotone (fw : Nat) (hfw : 1 ≤ fw) (res : Tsres) (frac : Bool) (t t' : Nat) (h : t ≤ t') :
    (formatTimestamp fw res frac (.u64 t)).val ≤ (formatTimestamp fw res frac (.u64 t')).val := by
  unfold formatTimestamp
  cases frac
  · simp only [Bool.false_eq_true, if_false]
    split
    · simp only [Num.val, Num.toU64]
      exact_mod_cast Nat.div_le_div_right h
    · simp only [Num.val]; exact_mod_cast h
  · simp only [if_true, Num.val, Tsres.ratioQ]
    have h1 : fl fw (t : ℚ) ≤ fl fw (t' : ℚ) := fl_mono_nonneg fw hfw (by positivity) (by exact_mod_cast h)
    have h0 : 0 ≤ fl fw (t : ℚ) := fl_nonneg fw (by positivity)
    exact fl_mono_nonneg fw hfw (by positivity) (div_le_div_of_nonneg_right h1 (by positivity))

/-- **C03**, 64-bit floats: exact for events below 2^53 … -/
theorem C03_float64_exact_below (res : Tsres) (frac : Bool) (t : Nat) (h : t < 2 ^ 53) :
    formatTimestamp 53 res frac (.u64 t) = readValue res frac t := formatTimestamp_u64 53 res frac t h

/-- … and not above: the first odd time above 2^53 already comes back wrong. -/
theorem C03_float64_inexact : ∃ t, t < 2 ^ 54 ∧ ∀ res, formatTimestamp 53 res true (.u64 t) ≠ readValue res true t := by
  refine ⟨2 ^ 53 + 1, by norm_num, ?_⟩
  intro res
  have hfl : fl 53 ((2 ^ 53 + 1 : Nat) : ℚ) = 2 ^ 53 := by
    rw [fl_eval 53 _ 53 (by norm_num) (by norm_num)]
    have : rne (((2 ^ 53 + 1 : Nat) : ℚ) / 2 ^ ((53 : ℤ) - (((53 : ℕ) : ℤ) - 1))) = 2 ^ 52 := by
      norm_num [rne]
    rw [this]; norm_num
  unfold formatTimestamp readValue
  simp only [if_true, Num.val]
  rw [hfl, Tsres.ratioQ, timeIn_eq]
  have h2 : fl 53 ((2 : ℚ) ^ 53 / 2 ^ res.shift) = 2 ^ 53 / 2 ^ res.shift := by
    have := fl_exact 53 1 (53 - (res.shift : ℤ)) (by norm_num)
    rw [zpow_sub₀ (by norm_num)] at this
    simpa using this
  rw [h2]
  intro hc
  injection hc with hc
  have hpos : (0 : ℚ) < 2 ^ res.shift := by positivity
  rw [div_left_inj' (ne_of_gt hpos)] at hc
  norm_num at hc

/-! ## C04: the streaming reader -/

/-- **C04** for files of whole events: the batches are exactly the groups of `bufferSize` events of what `read_a1`
returns, no exception ends the generator, and their number is the announced `num_batches`. -/
theorem C04_stream_partial (fw : Nat) (legacy : Bool) (res : Tsres) (frac : Bool) (bufferSize : Nat)
    (hb : 0 < bufferSize) (file : Bytes) (h8 : file.length % 8 = 0) :
    ∃ evs, readA1 fw legacy res frac file = .ok evs ∧
      IsBatching bufferSize evs (sreadA1 fw legacy res frac bufferSize file).1.1 ∧
      (sreadA1 fw legacy res frac bufferSize file).1.2 = none ∧
      (sreadA1 fw legacy res frac bufferSize file).2 = (sreadA1 fw legacy res frac bufferSize file).1.1.length := by
  obtain ⟨lines, hl, rfl⟩ := lines_of_file legacy file h8
  obtain ⟨b, rfl⟩ : ∃ b, bufferSize = b + 1 := ⟨bufferSize - 1, by omega⟩
  have hr := readA1_lines fw legacy res frac lines hl [] (by simp)
  rw [List.append_nil] at hr
  have hs := streamLoop_units (decodeBuffer fw legacy res frac) (encodeA1 legacy)
    (fun g => g.map (fun n => (formatTimestamp fw res frac (.u64 (n / 1024)), n % 16))) 8 (by norm_num) b lines
    (fun c _ => encodeA1_length legacy c) (by
      intro g hg
      apply decodeBuffer_lines
      intro n hn
      apply hl
      rw [← groups_flatten b lines]
      exact List.mem_flatten.mpr ⟨g, hg, hn⟩)
  have hlen := flatMap_length_const _ 8 (encodeA1_length legacy) lines
  refine ⟨_, hr, ?_, ?_, ?_⟩
  · simp only [sreadA1, hs]
    rw [groups_map]
    exact groups_batching b _
  · simp only [sreadA1, hs]
  · simp only [sreadA1, hs]
    rw [hlen, numBatches_units _ _ _ (by norm_num), List.length_map, groups_length]

/-- **C04** fails for other files: one trailing byte after a whole event is ignored by `read_a1` but makes `sread_a1`
raise. -/
theorem C04_stream_negation : ∃ (file : Bytes) (evs : List (Num × Nat)),
    readA1 64 false .ps4 false file = .ok evs ∧ (sreadA1 64 false .ps4 false 1 file).1.2 = some .valueError := by
  refine ⟨[0, 4, 0, 0, 0, 0, 0, 0, 7], [(.u64 1, 0)], ?_, ?_⟩
  · decide
  · simp [sreadA1, streamLoop, decodeBuffer, frombuffer32, words32, leNat, reshape2, bind, Except.bind, pure, Except.pure]

/-- **C04**, complete description of `read_a1` on incomplete files: 1..3 trailing bytes are ignored, 4..7 raise. -/
theorem C04_read_incomplete (fw : Nat) (legacy : Bool) (res : Tsres) (frac : Bool) (file : Bytes) :
    (file.length % 8 < 4 → readA1 fw legacy res frac file =
        readA1 fw legacy res frac (file.take (file.length / 8 * 8))) ∧
    (4 ≤ file.length % 8 → readA1 fw legacy res frac file = .error .valueError) := by
  obtain ⟨lines, rest, h1, h2, h3⟩ := exists_lines legacy file
  have hlen : (lines.flatMap (encodeA1 legacy)).length = file.length / 8 * 8 := by
    have := congrArg List.length h3
    rw [List.length_append] at this
    omega
  constructor
  · intro h
    have e : file.take (file.length / 8 * 8) = lines.flatMap (encodeA1 legacy) := by
      conv_lhs => rw [h3]
      rw [List.take_append_of_le_length (by rw [← h3, hlen]), ← h3, ← hlen, List.take_length]
    rw [e, h3, readA1_lines fw legacy res frac lines h1 rest (by omega)]
    have := readA1_lines fw legacy res frac lines h1 [] (by simp)
    rw [List.append_nil] at this
    rw [this]
  · intro h
    rw [h3]
    exact readA1_odd fw legacy res frac lines h1 rest (by omega) (by omega)

/-- Instance of C04: three events read with a buffer of two events give batches of sizes 2 and 1. -/
example : ((sreadA1 64 false .ps4 false 2 ((List.range 24).map UInt8.ofNat)).1.1.map List.length,
    (sreadA1 64 false .ps4 false 2 ((List.range 24).map UInt8.ofNat)).2) = ([2, 1], 2) := by
  simp [sreadA1, streamLoop, decodeBuffer, frombuffer32, words32, leNat, reshape2, bind, Except.bind, pure, Except.pure,
    List.range, List.range.loop, numBatches]

/-! ## C07: streaming writers -/

/-- **C07** (a1): the streaming writer writes what the one-shot writer writes for the concatenated batches. -/
theorem C07_swrite_a1 (fw : Nat) (legacy : Bool) (res : Tsres) (stream : List (List (Num × Nat))) :
    swriteA1 fw legacy res stream = writeA1 fw legacy res stream.flatten := by
  unfold swriteA1 writeA1 consolidateEvents
  simp only [Bool.false_eq_true, if_false]
  rw [foldl_append, List.nil_append]
  simp only [List.flatMap_map]
  rw [flatMap_flatten']

/-- **C07** (a0). -/
theorem C07_swrite_a0 (fw : Nat) (res : Tsres) (stream : List (List (Num × Nat))) :
    swriteA0 fw res stream = writeA0 fw res stream.flatten := by
  unfold swriteA0 writeA0 consolidateEvents
  simp only [Bool.false_eq_true, if_false]
  rw [foldl_append, List.nil_append]
  simp only [List.flatMap_map]
  rw [flatMap_flatten']

/-- **C07** (a2). -/
theorem C07_swrite_a2 (fw : Nat) (res : Tsres) (stream : List (List (Num × Nat))) :
    swriteA2 fw res stream = writeA2 fw res stream.flatten := by
  unfold swriteA2 writeA2 consolidateEvents
  simp only [Bool.false_eq_true, if_false]
  rw [foldl_append, List.nil_append]
  simp only [List.flatMap_map]
  rw [flatMap_flatten']

/-- C07 has no hypotheses; an instance with an empty batch in the middle. -/
example : ([[(Num.u64 5, 1)], [], [(Num.u64 6, 2), (Num.u64 7, 4)]] : List (List (Num × Nat))).flatten.length = 3 := rfl

end Fp
