import Verif.Lemmas.RawStats

/-! # Properties of the filters, the conversion command and the statistics: C09-C13 -/
namespace Fp
open Spec

/-! ## C09: pattern filter -/

/-- **C09**.  In each of the four modes the mask marks exactly the events the documentation describes, and the returned
patterns are those of the marked events, in order, reduced to the documented bits. -/
theorem C09_pattern_filter (p : List Nat) (pattern : Nat) (mask invert : Bool) (hp : ∀ x ∈ p, x < 16) (hpat : pattern < 16) :
    (getPatternMask p pattern mask invert).1 = p.map (patKeep pattern mask invert) ∧
    (getPatternMask p pattern mask invert).2 =
      (p.filter (patKeep pattern mask invert)).map (fun x => ofBits4 (patBit pattern mask invert x)) ∧
    (∀ x ∈ (getPatternMask p pattern mask invert).2, x < 16) := by
  rw [getPatternMask_eq p pattern mask invert hp hpat]
  refine ⟨rfl, rfl, ?_⟩
  intro x hx
  obtain ⟨y, _, rfl⟩ := List.mem_map.mp hx
  unfold ofBits4
  split_ifs <;> omega

/-- The docstring examples of `get_pattern_mask` are instances (all four modes keep some events and drop others). -/
example : (getPatternMask [0,1,2,3,4,5,6,7,8] 5 false false).2 = [5] ∧
    (getPatternMask [0,1,2,3,4,5,6,7,8] 5 false true).2 = [0,1,2,3,4,6,7,8] ∧
    (getPatternMask [0,1,2,3,4,5,6,7,8] 5 true false).2 = [1,1,4,5,4,5] ∧
    (getPatternMask [0,1,2,3,4,5,6,7,8] 5 true true).2 = [0,2,2,2,2,8] := by decide

/-! ## C10: timing filter -/

/-- **C10** for floats of any size and for integer arrays of times below 2^53: exactly the events in the closed window
are marked. Missing: integer times from 2^53 on (`C10_timing_negation`). -/
theorem C10_timing_filter_partial (t : List Num) (hh : Homogeneous t) (hs : Chronological t)
    (h53 : ∀ n, Num.u64 n ∈ t → n < 2 ^ 53) (start stop : Option ℚ) (res : Tsres) :
    getTimingMask t start stop res = t.map (fun x => decide (InWindow res start stop x.val)) := by
  rw [getTimingMask_eq t hh hs]
  apply List.map_congr_left
  intro x hx
  rw [cmp_eq_val x (fun n hn => h53 n (hn ▸ hx))]

/-- **C10** for all integer arrays: the window is applied to the time rounded to a double; rounding is monotone, so what is
kept is still one contiguous stretch, and an event is treated wrongly only if a bound lies between its time and the
nearest double. -/
theorem C10_timing_filter_rounded (t : List Num) (hh : Homogeneous t) (hs : Chronological t) (start stop : Option ℚ)
    (res : Tsres) :
    getTimingMask t start stop res = t.map (fun x => decide (InWindow res start stop x.cmp)) ∧
    ∀ x ∈ t, ∀ n, x = .u64 n → x.cmp = fl 53 (n : ℚ) ∧ |x.cmp - n| ≤ n * 2 ^ (-(53 : ℤ)) := by
  refine ⟨getTimingMask_eq t hh hs start stop res, ?_⟩
  rintro x - n rfl
  refine ⟨rfl, ?_⟩
  have := fl_err 53 (n : ℚ)
  rw [abs_of_nonneg (show (0 : ℚ) ≤ (n : ℚ) by positivity)] at this
  exact_mod_cast this

/-- **C10** is violated for integer times above 2^53: with `--tfilter-end 40000` (seconds) an event 4 ps after the end
is still selected. -/
theorem C10_timing_negation :
    getTimingMask [.u64 10240000000000001] none (some 40000) .ps4 = [true] ∧
    ¬ InWindow .ps4 none (some 40000) (Num.u64 10240000000000001).val := by
  constructor
  · rw [getTimingMask_eq _ (Or.inl (by simp)) (by simp [Chronological])]
    simp only [List.map_cons, List.map_nil, List.cons.injEq, and_true, decide_eq_true_eq]
    refine ⟨by simp, ?_⟩
    rintro e he
    cases he
    rw [bound_w]
    show fl 53 _ ≤ _
    rw [fl53_w]
  · rintro ⟨-, h⟩
    have := h 40000 rfl
    rw [bound_w] at this
    norm_num [Num.val] at this

/-- Hypotheses of C10 hold for the docstring's array `[2,4,5,8]` seconds, and the window 3..6 keeps the middle. -/
example : Homogeneous [.flt 2000000000, .flt 4000000000, .flt 5000000000, .flt 8000000000] ∧
    Chronological [.flt 2000000000, .flt 4000000000, .flt 5000000000, .flt 8000000000] := by
  refine ⟨Or.inr (by simp), ?_⟩
  simp [Chronological, Num.val]
  norm_num

/-! ## C11: conversion -/

/-- **C11** (streaming).  For a file of whole events (in chronological order, if a timing
filter is used), any filters and any word orders, the output
of the streaming conversion is the same for every buffer size, namely the result of filtering all events at once; no
exception occurs. -/
theorem C11_convert_stream (fw : Nat) (a : FilterArgs) (legacyIn legacyOut : Bool) (bufferSize : Nat)
    (hb : 0 < bufferSize) (file : Bytes) (h8 : file.length % 8 = 0) (evs : List (Num × Nat))
    (hr : readA1 fw legacyIn .ps4 false file = .ok evs) (hs : a.start.isSome ∨ a.stop.isSome → Chronological (evs.map Prod.fst))
    (hpat : ∀ pat, a.pattern = some pat → pat < 16) :
    convertStream fw a legacyIn legacyOut bufferSize file =
      (writeA1 fw legacyOut .ps4 (filterBatch a .ps4 evs), none) := by
  obtain ⟨lines, hl, rfl⟩ := lines_of_file legacyIn file h8
  obtain ⟨b, rfl⟩ : ∃ b, bufferSize = b + 1 := ⟨bufferSize - 1, by omega⟩
  have hr' := readA1_lines fw legacyIn .ps4 false lines hl [] (by simp)
  rw [List.append_nil] at hr'
  rw [hr'] at hr
  injection hr with hr
  subst hr
  set F : Nat → Num × Nat := fun n => (formatTimestamp fw .ps4 false (.u64 (n / 1024)), n % 16) with hF
  have hstream := streamLoop_units (decodeBuffer fw legacyIn .ps4 false) (encodeA1 legacyIn)
    (fun g => g.map F) 8 (by norm_num) b lines
    (fun c _ => encodeA1_length legacyIn c) (by
      intro g hg
      apply decodeBuffer_lines
      intro n hn
      apply hl
      rw [← groups_flatten b lines]
      exact List.mem_flatten.mpr ⟨g, hg, hn⟩)
  have hprop := lines_ev_props fw lines
  rw [← hF] at hprop
  unfold convertStream sreadA1
  rw [hstream]
  simp only []
  rw [groups_map]
  have hall := filterBatch_eq a .ps4 (lines.map F) hprop.1 hpat hprop.2 hs
  rw [hall]
  have hgs : ∀ g ∈ groups b (lines.map F), filterBatch a .ps4 g = (g.filter (keepEvent a .ps4)).map (outEvent a) := by
    intro g hg
    have hsub : g.Sublist (lines.map F) := by
      have := List.sublist_flatten_of_mem hg
      rwa [groups_flatten] at this
    exact filterBatch_eq a .ps4 g (fun e he => hprop.1 e (hsub.subset he)) hpat (homogeneous_sub hprop.2 (hsub.map _))
      (fun hw => (hs hw).sublist (hsub.map _))
  rw [List.map_congr_left hgs]
  have hsw : ∀ stream : List (List (Num × Nat)), swriteA1 fw legacyOut .ps4 stream =
      writeA1 fw legacyOut .ps4 stream.flatten := by
    intro stream
    unfold swriteA1 writeA1 consolidateEvents
    simp only [Bool.false_eq_true, if_false]
    rw [foldl_append, List.nil_append]
    simp only [List.flatMap_map]
    rw [flatMap_flatten']
  rw [hsw]
  congr 2
  have hfl := groups_flatten b (lines.map F)
  generalize groups b (lines.map F) = gs at hfl
  rw [← hfl]
  clear hfl hgs hall
  induction gs with
  | nil => rfl
  | cons g gs ih => rw [List.map_cons, List.flatten_cons, ih, List.flatten_cons, List.filter_append, List.map_append]

/-- **C11**, what "filtering all events at once" selects: exactly the events that pass the documented pattern filter and
whose time (below 2^53 units) lies in the window, with the documented patterns. -/
theorem C11_filter_meaning (a : FilterArgs) (evs : List (Num × Nat)) (hp : ∀ e ∈ evs, e.2 < 16)
    (hpat : ∀ pat, a.pattern = some pat → pat < 16) (hh : Homogeneous (evs.map Prod.fst))
    (hs : a.start.isSome ∨ a.stop.isSome → Chronological (evs.map Prod.fst)) (res : Tsres) (h53 : ∀ e ∈ evs, ∀ n, e.1 = .u64 n → n < 2 ^ 53) :
    filterBatch a res evs = (evs.filter (fun e =>
        (match a.pattern with | none => true | some pat => patKeep pat a.mask a.invert e.2) &&
          decide (InWindow res a.start a.stop e.1.val))).map
      (fun e => (e.1, match a.pattern with | none => e.2 | some pat => ofBits4 (patBit pat a.mask a.invert e.2))) := by
  rw [filterBatch_eq a res evs hp hpat hh hs]
  have : evs.filter (keepEvent a res) = evs.filter (fun e =>
        (match a.pattern with | none => true | some pat => patKeep pat a.mask a.invert e.2) &&
          decide (InWindow res a.start a.stop e.1.val)) := by
    apply List.filter_congr
    intro e he
    unfold keepEvent
    rw [cmp_eq_val e.1 (h53 e he)]
    rfl
  rw [this]
  rfl

/-- **C11** (in memory).  If there is no timing filter, or all times are below 2^53 units (10 hours), the `--inmemory`
conversion writes the same file as the streaming conversion. -/
theorem C11_convert_inmemory_partial (fw : Nat) (hfw : 54 ≤ fw) (a : FilterArgs) (legacyIn legacyOut : Bool) (bufferSize : Nat)
    (hb : 0 < bufferSize) (file : Bytes) (h8 : file.length % 8 = 0) (evs : List (Num × Nat))
    (hr : readA1 fw legacyIn .ps4 false file = .ok evs) (hs : a.start.isSome ∨ a.stop.isSome → Chronological (evs.map Prod.fst))
    (hpat : ∀ pat, a.pattern = some pat → pat < 16)
    (h53 : (a.start = none ∧ a.stop = none) ∨ ∀ e ∈ evs, ∀ n, e.1 = .u64 n → n < 2 ^ 53) :
    convertInMemory fw a legacyIn legacyOut file = .ok (convertStream fw a legacyIn legacyOut bufferSize file).1 := by
  rw [C11_convert_stream fw a legacyIn legacyOut bufferSize hb file h8 evs hr hs hpat]
  obtain ⟨lines, hl, rfl⟩ := lines_of_file legacyIn file h8
  have hr' := readA1_lines fw legacyIn .ps4 false lines hl [] (by simp)
  rw [List.append_nil] at hr'
  rw [hr'] at hr
  injection hr with hr
  subst hr
  have hr2 := readA1_lines fw legacyIn .ns1 true lines hl [] (by simp)
  rw [List.append_nil] at hr2
  unfold convertInMemory
  rw [hr2]
  simp only [bind, Except.bind, pure, Except.pure]
  have hprop := lines_ev_props fw lines
  have hlt : ∀ n ∈ lines, n / 1024 < 2 ^ fw := by
    intro n hn
    have := hl n hn
    exact lt_of_lt_of_le (show n / 1024 < 2 ^ 54 by omega) (Nat.pow_le_pow_right (by norm_num) hfw)
  have hfmt : ∀ n ∈ lines, formatTimestamp fw .ns1 true (.u64 (n / 1024)) = .flt (((n / 1024 : Nat) : ℚ) / 256) := by
    intro n hn
    rw [formatTimestamp_u64 fw .ns1 true _ (hlt n hn), readValue, if_pos rfl, timeIn_eq]
    norm_num [Tsres.shift]
  have e2 : lines.map (fun n => (formatTimestamp fw .ns1 true (.u64 (n / 1024)), n % 16)) =
      lines.map (fun n => (Num.flt (((n / 1024 : Nat) : ℚ) / 256), n % 16)) :=
    List.map_congr_left (fun n hn => by rw [hfmt n hn])
  rw [e2]
  have hs2 : a.start.isSome ∨ a.stop.isSome → Chronological ((lines.map (fun n => (Num.flt (((n / 1024 : Nat) : ℚ) / 256), n % 16))).map Prod.fst) := by
    intro hw
    replace hs := hs hw
    unfold Chronological at hs ⊢
    simp only [List.map_map, List.pairwise_map] at hs ⊢
    refine hs.imp ?_
    intro m n hmn
    simp only [Function.comp, formatTimestamp, Num.val, Bool.false_eq_true, if_false, ne_eq, not_true_eq_false] at hmn ⊢
    exact div_le_div_of_nonneg_right hmn (by norm_num)
  rw [filterBatch_eq a .ps4 _ hprop.1 hpat hprop.2 hs, filterBatch_eq a .ns1 _ (by
      intro e he; obtain ⟨n, _, rfl⟩ := List.mem_map.mp he; simp only; omega) hpat
    (Or.inr (by intro x hx; simp only [List.map_map, List.mem_map, Function.comp] at hx; obtain ⟨n, _, rfl⟩ := hx; exact ⟨_, rfl⟩))
    hs2]
  congr 1
  unfold writeA1 consolidateEvents
  simp only [Bool.false_eq_true, if_false]
  congr 1
  rw [List.filter_map, List.filter_map, List.map_map, List.map_map, List.map_map, List.map_map]
  have hfc : lines.filter (keepEvent a .ns1 ∘ fun n => (Num.flt (((n / 1024 : Nat) : ℚ) / 256), n % 16)) =
      lines.filter (keepEvent a .ps4 ∘ fun n => (formatTimestamp fw .ps4 false (.u64 (n / 1024)), n % 16)) := by
    apply List.filter_congr
    intro n hn
    simp only [Function.comp, keepEvent]
    congr 1
    rw [decide_eq_decide]
    rcases h53 with ⟨h1, h2⟩ | h53
    · rw [h1, h2]
      simp [InWindow]
    · have h3 := h53 _ (List.mem_map.mpr ⟨n, hn, rfl⟩) (n / 1024) (by simp [formatTimestamp])
      rw [inWindow_scale]
      simp only [formatTimestamp, Bool.false_eq_true, if_false, ne_eq, not_true_eq_false, Num.cmp]
      rw [fl_nat 53 _ h3]
  rw [hfc]
  apply List.map_congr_left
  intro n hn
  have hn' := List.mem_of_mem_filter hn
  have hlim := hl n hn'
  simp only [Function.comp, outEvent]
  have hpo : ∀ o : Nat, o < 1024 → consolidate fw .ns1 (Num.flt (((n / 1024 : Nat) : ℚ) / 256), o) =
      consolidate fw .ps4 (formatTimestamp fw .ps4 false (.u64 (n / 1024)), o) := by
    intro o ho
    rw [consolidate_eq fw hfw .ns1 _ (n / 1024) o _ (by omega) ho, consolidate_eq fw hfw .ps4 _ (n / 1024) o _ (by omega) ho]
    · simp [formatTimestamp, Num.val, timeIn, Tsres.value]
    · simp [Num.val, timeIn, Tsres.value]
  apply hpo
  cases a.pattern with
  | none => simp only; omega
  | some pat => simp only [ofBits4]; split_ifs <;> omega

/-- **C11** is violated for times above 2^53 with a timing filter: `--tfilter-end 40000` keeps the event 4 ps after the
end when streaming and drops it with `--inmemory`. -/
theorem C11_convert_inmemory_negation :
    ∃ file : Bytes, file.length = 8 ∧
      (convertStream 64 ⟨none, false, false, none, some 40000⟩ false false 100000 file).1 = file ∧
      convertInMemory 64 ⟨none, false, false, none, some 40000⟩ false false file = .ok [] := by
  have hl : ∀ n ∈ [10240000000000001 * 1024 + 1], n < 2 ^ 64 := by decide
  have h1 : readA1 64 false .ps4 false (encodeA1 false (10240000000000001 * 1024 + 1)) =
      .ok [(.u64 10240000000000001, 1)] := by
    have := readA1_lines 64 false .ps4 false _ hl [] (by simp)
    simpa [formatTimestamp] using this
  have h2 : readA1 64 false .ns1 true (encodeA1 false (10240000000000001 * 1024 + 1)) =
      .ok [(.flt (10240000000000001 / 256), 1)] := by
    have := readA1_lines 64 false .ns1 true _ hl [] (by simp)
    simp only [List.flatMap_cons, List.flatMap_nil, List.append_nil, List.map_cons, List.map_nil] at this
    rw [this, formatTimestamp_u64 _ _ _ _ (by norm_num)]
    norm_num [readValue, timeIn, Tsres.value]
  refine ⟨encodeA1 false (10240000000000001 * 1024 + 1), by simp [encodeA1], ?_, ?_⟩
  · rw [C11_convert_stream 64 _ false false 100000 (by norm_num) _ (by simp [encodeA1]) _ h1
      (fun _ => by simp [Chronological]) (by simp)]
    simp only []
    rw [filterBatch_eq _ _ _ (by simp) (by simp) (Or.inl (by simp)) (fun _ => by simp [Chronological])]
    have hk : keepEvent ⟨none, false, false, none, some 40000⟩ .ps4 (.u64 10240000000000001, 1) = true := by
      simp only [keepEvent, Bool.true_and, decide_eq_true_eq]
      refine ⟨by simp, ?_⟩
      rintro e he
      cases he
      rw [bound_w]
      show fl 53 _ ≤ _
      rw [fl53_w]
    simp only [List.filter_cons, hk, if_true, List.filter_nil, List.map_cons, List.map_nil, outEvent]
    unfold writeA1 consolidateEvents
    simp only [Bool.false_eq_true, if_false, List.map_cons, List.map_nil, List.flatMap_cons, List.flatMap_nil,
      List.append_nil]
    rw [consolidate_eq 64 (by norm_num) .ps4 _ 10240000000000001 1 (by norm_num [Num.val, timeIn, Tsres.value]) (by norm_num)
      (by norm_num)]
  · unfold convertInMemory
    rw [h2]
    simp only [bind, Except.bind, pure, Except.pure]
    rw [filterBatch_eq _ _ _ (by simp) (by simp) (Or.inr (by simp)) (fun _ => by simp [Chronological])]
    have hk : keepEvent ⟨none, false, false, none, some 40000⟩ .ns1 (.flt (10240000000000001 / 256), 1) = false := by
      simp only [keepEvent, Bool.true_and, decide_eq_false_iff_not]
      rintro ⟨-, h⟩
      have h3 := h 40000 rfl
      have h4 := bound_scale 40000
      rw [bound_w] at h4
      norm_num [Num.cmp] at h3
      linarith
    simp [hk, writeA1, consolidateEvents]

/-- The hypotheses of C11 are met by a file of two events with a filter that keeps one of them. -/
example : readA1 64 false .ps4 false [1, 4, 0, 0, 0, 0, 0, 0, 2, 8, 0, 0, 0, 0, 0, 0] =
      .ok [(.u64 1, 1), (.u64 2, 2)] ∧
    Chronological [.u64 1, .u64 2] ∧ filterBatch ⟨some 2, false, false, none, none⟩ .ps4 [(.u64 1, 1), (.u64 2, 2)] =
      [(.u64 2, 2)] := by
  refine ⟨by decide, by simp [Chronological, Num.val], by decide⟩

/-! ## C12: statistics -/

/-- **C12** (contents).  Whatever the batches, the report describes the concatenated events: their number, for each
channel the number of events with that bit, the number of events with several bits and with none, the first and last time
(in ns), and the increasing list of the patterns that occur. -/
theorem C12_statistics (fw : Nat) (res : Tsres) (stream : List (List (Num × Nat))) (hp : ∀ e ∈ stream.flatten, e.2 < 16) :
    let r := printStatisticsStream fw res stream
    let p := stream.flatten.map Prod.snd
    r.numEvents = stream.flatten.length ∧
    r.ch1 = p.countP (fun x => x.testBit 0) ∧ r.ch2 = p.countP (fun x => x.testBit 1) ∧
    r.ch3 = p.countP (fun x => x.testBit 2) ∧ r.ch4 = p.countP (fun x => x.testBit 3) ∧
    r.multi = p.countP (fun x => 2 ≤ ((List.range 4).filter fun i => x.testBit i).length) ∧
    r.non = p.countP (fun x => ((List.range 4).filter fun i => x.testBit i).length = 0) ∧
    r.start = (stream.flatten.head?).map (fun e => toNs fw res e.1) ∧
    r.stop = (stream.flatten.getLast?).map (fun e => toNs fw res e.1) ∧
    r.patterns.Pairwise (· < ·) ∧ (∀ x, x ∈ r.patterns ↔ x ∈ p) := by
  obtain ⟨h1, h2, h3, h4, h5, h6, h7, h8, h9, h10, h11⟩ := foldl_stats fw res stream
    { numEvents := 0, ch1 := 0, ch2 := 0, ch3 := 0, ch4 := 0, multi := 0, non := 0, start := none, stop := none,
      patterns := [] }
  simp only [Nat.zero_add] at h1 h2 h3 h4 h5 h6 h7
  have hp' : ∀ x ∈ stream.flatten.map Prod.snd, x < 16 := by
    intro x hx
    obtain ⟨e, he, rfl⟩ := List.mem_map.mp hx
    exact hp e he
  have table : ∀ x : Fin 16, (!([0, 1, 2, 4, 8].contains x.val)) =
        decide (2 ≤ ((List.range 4).filter fun i => x.val.testBit i).length) ∧
      (decide (x.val = 0)) = decide (((List.range 4).filter fun i => x.val.testBit i).length = 0) := by decide +kernel
  have hs := sortedList_spec _ (h10 List.nodup_nil)
  refine ⟨h1, ?_, ?_, ?_, ?_, ?_, ?_, ?_, ?_, ?_, ?_⟩
  · exact h2.trans (countBit_eq 0 _)
  · exact h3.trans (countBit_eq 1 _)
  · exact h4.trans (countBit_eq 2 _)
  · exact h5.trans (countBit_eq 3 _)
  · refine h6.trans ?_
    rw [List.countP_eq_length_filter, countMulti]
    congr 1
    exact List.filter_congr (fun x hx => (table ⟨x, hp' x hx⟩).1)
  · refine h7.trans ?_
    rw [List.countP_eq_length_filter, countNone]
    congr 1
    exact List.filter_congr (fun x hx => (table ⟨x, hp' x hx⟩).2)
  · refine h8.trans ?_
    simp only [List.head?_map, Option.map_map]
    rfl
  · refine h9.trans ?_
    rw [List.getLast?_map]
    cases stream.flatten.getLast? <;> rfl
  · exact hs.1
  · intro x
    rw [show (x ∈ (printStatisticsStream fw res stream).patterns ↔ _) from hs.2 x, h11]
    simp

/-- **C12** (batching).  Two streams with the same concatenation give the same report. -/
theorem C12_batching (fw : Nat) (res : Tsres) (s1 s2 : List (List (Num × Nat))) (h : s1.flatten = s2.flatten) :
    printStatisticsStream fw res s1 = printStatisticsStream fw res s2 := by
  obtain ⟨a1, a2, a3, a4, a5, a6, a7, a8, a9, a10, a11⟩ := foldl_stats fw res s1
    { numEvents := 0, ch1 := 0, ch2 := 0, ch3 := 0, ch4 := 0, multi := 0, non := 0, start := none, stop := none,
      patterns := [] }
  obtain ⟨b1, b2, b3, b4, b5, b6, b7, b8, b9, b10, b11⟩ := foldl_stats fw res s2
    { numEvents := 0, ch1 := 0, ch2 := 0, ch3 := 0, ch4 := 0, multi := 0, non := 0, start := none, stop := none,
      patterns := [] }
  rw [h] at a1 a2 a3 a4 a5 a6 a7 a8 a9 a11
  have ha := sortedList_spec _ (a10 List.nodup_nil)
  have hb := sortedList_spec _ (b10 List.nodup_nil)
  have hpat := strict_sorted_ext _ _ ha.1 hb.1 (fun x => by rw [ha.2, hb.2, a11, b11])
  unfold printStatisticsStream
  simp only [Report.mk.injEq]
  exact ⟨a1.trans b1.symm, a2.trans b2.symm, a3.trans b3.symm, a4.trans b4.symm, a5.trans b5.symm, a6.trans b6.symm,
    a7.trans b7.symm, a8.trans b8.symm, a9.trans b9.symm, hpat⟩

/-- **C12** (one-shot): on 1 ns fractional arrays (values representable in the float type) the streaming report equals
that of `print_statistics`. -/
theorem C12_oneshot (fw : Nat) (stream : List (List (Num × Nat))) (r : Report)
    (hrep : ∀ e ∈ stream.flatten, ∃ q, e.1 = .flt q ∧ fl fw q = q) (h : printStatistics stream.flatten = .ok r) :
    printStatisticsStream fw .ns1 stream = r := by
  obtain ⟨a1, a2, a3, a4, a5, a6, a7, a8, a9, a10, a11⟩ := foldl_stats fw .ns1 stream
    { numEvents := 0, ch1 := 0, ch2 := 0, ch3 := 0, ch4 := 0, multi := 0, non := 0, start := none, stop := none,
      patterns := [] }
  simp only [Nat.zero_add] at a1 a2 a3 a4 a5 a6 a7
  unfold printStatistics at h
  simp only [List.head?_map, List.getLast?_map] at h
  have hval : ∀ e ∈ stream.flatten, toNs fw .ns1 e.1 = e.1.val := by
    intro e he
    obtain ⟨q, h1, h2⟩ := hrep e he
    rw [h1]
    simp [toNs, Tsres.value, Num.val, h2]
  cases hh : stream.flatten.head? with
  | none => rw [hh] at h; simp at h
  | some e0 =>
    cases hl : stream.flatten.getLast? with
    | none => rw [hh, hl] at h; simp at h
    | some el =>
      rw [hh, hl] at h
      simp only [Option.map_some, Except.ok.injEq] at h
      subst h
      have ha := sortedList_spec _ (a10 List.nodup_nil)
      have hb := sortedList_spec (stream.flatten.map Prod.snd).dedup (List.nodup_dedup _)
      have hpat := strict_sorted_ext _ _ ha.1 hb.1 (fun x => by rw [ha.2, hb.2, a11]; simp)
      unfold printStatisticsStream
      simp only [Report.mk.injEq]
      refine ⟨a1.trans (List.length_map _).symm, a2, a3, a4, a5, a6, a7, ?_, ?_, hpat⟩
      · refine a8.trans ?_
        simp only [List.head?_map, hh, Option.map_some]
        rw [hval e0 (List.mem_of_mem_head? hh)]
      · refine a9.trans ?_
        simp only [List.getLast?_map, hl, Option.map_some]
        rw [hval el (List.mem_of_getLast? hl)]

/-- **C12** (totals): every event is counted exactly once as empty, single-channel or multi-channel. -/
theorem C12_total (fw : Nat) (res : Tsres) (stream : List (List (Num × Nat))) :
    (printStatisticsStream fw res stream).numEvents = (printStatisticsStream fw res stream).non +
      (stream.flatten.map Prod.snd).countP (fun x => decide (x = 1 ∨ x = 2 ∨ x = 4 ∨ x = 8)) +
      (printStatisticsStream fw res stream).multi := by
  obtain ⟨a1, _, _, _, _, a6, a7, _, _, _, _⟩ := foldl_stats fw res stream
    { numEvents := 0, ch1 := 0, ch2 := 0, ch3 := 0, ch4 := 0, multi := 0, non := 0, start := none, stop := none,
      patterns := [] }
  have e1 : (printStatisticsStream fw res stream).numEvents = (stream.flatten.map Prod.snd).length := by
    refine a1.trans ?_; rw [List.length_map, Nat.zero_add]
  have e6 : (printStatisticsStream fw res stream).multi = countMulti (stream.flatten.map Prod.snd) := by
    refine a6.trans ?_; simp
  have e7 : (printStatisticsStream fw res stream).non = countNone (stream.flatten.map Prod.snd) := by
    refine a7.trans ?_; simp
  rw [e1, e6, e7]
  generalize stream.flatten.map Prod.snd = p
  clear e1 e6 e7 a1 a6 a7
  induction p with
  | nil => rfl
  | cons x xs ih =>
    have hx : (if x = 0 then 1 else 0) + (if x = 1 ∨ x = 2 ∨ x = 4 ∨ x = 8 then 1 else 0) +
        (if !([0, 1, 2, 4, 8].contains x) then 1 else 0) = 1 := by
      by_cases h0 : x = 0
      · subst h0; rfl
      by_cases h1 : x = 1
      · subst h1; rfl
      by_cases h2 : x = 2
      · subst h2; rfl
      by_cases h4 : x = 4
      · subst h4; rfl
      by_cases h8 : x = 8
      · subst h8; rfl
      simp [h0, h1, h2, h4, h8]
    have cn : countNone (x :: xs) = countNone xs + if x = 0 then 1 else 0 := by
      unfold countNone; rw [List.filter_cons]; split_ifs <;> simp_all
    have cm : countMulti (x :: xs) = countMulti xs + if !([0, 1, 2, 4, 8].contains x) then 1 else 0 := by
      unfold countMulti; rw [List.filter_cons]; split_ifs <;> simp_all
    rw [cn, cm, List.countP_cons, List.length_cons, ih]
    simp only [decide_eq_true_eq]
    omega

/-- Instance of C12 with an empty batch, an empty event and a multi-channel event. -/
example : (printStatisticsStream 64 .ps4 [[(.u64 0, 0), (.u64 0, 3)], [], [(.u64 0, 8)]]).numEvents = 3 ∧
    (printStatisticsStream 64 .ps4 [[(.u64 0, 0), (.u64 0, 3)], [], [(.u64 0, 8)]]).multi = 1 := by
  constructor <;> rfl

/-! ## C13: the report -/

/-- **C13**, complete description: for a non-empty stream the report is produced if and only if the first and last time
(as converted to ns) differ; otherwise `OverflowError`. -/
theorem C13_report_partial (fw w : Nat) (hw : 1 ≤ w) (res : Tsres) (stream : List (List (Num × Nat)))
    (e0 el : Num × Nat) (h0 : stream.flatten.head? = some e0) (hl : stream.flatten.getLast? = some el) :
    (toNs fw res e0.1 ≠ toNs fw res el.1 → ∃ d, printReport w (printStatisticsStream fw res stream) = .ok (some d)) ∧
    (toNs fw res e0.1 = toNs fw res el.1 →
      printReport w (printStatisticsStream fw res stream) = .error .overflowError) := by
  obtain ⟨a1, _, _, _, _, _, _, a8, a9, _, _⟩ := foldl_stats fw res stream
    { numEvents := 0, ch1 := 0, ch2 := 0, ch3 := 0, ch4 := 0, multi := 0, non := 0, start := none, stop := none,
      patterns := [] }
  have e1 : (printStatisticsStream fw res stream).numEvents ≠ 0 := by
    rw [show (printStatisticsStream fw res stream).numEvents = _ from a1]
    intro hc
    simp only [Nat.zero_add, List.length_eq_zero_iff] at hc
    rw [hc] at h0
    simp at h0
  have e8 : (printStatisticsStream fw res stream).start = some (toNs fw res e0.1) := by
    refine a8.trans ?_
    rw [List.head?_map, h0]
    rfl
  have e9 : (printStatisticsStream fw res stream).stop = some (toNs fw res el.1) := by
    refine a9.trans ?_
    rw [List.getLast?_map, hl]
    rfl
  unfold printReport
  rw [if_neg e1, e8, e9]
  simp only []
  constructor
  · intro hne
    rw [if_neg]
    · exact ⟨_, rfl⟩
    · apply fl_ne_zero w hw
      apply mul_ne_zero
      · apply fl_ne_zero w hw
        exact sub_ne_zero.mpr (Ne.symm hne)
      · apply fl_ne_zero 53 (by norm_num)
        norm_num
  · intro heq
    rw [if_pos]
    rw [heq, sub_self, fl_zero, zero_mul, fl_zero]

/-- **C13** for raw files without filters: events below 2^53 with different first and last time are reported. -/
theorem C13_report_raw (w : Nat) (hw : 1 ≤ w) (stream : List (List (Num × Nat))) (t0 tl p0 pl : Nat)
    (h0 : stream.flatten.head? = some (.u64 t0, p0)) (hl : stream.flatten.getLast? = some (.u64 tl, pl))
    (b0 : t0 < 2 ^ 53) (bl : tl < 2 ^ 53) (hne : t0 ≠ tl) :
    ∃ d, printReport w (printStatisticsStream 64 .ps4 stream) = .ok (some d) := by
  apply (C13_report_partial 64 w hw .ps4 stream _ _ h0 hl).1
  have h256 : ((Tsres.ps4.value : Nat) : ℚ) = 2 ^ 8 := by norm_num [Tsres.value]
  simp only [toNs]
  rw [fl_nat 53 _ b0, fl_nat 53 _ bl, h256, fl_nat_div 53 t0 8 b0, fl_nat_div 53 tl 8 bl]
  intro hc
  apply hne
  have : (t0 : ℚ) = tl := by
    rw [div_left_inj' (by norm_num)] at hc
    exact hc
  exact_mod_cast this

/-- **C13** is violated for every file with a single event: the report raises `OverflowError`. -/
theorem C13_report_negation (fw w : Nat) (hw : 1 ≤ w) (res : Tsres) (e : Num × Nat) :
    printReport w (printStatisticsStream fw res [[e]]) = .error .overflowError :=
  (C13_report_partial fw w hw res [[e]] e e rfl rfl).2 rfl

/-- The hypotheses of C13 are satisfiable. -/
example : ([[(Num.u64 5, 1)], [], [(Num.u64 6, 2)]] : List (List (Num × Nat))).flatten.head? = some (.u64 5, 1) ∧
    ([[(Num.u64 5, 1)], [], [(Num.u64 6, 2)]] : List (List (Num × Nat))).flatten.getLast? = some (.u64 6, 2) := ⟨rfl, rfl⟩

/-! ## C70: the values in the report -/

/-- **C70**: the report gives the time between the first and the last event in seconds, to within a relative error of 2^-51, and
the number of events divided by it, rounded down. -/
theorem C70_duration (fw w : Nat) (hw : 53 ≤ w) (res : Tsres) (stream : List (List (Num × Nat)))
    (e0 el : Num × Nat) (h0 : stream.flatten.head? = some e0) (hl : stream.flatten.getLast? = some el)
    (hne : toNs fw res e0.1 ≠ toNs fw res el.1) :
    ∃ d, printReport w (printStatisticsStream fw res stream) = .ok (some (d, ⌊(stream.flatten.length : ℚ) / d⌋)) ∧ d ≠ 0 ∧
      |d - (toNs fw res el.1 - toNs fw res e0.1) / 1000000000| ≤ |toNs fw res el.1 - toNs fw res e0.1| / 1000000000 / 2 ^ 51 := by
  obtain ⟨a1, _, _, _, _, _, _, a8, a9, _, _⟩ := foldl_stats fw res stream
    { numEvents := 0, ch1 := 0, ch2 := 0, ch3 := 0, ch4 := 0, multi := 0, non := 0, start := none, stop := none,
      patterns := [] }
  have e1' : (printStatisticsStream fw res stream).numEvents = stream.flatten.length := by
    refine a1.trans ?_
    simp
  have e1 : (printStatisticsStream fw res stream).numEvents ≠ 0 := by
    rw [e1']
    intro hc
    rw [List.length_eq_zero_iff] at hc
    rw [hc] at h0
    simp at h0
  have e8 : (printStatisticsStream fw res stream).start = some (toNs fw res e0.1) := by
    refine a8.trans ?_
    rw [List.head?_map, h0]
    rfl
  have e9 : (printStatisticsStream fw res stream).stop = some (toNs fw res el.1) := by
    refine a9.trans ?_
    rw [List.getLast?_map, hl]
    rfl
  have hd : fl w (fl w (toNs fw res el.1 - toNs fw res e0.1) * fl 53 (1 / 1000000000)) ≠ 0 := by
    apply fl_ne_zero w (by omega)
    apply mul_ne_zero
    · apply fl_ne_zero w (by omega)
      exact sub_ne_zero.mpr (Ne.symm hne)
    · apply fl_ne_zero 53 (by norm_num)
      norm_num
  refine ⟨_, ?_, hd, scaled_err w hw _⟩
  unfold printReport
  rw [if_neg e1, e8, e9]
  simp only []
  rw [if_neg hd, e1']

/-- **C70** for raw files without filters, events below 2^53: the duration is that of the raw times (in units of 1/256 ns). -/
theorem C70_duration_raw (w : Nat) (hw : 53 ≤ w) (stream : List (List (Num × Nat))) (t0 tl p0 pl : Nat)
    (h0 : stream.flatten.head? = some (.u64 t0, p0)) (hl : stream.flatten.getLast? = some (.u64 tl, pl))
    (b0 : t0 < 2 ^ 53) (bl : tl < 2 ^ 53) (hlt : t0 < tl) :
    ∃ d, printReport w (printStatisticsStream 64 .ps4 stream) = .ok (some (d, ⌊(stream.flatten.length : ℚ) / d⌋)) ∧ d ≠ 0 ∧
      |d - ((tl : ℚ) - t0) / 256 / 1000000000| ≤ ((tl : ℚ) - t0) / 256 / 1000000000 / 2 ^ 51 := by
  have h256 : ((Tsres.ps4.value : Nat) : ℚ) = 2 ^ 8 := by norm_num [Tsres.value]
  have hlt' : (t0 : ℚ) < tl := by exact_mod_cast hlt
  have n0 : toNs 64 .ps4 (.u64 t0) = (t0 : ℚ) / 256 := by
    simp only [toNs]
    rw [fl_nat 53 _ b0, h256, fl_nat_div 53 t0 8 b0]
    norm_num
  have nl : toNs 64 .ps4 (.u64 tl) = (tl : ℚ) / 256 := by
    simp only [toNs]
    rw [fl_nat 53 _ bl, h256, fl_nat_div 53 tl 8 bl]
    norm_num
  obtain ⟨d, g1, g2, g3⟩ := C70_duration 64 w hw .ps4 stream _ _ h0 hl (by
    rw [n0, nl]
    intro hc
    linarith)
  refine ⟨d, g1, g2, ?_⟩
  rw [n0, nl, ← sub_div, abs_of_pos (show (0 : ℚ) < ((tl : ℚ) - t0) / 256 by linarith)] at g3
  exact g3

/-- Instance of C70: three events, 0.5 s between the first and the last; the rate is 6 per second. -/
example : ([[(Num.u64 0, 1), (Num.u64 5, 1)], [(Num.u64 128000000000, 2)]] : List (List (Num × Nat))).flatten.head? = some (.u64 0, 1) ∧
    ([[(Num.u64 0, 1), (Num.u64 5, 1)], [(Num.u64 128000000000, 2)]] : List (List (Num × Nat))).flatten.getLast? = some (.u64 128000000000, 2) ∧
    printReport 53 (printStatisticsStream 64 .ps4 [[(Num.u64 0, 1), (Num.u64 5, 1)], [(Num.u64 128000000000, 2)]]) = .ok (some (1 / 2, 6)) := by
  refine ⟨rfl, rfl, ?_⟩
  decide +kernel

end Fp
