import Verif.Lemmas.RawMain

/-! # Properties of the conversion command for all formats: C84, C85 -/
namespace Fp
open Spec

/-! ## Text files -/

/-! ## Reading a file of any format -/

/-! ## Filtering -/

/-! ## C84: conversion -/

/-- **C84** (streaming): converting a file to another file of any format, with any filters, writes exactly the file that holds
the events that pass, and changes nothing else.  Missing: times that the reader cannot represent, a timing filter on times
from 2^53 on (C10), and a file converted onto itself (`C84_inplace_violated`). -/
theorem C84_convert_stream_partial (fw : Nat) (hfw : 54 ≤ fw) (args : TsArgs) (files : Files) (raws : List (Nat × Nat))
    (out : List Char) (hv : ∀ r ∈ raws, Valid r) (hrep : Representable args.inFmt raws)
    (hin : files args.infile = some (fileOf args.inFmt args.legacyIn raws)) (hout : args.outfile = some out) (hne : out ≠ [])
    (hdiff : args.infile ≠ out) (hprint : args.print = false) (hmem : args.inmemory = false)
    (hpat : ∀ pat, args.filter.pattern = some pat → pat < 16)
    (hs : Timed args.filter → raws.Pairwise (fun x y => x.1 ≤ y.1) ∧ ∀ r ∈ raws, r.1 < 2 ^ 53) :
    tsMain fw args files =
      ⟨files.set out (fileOf args.outFmt args.legacyOut (filtered args.filter raws)), none, none⟩ := by
  obtain ⟨h1, -, h2⟩ := kept_stream fw hfw args.inFmt args.legacyIn .ps4 false (Or.inl ⟨rfl, rfl⟩) args.filter raws hv hrep hpat
    (fun ht => (hs ht).1) (fun ht _ => (hs ht).2)
  have hsame : (files.set out [] args.infile).getD [] = fileOf args.inFmt args.legacyIn raws := by
    unfold Files.set
    rw [if_neg hdiff, hin]
    rfl
  unfold tsMain
  simp only [hout, Option.getD_some, hprint, Bool.false_eq_true, not_false_eq_true, true_and, hne, if_false, hin, hmem, hsame]
  rw [h2, swriteFmt_flatten, writeFmt_raws fw hfw args.outFmt args.legacyOut .ps4 false (Or.inl ⟨rfl, rfl⟩) _ _
    (filtered_valid _ _ hv) h1]
  congr 1
  funext n
  unfold Files.set
  split <;> rfl

/-- **C84** (in memory): as above; the source may also be the destination. -/
theorem C84_convert_inmemory_partial (fw : Nat) (hfw : 54 ≤ fw) (args : TsArgs) (files : Files) (raws : List (Nat × Nat))
    (out : List Char) (hv : ∀ r ∈ raws, Valid r) (hrep : Representable args.inFmt raws) (hlen : fewest args.inFmt ≤ raws.length)
    (hin : files args.infile = some (fileOf args.inFmt args.legacyIn raws)) (hout : args.outfile = some out) (hne : out ≠ [])
    (hprint : args.print = false) (hmem : args.inmemory = true)
    (hpat : ∀ pat, args.filter.pattern = some pat → pat < 16)
    (hs : Timed args.filter → raws.Pairwise (fun x y => x.1 ≤ y.1)) :
    tsMain fw args files =
      ⟨files.set out (fileOf args.outFmt args.legacyOut (filtered args.filter raws)), none, none⟩ := by
  obtain ⟨evs, h1, h2⟩ := kept_inmemory fw hfw args.inFmt args.legacyIn args.filter raws hv hrep hlen hpat hs
  unfold tsMain
  simp only [hout, Option.getD_some, hprint, Bool.false_eq_true, not_false_eq_true, true_and, hne, if_false, hin, hmem, h1, if_true]
  rw [writeFmt_raws fw hfw args.outFmt args.legacyOut .ns1 true (Or.inr ⟨rfl, rfl⟩) _ _ (filtered_valid _ _ hv) h2]

/-- **C84** is violated for *every* file that is converted onto itself when streaming: the file is emptied, without an
exception. -/
theorem C84_inplace_violated (fw : Nat) (args : TsArgs) (files : Files) (content : Bytes)
    (hin : files args.infile = some content) (hout : args.outfile = some args.infile) (hne : args.infile ≠ [])
    (hprint : args.print = false) (hmem : args.inmemory = false) :
    tsMain fw args files = ⟨files.set args.infile [], none, none⟩ := by
  have hempty : (files.set args.infile [] args.infile).getD [] = [] := by simp [Files.set]
  have hs : sreadFmt fw args.inFmt args.legacyIn .ps4 false 100000 [] = ([], none) := by
    cases args.inFmt with
    | a0 => simp [sreadFmt, bytesText, universalNl, sreadA0, streamLoop]
    | a1 => simp [sreadFmt, sreadA1, streamLoop]
    | a2 => simp [sreadFmt, bytesText, universalNl, sreadA2, streamLoop]
  unfold tsMain
  simp only [hout, Option.getD_some, hprint, Bool.false_eq_true, not_false_eq_true, true_and, hne, if_false, hin, hmem, hempty, hs,
    List.map_nil]
  congr 1
  funext n
  unfold Files.set
  have : swriteFmt fw args.outFmt args.legacyOut .ps4 [] = [] := by
    cases args.outFmt <;> rfl
  rw [this]
  split <;> rfl

/-- **C84** (several conversions): converting through any intermediate format gives the same file as converting directly. -/
theorem C84_chain (fw : Nat) (hfw : 54 ≤ fw) (first second : TsArgs) (files : Files) (raws : List (Nat × Nat))
    (mid out : List Char) (hv : ∀ r ∈ raws, Valid r) (hrep : Representable first.inFmt raws)
    (hrep2 : Representable first.outFmt (filtered first.filter raws))
    (hin : files first.infile = some (fileOf first.inFmt first.legacyIn raws)) (hmid : first.outfile = some mid)
    (hout : second.outfile = some out) (hne : mid ≠ [] ∧ out ≠ [])
    (hdiff : first.infile ≠ mid ∧ mid ≠ out ∧ first.infile ≠ out) (hprint : first.print = false ∧ second.print = false)
    (hmem : first.inmemory = false ∧ second.inmemory = false) (hpat : ∀ pat, first.filter.pattern = some pat → pat < 16)
    (hs : Timed first.filter → raws.Pairwise (fun x y => x.1 ≤ y.1) ∧ ∀ r ∈ raws, r.1 < 2 ^ 53)
    (hjoin : second.infile = mid ∧ second.inFmt = first.outFmt ∧ second.legacyIn = first.legacyOut)
    (hnof : second.filter.pattern = none ∧ ¬ Timed second.filter) :
    (tsMain fw second (tsMain fw first files).files).files out =
      (tsMain fw { first with outFmt := second.outFmt, legacyOut := second.legacyOut, outfile := some out } files).files out := by
  have hid : filtered second.filter (filtered first.filter raws) = filtered first.filter raws := by
    obtain ⟨h1, h2⟩ := hnof
    unfold Timed at h2
    simp only [not_or, Option.not_isSome_iff_eq_none] at h2
    have hp : ∀ r, passes second.filter r = true := by
      intro r; simp [passes, h1, h2.1, h2.2, InWindow]
    have hl : ∀ x, leftBits second.filter x = x := by intro x; simp [leftBits, h1]
    generalize filtered first.filter raws = l
    unfold filtered
    rw [List.filter_eq_self.mpr (fun r _ => hp r)]
    simp only [hl, Prod.mk.eta, List.map_id']
  rw [C84_convert_stream_partial fw hfw first files raws mid hv hrep hin hmid hne.1 hdiff.1 hprint.1 hmem.1 hpat hs]
  rw [C84_convert_stream_partial fw hfw second _ (filtered first.filter raws) out (filtered_valid _ _ hv)
    (by rw [hjoin.2.1]; exact hrep2) (by rw [hjoin.1, hjoin.2.1, hjoin.2.2]; simp [Files.set]) hout hne.2
    (by rw [hjoin.1]; exact hdiff.2.1) hprint.2 hmem.2 (by rw [hnof.1]; simp) (fun h => absurd h hnof.2), hid]
  rw [C84_convert_stream_partial fw hfw { first with outFmt := second.outFmt, legacyOut := second.legacyOut, outfile := some out }
    files raws out hv hrep hin rfl hne.2 hdiff.2.2 hprint.1 hmem.1 hpat hs]
  simp [Files.set]

/-- **C84** (checks): without a destination (and without `-p`), or if the source does not exist, `ValueError` is raised and
nothing is changed. -/
theorem C84_checks (fw : Nat) (args : TsArgs) (files : Files)
    (h : (args.print = false ∧ (args.outfile = none ∨ args.outfile = some [])) ∨ files args.infile = none) :
    tsMain fw args files = ⟨files, none, some .valueError⟩ := by
  unfold tsMain
  by_cases hc : ¬ args.print = true ∧ args.outfile.getD [] = []
  · simp only []
    rw [if_pos hc]
  · simp only []
    rw [if_neg hc]
    rcases h with ⟨h1, h2⟩ | h
    · exfalso
      apply hc
      rcases h2 with h2 | h2 <;> simp [h1, h2]
    · rw [h]

/-- **C84** (no partial output): an in-memory conversion that raises an exception has changed no file. -/
theorem C84_inmemory_atomic (fw : Nat) (args : TsArgs) (files : Files) (hmem : args.inmemory = true)
    (herr : (tsMain fw args files).err ≠ none) : (tsMain fw args files).files = files := by
  unfold tsMain at herr ⊢
  by_cases hc : ¬ args.print = true ∧ args.outfile.getD [] = []
  · simp only []
    rw [if_pos hc]
  · simp only [] at herr ⊢
    rw [if_neg hc] at herr ⊢
    cases hf : files args.infile with
    | none => rfl
    | some content =>
      simp only [hf, hmem, if_true] at herr ⊢
      cases hr : readFmt fw args.inFmt args.legacyIn .ns1 true content with
      | error e => rfl
      | ok evs =>
        simp only [hr] at herr ⊢
        by_cases hp : args.print = true
        · rw [if_pos hp]
          cases printStatistics (filterBatch args.filter .ns1 evs) <;> rfl
        · rw [if_neg hp] at herr
          exact absurd rfl herr

/-- The hypotheses of C84 are met by a legacy a1 file of three events, one of them dropped by a pattern and a timing filter. -/
example : (∀ r ∈ [(5, 1), (300, 2), (700, 1)], Valid r) ∧ Representable .a0 [(5, 1), (300, 2), (700, 1)] ∧
    Representable .a2 [(5, 1), (300, 2), (700, 1)] ∧ [(5, 1), (300, 2), (700, 1)].Pairwise (fun x y : Nat × Nat => x.1 ≤ y.1) ∧
    filtered ⟨some 1, false, false, none, some 2⟩ [(5, 1), (300, 2), (700, 1)] = [(5, 1), (700, 1)] := by
  refine ⟨by unfold Valid; decide, by unfold Representable; decide, Or.inl (by decide), by decide, ?_⟩
  have hb : ∀ t : Nat, t < 1000 → InWindow .ps4 none (some 2) (t : ℚ) := by
    intro t ht
    refine ⟨by simp, ?_⟩
    rintro e he
    cases he
    have : bound .ps4 2 = 512000000000 := by
      unfold bound
      have := fl_nat 53 512000000000 (by norm_num)
      norm_num [Tsres.value] at this ⊢
      exact this
    rw [this]
    have : (t : ℚ) < 1000 := by exact_mod_cast ht
    linarith
  have h1 := hb 5 (by norm_num)
  have h2 := hb 300 (by norm_num)
  have h3 := hb 700 (by norm_num)
  simp only [Nat.cast_ofNat] at h1 h2 h3
  simp [filtered, passes, leftBits, patKeep, h1, h3]
  decide

/-! ## C85: statistics -/

/-- **C85** (streaming): `-p` prints the report that describes the events that pass the filters, whatever the format, and
changes no file.  (The times are below 2^53 or a filter is given; without a filter the report computes with doubles.) -/
theorem C85_stream (fw : Nat) (hfw : 54 ≤ fw) (args : TsArgs) (files : Files) (raws : List (Nat × Nat))
    (hv : ∀ r ∈ raws, Valid r) (hrep : Representable args.inFmt raws)
    (hin : files args.infile = some (fileOf args.inFmt args.legacyIn raws))
    (hprint : args.print = true) (hmem : args.inmemory = false)
    (hpat : ∀ pat, args.filter.pattern = some pat → pat < 16)
    (hs : Timed args.filter → raws.Pairwise (fun x y => x.1 ≤ y.1))
    (h53 : args.filter.any = false → ∀ r ∈ raws, r.1 < 2 ^ 53) :
    ∃ r, tsMain fw args files = ⟨files, some r, errOf (printReport (if args.filter.any then fw else 53) r)⟩ ∧
      Describes r (filtered args.filter raws) := by
  by_cases hany : args.filter.any = true
  · obtain ⟨h1, -, h2⟩ := kept_stream fw hfw args.inFmt args.legacyIn .ns1 true (Or.inr ⟨rfl, rfl⟩) args.filter raws hv hrep hpat
      hs (fun _ h => by simp at h)
    refine ⟨_, ?_, report_describes fw .ns1 _ _ (fun t => (readValue .ns1 true t).val) (filtered_valid _ _ hv) h1 ?_⟩
    · unfold tsMain
      simp only [hprint, not_true_eq_false, false_and, if_false, hin, hmem, Bool.false_eq_true, if_true, hany, h2]
    · intro e _ r hr he
      exact toNs_ns1 fw hfw e.1 r.1 (filtered_valid _ _ hv r hr).1 he
  · rw [Bool.not_eq_true] at hany
    have hnone : args.filter.pattern = none ∧ args.filter.start = none ∧ args.filter.stop = none := by
      unfold FilterArgs.any at hany
      simp only [Bool.or_eq_false_iff, Option.isSome_eq_false_iff, Option.isNone_iff_eq_none] at hany
      tauto
    have hid : filtered args.filter raws = raws := by
      unfold filtered
      rw [List.filter_eq_self.mpr (fun r _ => by simp [passes, hnone, InWindow])]
      simp [leftBits, hnone]
    obtain ⟨-, h1, h2⟩ := kept_stream fw hfw args.inFmt args.legacyIn .ps4 false (Or.inl ⟨rfl, rfl⟩) args.filter raws hv hrep hpat
      hs (fun _ _ => h53 hany)
    rw [hid]
    refine ⟨_, ?_, report_describes fw .ps4 _ raws (fun t => (readValue .ps4 false t).val) hv h1 ?_⟩
    · unfold tsMain
      simp only [hprint, not_true_eq_false, false_and, if_false, hin, hmem, Bool.false_eq_true, if_true, hany, h2]
    · intro e _ r hr he
      exact toNs_ps4 fw hfw e.1 r.1 (h53 hany r hr) he

/-- Whether the report of some events can be printed depends only on their number and on their first and last time. -/
theorem printReport_exit (w : Nat) (hw : 1 ≤ w) (r : Report) (raws : List (Nat × Nat)) (h : Describes r raws) :
    ((raws ≠ [] ∧ raws.head?.map Prod.fst = raws.getLast?.map Prod.fst) → printReport w r = .error .overflowError) ∧
    (¬ (raws ≠ [] ∧ raws.head?.map Prod.fst = raws.getLast?.map Prod.fst) → ∃ x, printReport w r = .ok x) := by
  obtain ⟨h1, -, -, -, -, -, -, h8, h9, -, -⟩ := h
  by_cases hne : raws = []
  · subst hne
    refine ⟨fun hc => absurd rfl hc.1, fun _ => ⟨none, ?_⟩⟩
    unfold printReport
    rw [if_pos (by simpa using h1)]
  · have hn : r.numEvents ≠ 0 := by rw [h1]; simpa using hne
    rw [List.head?_eq_some_head hne] at h8 ⊢
    rw [List.getLast?_eq_some_getLast hne] at h9 ⊢
    generalize raws.head hne = e0 at h8 ⊢
    generalize raws.getLast hne = el at h9 ⊢
    simp only [Option.map_some, Option.some.injEq] at h8 h9 ⊢
    unfold printReport
    rw [if_neg hn, h8, h9]
    simp only []
    constructor
    · rintro ⟨-, he⟩
      rw [if_pos]
      rw [he, sub_self, fl_zero, zero_mul, fl_zero]
    · intro hc
      have hne' : e0.1 ≠ el.1 := fun he => hc ⟨hne, he⟩
      rw [if_neg]
      · exact ⟨_, rfl⟩
      · apply fl_ne_zero w hw
        apply mul_ne_zero
        · apply fl_ne_zero w hw
          have : (e0.1 : ℚ) ≠ el.1 := by exact_mod_cast hne'
          intro h0
          apply this
          linarith
        · apply fl_ne_zero 53 (by norm_num)
          norm_num

/-- **C85** (how `-p` ends): the command ends with `OverflowError` exactly if some event passes the filters and the first and
the last of them have the same time (so for a single event), and otherwise without an exception. -/
theorem C85_exit (fw : Nat) (hfw : 54 ≤ fw) (args : TsArgs) (files : Files) (raws : List (Nat × Nat))
    (hv : ∀ r ∈ raws, Valid r) (hrep : Representable args.inFmt raws)
    (hin : files args.infile = some (fileOf args.inFmt args.legacyIn raws))
    (hprint : args.print = true) (hmem : args.inmemory = false)
    (hpat : ∀ pat, args.filter.pattern = some pat → pat < 16)
    (hs : Timed args.filter → raws.Pairwise (fun x y => x.1 ≤ y.1))
    (h53 : args.filter.any = false → ∀ r ∈ raws, r.1 < 2 ^ 53) :
    let kept := filtered args.filter raws
    ((kept ≠ [] ∧ kept.head?.map Prod.fst = kept.getLast?.map Prod.fst) →
      (tsMain fw args files).err = some .overflowError) ∧
    (¬ (kept ≠ [] ∧ kept.head?.map Prod.fst = kept.getLast?.map Prod.fst) → (tsMain fw args files).err = none) := by
  intro kept
  obtain ⟨r, hr, hd⟩ := C85_stream fw hfw args files raws hv hrep hin hprint hmem hpat hs h53
  have hw : 1 ≤ (if args.filter.any then fw else 53) := by split <;> omega
  obtain ⟨h1, h2⟩ := printReport_exit _ hw r kept hd
  rw [hr]
  constructor
  · intro hc
    show errOf _ = _
    rw [h1 hc]
    rfl
  · intro hc
    obtain ⟨x, hx⟩ := h2 hc
    show errOf _ = _
    rw [hx]
    rfl

/-- Both cases of `C85_exit` occur: one event alone, and two events at different times. -/
example : filtered ⟨none, false, false, none, none⟩ [(7, 1)] = [(7, 1)] ∧
    filtered ⟨none, false, false, none, none⟩ [(7, 1), (9, 2)] = [(7, 1), (9, 2)] := by
  constructor <;> simp [filtered, passes, InWindow, leftBits]

/-- **C85** (in memory): the same report, if any event passes the filters; otherwise `IndexError`, although the streaming
variant reports zero events. -/
theorem C85_inmemory_partial (fw : Nat) (hfw : 54 ≤ fw) (args : TsArgs) (files : Files) (raws : List (Nat × Nat))
    (hv : ∀ r ∈ raws, Valid r) (hrep : Representable args.inFmt raws) (hlen : fewest args.inFmt ≤ raws.length)
    (hin : files args.infile = some (fileOf args.inFmt args.legacyIn raws))
    (hprint : args.print = true) (hmem : args.inmemory = true)
    (hpat : ∀ pat, args.filter.pattern = some pat → pat < 16)
    (hs : Timed args.filter → raws.Pairwise (fun x y => x.1 ≤ y.1)) :
    (filtered args.filter raws ≠ [] → ∃ r, tsMain fw args files = ⟨files, some r, errOf (printReport fw r)⟩ ∧
      Describes r (filtered args.filter raws)) ∧
    (filtered args.filter raws = [] → tsMain fw args files = ⟨files, none, some .indexError⟩) := by
  obtain ⟨evs, h1, h2⟩ := kept_inmemory fw hfw args.inFmt args.legacyIn args.filter raws hv hrep hlen hpat hs
  have hmain : ∀ x, printStatistics (filterBatch args.filter .ns1 evs) = x → tsMain fw args files =
      (match x with
        | .error e => ⟨files, none, some e⟩
        | .ok r => ⟨files, some r, errOf (printReport fw r)⟩) := by
    intro x hx
    unfold tsMain
    simp only [hprint, not_true_eq_false, false_and, if_false, hin, hmem, if_true, h1, hx]
    cases x <;> rfl
  constructor
  · intro hne
    have hne' : filterBatch args.filter .ns1 evs ≠ [] := by
      intro hc
      rw [hc, List.map_nil] at h2
      exact hne (List.map_eq_nil_iff.mp h2.symm)
    obtain ⟨r, hr⟩ := printStatistics_ok _ hne'
    refine ⟨r, hmain _ hr, ?_⟩
    rw [printStatistics_val] at hr
    generalize filterBatch args.filter .ns1 evs = evs' at h2 hr
    have hrep' : ∀ e ∈ [evs'.map fun (e : Num × Nat) => (Num.flt e.1.val, e.2)].flatten, ∃ q, e.1 = .flt q ∧ fl fw q = q := by
      intro e he
      simp only [List.flatten_cons, List.flatten_nil, List.append_nil] at he
      obtain ⟨x, hx, rfl⟩ := List.mem_map.mp he
      refine ⟨_, rfl, ?_⟩
      have : (x.1.val, x.2) ∈ (filtered args.filter raws).map (fun r => ((readValue .ns1 true r.1).val, r.2)) := by
        rw [← h2]; exact List.mem_map.mpr ⟨x, hx, rfl⟩
      obtain ⟨r, hr, h⟩ := List.mem_map.mp this
      simp only [Prod.mk.injEq] at h
      have h54 := (filtered_valid _ _ hv r hr).1
      rw [← h.1]
      have e1 : (readValue .ns1 true r.1).val = (r.1 : ℚ) / 2 ^ 8 := by
        simp [readValue, Num.val, timeIn, Tsres.value]; norm_num
      rw [e1, fl_nat_div fw _ 8 (lt_of_lt_of_le h54 (Nat.pow_le_pow_right (by norm_num) hfw))]
    rw [← C12_oneshot fw [evs'.map fun e => (Num.flt e.1.val, e.2)] r hrep' (by simpa using hr)]
    apply report_describes fw .ns1 _ _ (fun t => (readValue .ns1 true t).val) (filtered_valid _ _ hv)
    · simp only [List.flatten_cons, List.flatten_nil, List.append_nil, List.map_map]
      rw [← h2]
      rfl
    · intro e _ r hr he
      exact toNs_ns1 fw hfw e.1 r.1 (filtered_valid _ _ hv r hr).1 he
  · intro hnil
    rw [hnil, List.map_nil, List.map_eq_nil_iff] at h2
    rw [hmain (.error .indexError) (by rw [h2]; rfl)]

/-- **C85** (read only): with `-p` no file is ever changed, whatever the input. -/
theorem C85_readonly (fw : Nat) (args : TsArgs) (files : Files) (hprint : args.print = true) :
    (tsMain fw args files).files = files := by
  unfold tsMain
  simp only [hprint, not_true_eq_false, false_and, if_false, if_true]
  cases files args.infile with
  | none => rfl
  | some content =>
    simp only []
    by_cases hmem : args.inmemory = true
    · rw [if_pos hmem]
      cases readFmt fw args.inFmt args.legacyIn .ns1 true content with
      | error e => rfl
      | ok evs =>
        simp only []
        cases printStatistics (filterBatch args.filter .ns1 evs) <;> rfl
    · rw [if_neg hmem]
      by_cases hany : args.filter.any = true
      · rw [if_pos hany]
        cases (sreadFmt fw args.inFmt args.legacyIn .ns1 true 100000 content).2 <;> rfl
      · rw [if_neg hany]
        cases (sreadFmt fw args.inFmt args.legacyIn .ps4 false 100000 content).2 <;> rfl

/-- **C85** (uniqueness): two reports that describe the same events are equal, so the streaming and the in-memory report of a
file agree. -/
theorem C85_unique (r r' : Report) (raws : List (Nat × Nat)) (h : Describes r raws) (h' : Describes r' raws) : r = r' := by
  obtain ⟨a1, a2, a3, a4, a5, a6, a7, a8, a9, a10, a11⟩ := h
  obtain ⟨b1, b2, b3, b4, b5, b6, b7, b8, b9, b10, b11⟩ := h'
  have hp := strict_sorted_ext _ _ a10 b10 (fun x => by rw [a11, b11])
  cases r
  cases r'
  simp only [Report.mk.injEq]
  exact ⟨a1.trans b1.symm, a2.trans b2.symm, a3.trans b3.symm, a4.trans b4.symm, a5.trans b5.symm, a6.trans b6.symm,
    a7.trans b7.symm, a8.trans b8.symm, a9.trans b9.symm, hp⟩

/-- An instance of `Describes`: two events, one with two detectors. -/
example : Describes ⟨2, 1, 1, 0, 1, 1, 0, some 1, some 2, [2, 9]⟩ [(256, 9), (512, 2)] := by
  refine ⟨rfl, by decide, by decide, by decide, by decide, by decide, by decide, ?_, ?_, by decide, by simp [or_comm]⟩ <;>
  norm_num

end Fp
