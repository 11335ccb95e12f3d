import Verif.Model.RawReport
import Verif.Spec.RawReport
import Verif.Lemmas.Text2
import Verif.Lemmas.FpText
import Verif.Lemmas.RawStats
import Verif.Props.RawFilter

/-! # The text of the statistics report: C110 -/
namespace Fp
open Spec

theorem natDigits_length (n : ℕ) : (natDigits n).length = Nat.log 10 n + 1 := by
  rw [natDigits, fixDigits_length]

theorem count_line (label : List Char) (n total : ℕ) (h0 : total ≠ 0) (h : n ≤ total) :
    CountLine label (Nat.log 10 total + 1) n (label ++ padLeft (reportWidth total) (natDigits n)) := by
  refine ⟨_, natDigits n, (List.append_assoc ..).symm, natDigits_ne n, natDigits_spec n, ?_⟩
  have : Nat.log 10 n ≤ Nat.log 10 total := Nat.log_mono_right h
  simp only [reportWidth, h0, if_false, padLeft, List.length_append, List.length_replicate, natDigits_length]
  omega

theorem seconds_line (label : List Char) (x t : ℚ) (h : |x - t / 1000000000| ≤ |t| / 1000000000 / 2 ^ 51) :
    SecondsLine label (t / 10 ^ 9) (secondsTol t) (label ++ secondsText x) := by
  obtain ⟨r, h1, h2, h3⟩ := formatF_spec 9 (fl 53 x)
  refine ⟨_, _, r, (List.append_assoc ..).symm, h1, ?_, h3, ?_⟩
  · unfold secondsTol
    have e1 := fl_err 53 x
    have hx : |x| ≤ |t| / 1000000000 * (1 + 1 / 2 ^ 51) := by
      have : |x| ≤ |x - t / 1000000000| + |t / 1000000000| := by
        have := abs_add_le (x - t / 1000000000) (t / 1000000000)
        simpa using this
      rw [abs_div, abs_of_pos (show (0 : ℚ) < 1000000000 by norm_num)] at this
      linarith
    have e2 : |fl 53 x - x| ≤ |t| / 1000000000 * (1 + 1 / 2 ^ 51) / 2 ^ 53 := by
      refine e1.trans ?_
      have : (2 : ℚ) ^ (-(53 : ℕ) : ℤ) = 1 / 2 ^ 53 := by norm_num
      rw [this, mul_one_div]
      gcongr
    have e3 : |r - t / 1000000000| ≤ |r - fl 53 x| + |fl 53 x - x| + |x - t / 1000000000| := by
      have a := abs_add_le (r - fl 53 x + (fl 53 x - x)) (x - t / 1000000000)
      have b := abs_add_le (r - fl 53 x) (fl 53 x - x)
      have : r - fl 53 x + (fl 53 x - x) + (x - t / 1000000000) = r - t / 1000000000 := by ring
      rw [this] at a
      linarith
    have ht : 0 ≤ |t| := abs_nonneg t
    norm_num at h2 e2 e3 h ⊢
    nlinarith
  · simp only [secondsText, padLeft, List.length_append, List.length_replicate]
    omega

theorem scaled_err' (w : Nat) (hw : 53 ≤ w) (x : ℚ) (hx : fl w x = x) :
    |fl w (x * fl 53 (1 / 1000000000)) - x / 1000000000| ≤ |x| / 1000000000 / 2 ^ 51 := by
  have := scaled_err w hw x
  rwa [hx] at this

/-- The facts a report is made from. -/
def Report.facts (r : Report) (s e : ℚ) : Facts :=
  ⟨r.numEvents, fun i => [r.ch1, r.ch2, r.ch3, r.ch4][i], r.multi, r.non, r.patterns, s, e⟩

theorem size_lines (size : Option ℕ) (h : ∀ n ∈ size, n < 2 ^ 53) :
    SizeLines size (sizeText size) := by
  cases size with
  | none => rfl
  | some n =>
    obtain ⟨r, h1, h2, -⟩ := formatF_spec 3 (fl 53 ((n : ℚ) / 2 ^ 20))
    refine ⟨_, r, rfl, h1, ?_⟩
    rw [fl_nat_div 53 n 20 (h n rfl)] at h2
    norm_num at h2 ⊢
    exact h2

theorem patterns_text (ps : List ℕ) : ∃ ts, patternsText ps = '[' :: commaList ts ++ [']'] ∧
    List.Forall₂ (fun t n => t ≠ [] ∧ Digits t n) ts ps := by
  refine ⟨ps.map natDigits, by rw [patternsText, joinWith_comma], ?_⟩
  induction ps with
  | nil => exact .nil
  | cons n ps ih => exact .cons ⟨natDigits_ne n, natDigits_spec n⟩ ih

/-- **C110** (lines): for a report on at least two different times, the printed text is as specified by `Spec.ReportText`. -/
theorem C110_lines (w : Nat) (hw : 53 ≤ w) (name : List Char) (size : Option Nat) (hsz : ∀ n ∈ size, n < 2 ^ 53) (r : Report) (s e : ℚ)
    (hn : r.numEvents ≠ 0) (hs : r.start = some s) (he : r.stop = some e) (fs : fl w s = s) (fe : fl w e = e) (hne : s ≠ e)
    (hc : ∀ n ∈ [r.ch1, r.ch2, r.ch3, r.ch4, r.multi, r.non], n ≤ r.numEvents) :
    ∃ lines, reportLines w name size r = (lines, none) ∧ ReportText name size (r.facts s e) lines := by
  have hd : fl w (fl w (e - s) * fl 53 (1 / 1000000000)) ≠ 0 := by
    apply fl_ne_zero w (by omega)
    apply mul_ne_zero
    · apply fl_ne_zero w (by omega)
      exact sub_ne_zero.mpr (Ne.symm hne)
    · apply fl_ne_zero 53 (by norm_num)
      norm_num
  have hc' : ∀ n ∈ [r.ch1, r.ch2, r.ch3, r.ch4, r.multi, r.non], ∀ label,
      CountLine label (Nat.log 10 r.numEvents + 1) n (label ++ padLeft (reportWidth r.numEvents) (natDigits n)) :=
    fun n hn' label => count_line label n r.numEvents hn (hc n hn')
  obtain ⟨ts, hts, hts'⟩ := patterns_text r.patterns
  have hdur := scaled_err w hw (e - s)
  refine ⟨_, ?_, _, _, _, _, _, _, _, _, _, _, _, _, ts, rfl, size_lines size hsz, count_line _ _ _ hn le_rfl, hc' r.ch1 (by simp) _,
    hc' r.ch2 (by simp) _, hc' r.ch3 (by simp) _, hc' r.ch4 (by simp) _, hc' r.multi (by simp) _, hc' r.non (by simp) _, seconds_line _ _ _ hdur,
    seconds_line _ _ _ (scaled_err' w hw _ fs), seconds_line _ _ _ (scaled_err' w hw _ fe), ⟨fl w (fl w (e - s) * fl 53 (1 / 1000000000)), ?_, intText_spec _⟩, hts'⟩
  · unfold reportLines
    simp only [hn, if_false, hs, he, hd, hts]
    simp [Report.facts]
  · rw [show ((10 : ℚ) ^ 9) = 1000000000 by norm_num]
    exact hdur

/-- The facts of a list of events with times in units of 1/256 ns. -/
def factsOf (evs : List (Nat × Nat)) (first last : Nat) : Facts :=
  ⟨evs.length, fun i => evs.countP (fun e => e.2.testBit i),
    evs.countP (fun e => decide (2 ≤ ((List.range 4).filter fun i => e.2.testBit i).length)),
    evs.countP (fun e => decide (((List.range 4).filter fun i => e.2.testBit i).length = 0)),
    (List.range 16).filter (fun x => decide (x ∈ evs.map Prod.snd)), first / 256, last / 256⟩

theorem patterns_unique (l : List ℕ) (evs : List (Nat × Nat)) (hp : ∀ e ∈ evs, e.2 < 16) (h1 : l.Pairwise (· < ·))
    (h2 : ∀ x, x ∈ l ↔ x ∈ evs.map Prod.snd) : l = (List.range 16).filter (fun x => decide (x ∈ evs.map Prod.snd)) := by
  refine List.Pairwise.eq_of_mem_iff (r := (· < ·)) h1 (List.Pairwise.filter _ List.pairwise_lt_range) ?_
  intro x
  rw [h2, List.mem_filter, List.mem_range]
  constructor
  · intro h
    obtain ⟨e, he, rfl⟩ := List.mem_map.mp h
    exact ⟨hp e he, by simpa using h⟩
  · rintro ⟨-, h⟩
    exact of_decide_eq_true h

/-- **C110**: the report on the events of raw files (4 ps units), whatever the batches in which they are read. -/
theorem C110_stream (name : List Char) (size : Option Nat) (hsz : ∀ n ∈ size, n < 2 ^ 53) (stream : List (List (Nat × Nat)))
    (t0 p0 tl pl : Nat) (h0 : stream.flatten.head? = some (t0, p0)) (hl : stream.flatten.getLast? = some (tl, pl)) (hne : t0 ≠ tl)
    (b0 : t0 < 2 ^ 53) (bl : tl < 2 ^ 53) (hp : ∀ e ∈ stream.flatten, e.2 < 16) :
    ∃ lines, reportLines 53 name size (printStatisticsStream 64 .ps4 (stream.map fun b => b.map fun e => (.u64 e.1, e.2))) = (lines, none) ∧
      ReportText name size (factsOf stream.flatten t0 tl) lines := by
  have h256 : ((Tsres.ps4.value : Nat) : ℚ) = 2 ^ 8 := by norm_num [Tsres.value]
  have hns : ∀ t : Nat, t < 2 ^ 53 → toNs 64 .ps4 (.u64 t) = (t : ℚ) / 256 := by
    intro t ht
    simp only [toNs]
    rw [fl_nat 53 _ ht, h256, fl_nat_div 53 t 8 ht]
    norm_num
  have hfl : ∀ t : Nat, t < 2 ^ 53 → fl 53 ((t : ℚ) / 256) = (t : ℚ) / 256 := by
    intro t ht
    have := fl_nat_div 53 t 8 ht
    norm_num at this ⊢
    exact this
  have hflat : (stream.map fun b => b.map fun e : Nat × Nat => (Num.u64 e.1, e.2)).flatten =
      stream.flatten.map fun e => (Num.u64 e.1, e.2) := by
    rw [List.map_flatten]
  have hstat := C12_statistics 64 .ps4 (stream.map fun b => b.map fun e : Nat × Nat => (Num.u64 e.1, e.2)) (by
    rw [hflat]
    intro e he
    obtain ⟨x, hx, rfl⟩ := List.mem_map.mp he
    exact hp x hx)
  simp only [hflat, List.map_map, List.length_map, List.head?_map, List.getLast?_map, h0, hl, Option.map_some, hns t0 b0, hns tl bl,
    Function.comp_def, List.countP_map] at hstat
  generalize printStatisticsStream 64 .ps4 (stream.map fun b => b.map fun e : Nat × Nat => (Num.u64 e.1, e.2)) = r at hstat ⊢
  obtain ⟨g1, g2, g3, g4, g5, g6, g7, g8, g9, g10, g11⟩ := hstat
  have hpos : r.numEvents ≠ 0 := by
    rw [g1]
    intro hc
    rw [List.length_eq_zero_iff] at hc
    rw [hc] at h0
    simp at h0
  obtain ⟨lines, k1, k2⟩ := C110_lines 53 le_rfl name size hsz r _ _ hpos g8 g9 (hfl t0 b0) (hfl tl bl) (by
    intro hc
    apply hne
    have : (t0 : ℚ) = tl := by linarith
    exact_mod_cast this) (by
    intro n hn
    simp only [List.mem_cons, List.not_mem_nil, or_false] at hn
    rw [g1]
    rcases hn with rfl | rfl | rfl | rfl | rfl | rfl
    · rw [g2]; exact List.countP_le_length
    · rw [g3]; exact List.countP_le_length
    · rw [g4]; exact List.countP_le_length
    · rw [g5]; exact List.countP_le_length
    · rw [g6]; exact List.countP_le_length
    · rw [g7]; exact List.countP_le_length)
  refine ⟨lines, k1, ?_⟩
  have : r.facts ((t0 : ℚ) / 256) ((tl : ℚ) / 256) = factsOf stream.flatten t0 tl := by
    unfold Report.facts factsOf
    rw [g1, g6, g7, patterns_unique r.patterns stream.flatten hp g10 g11]
    congr 1
    funext i
    match i with
    | 0 => exact g2
    | 1 => exact g3
    | 2 => exact g4
    | 3 => exact g5
  rwa [this] at k2

/-- **C110** (no events): name, size and a total of 0. -/
theorem C110_empty (w : Nat) (name : List Char) (size : Option Nat) (hsz : ∀ n ∈ size, n < 2 ^ 53) (r : Report) (hn : r.numEvents = 0) :
    ∃ sz, reportLines w name size r = (("Name: ".toList ++ name) :: sz ++ ["Total events    : 0".toList], none) ∧ SizeLines size sz := by
  refine ⟨_, ?_, size_lines size hsz⟩
  unfold reportLines
  simp only [hn, if_true]
  rfl

/-- **C110** (failures): the text ends with an exception exactly when the values of C13 and C70 do, with the same one. -/
theorem C110_failures (w : Nat) (name : List Char) (size : Option Nat) (r : Report) :
    (reportLines w name size r).2 = (match printReport w r with | .ok _ => none | .error e => some e) := by
  unfold reportLines printReport
  by_cases h0 : r.numEvents = 0
  · simp only [h0, if_true]
  · simp only [h0, if_false]
    cases r.start with
    | none => rfl
    | some s =>
      cases r.stop with
      | none => rfl
      | some e =>
        simp only []
        by_cases hd : fl w (fl w (e - s) * fl 53 (1 / 1000000000)) = 0
        · simp only [hd, if_true]
        · simp only [hd, if_false]

/-- An instance: four events in two batches. -/
example : let stream : List (List (Nat × Nat)) := [[(256000000000, 1), (256000000000, 8)], [(300000000000, 3), (512000000256, 0)]]
    stream.flatten.head? = some (256000000000, 1) ∧ stream.flatten.getLast? = some (512000000256, 0) ∧ (∀ e ∈ stream.flatten, e.2 < 16) := by
  decide

/-- The text of the report for these events. -/
example : reportLines 53 "x.dat".toList (some 2097152)
    ⟨4, 2, 1, 0, 1, 1, 1, some 1000000000, some 2000000001, [0, 1, 3, 8]⟩ =
    (["Name: x.dat", "Filesize (MB): 2.000", "Total events    : 4", "  Channel 1     : 2", "  Channel 2     : 1", "  Channel 3     : 0",
      "  Channel 4     : 1", "  Multi-channel : 1", "  No channel    : 1", "Duration (s) :     1.000000001", "  ~ start    :     1.000000000",
      "  ~ end      :     2.000000001", "Event rate (/s) : 3", "Detection patterns: [0, 1, 3, 8]"].map String.toList, none) := by
  decide +kernel

end Fp
