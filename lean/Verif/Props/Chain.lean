import Verif.Props.Joined
import Verif.Spec.Chain

/-! # C128: splitting recordings with `parse_timestamps` -/
namespace Fp
open Spec

theorem recording_representable {raws : List (Nat × Nat)} (h : Recording raws) (fmt : Fmt) : Representable fmt raws := by
  cases fmt with
  | a0 => exact fun r hr => Or.inl (h.small r hr)
  | a1 => trivial
  | a2 => exact Or.inl h.small

/-- One run. -/
theorem convert_once (fw : Nat) (hfw : 54 ≤ fw) (args : TsArgs) (inp out : List Char) (h : Converts args inp out) (files : Files)
    (raws : List (Nat × Nat)) (hr : Recording raws) (hin : files inp = some (fileOf args.inFmt args.legacyIn raws)) :
    tsMain fw args files = ⟨files.set out (fileOf args.outFmt args.legacyOut (filtered args.filter raws)), none, none⟩ :=
  C84_convert_stream_partial fw hfw args files raws out hr.valid (recording_representable hr _) (by rw [h.infile]; exact hin) h.outfile
    h.named (by rw [h.infile]; exact h.different) h.print h.inmemory h.pattern (fun _ => ⟨hr.sorted, hr.small⟩)

theorem sorted_split (raws : List (Nat × Nat)) (hs : raws.Pairwise fun x y => x.1 ≤ y.1) (T : ℚ) (hT : ∀ r ∈ raws, (r.1 : ℚ) ≠ T) :
    (raws.filter fun r => decide ((r.1 : ℚ) ≤ T)) ++ (raws.filter fun r => decide (T ≤ (r.1 : ℚ))) = raws := by
  induction raws with
  | nil => rfl
  | cons r raws ih =>
    have hs' := List.pairwise_cons.mp hs
    have ih := ih hs'.2 fun q hq => hT q (by simp [hq])
    rcases lt_or_gt_of_ne (hT r (by simp)) with h | h
    · rw [List.filter_cons_of_pos (by simpa using h.le), List.filter_cons_of_neg (by simpa using h), List.cons_append, ih]
    · have hlow : raws.filter (fun r => decide ((r.1 : ℚ) ≤ T)) = [] := by
        rw [List.filter_eq_nil_iff]
        intro q hq
        have : (r.1 : ℚ) ≤ q.1 := by exact_mod_cast hs'.1 q hq
        simpa using lt_of_lt_of_le h this
      rw [hlow, List.nil_append] at ih
      rw [List.filter_cons_of_neg (by simpa using h), hlow, List.nil_append, List.filter_cons_of_pos (by simpa using h.le), ih]

/-- **C128** (split): a recording split at the time `T` by a run with `--tfilter-end T` and one with `--tfilter-start T` is the recording,
if both parts are joined; but events at exactly that time are in both parts. -/
theorem C128_split (fw : Nat) (hfw : 54 ≤ fw) (low high : TsArgs) (inp out1 out2 : List Char) (h1 : Converts low inp out1)
    (h2 : Converts high inp out2) (T : ℚ) (hl : low.filter = ⟨none, false, false, none, some T⟩)
    (hh : high.filter = ⟨none, false, false, some T, none⟩) (fmt : Fmt) (legacy : Bool)
    (hfl : low.inFmt = fmt ∧ low.outFmt = fmt ∧ low.legacyIn = legacy ∧ low.legacyOut = legacy)
    (hfh : high.inFmt = fmt ∧ high.outFmt = fmt ∧ high.legacyIn = legacy ∧ high.legacyOut = legacy) (files : Files)
    (raws : List (Nat × Nat)) (hr : Recording raws) (hin : files inp = some (fileOf fmt legacy raws)) :
    ∃ l r, (tsMain fw low files).files out1 = some (fileOf fmt legacy l) ∧ (tsMain fw high files).files out2 = some (fileOf fmt legacy r) ∧
      l.length + r.length = raws.length + raws.countP (fun e => decide ((e.1 : ℚ) = bound .ps4 T)) ∧
      ((∀ e ∈ raws, (e.1 : ℚ) ≠ bound .ps4 T) → fileOf fmt legacy l ++ fileOf fmt legacy r = fileOf fmt legacy raws) := by
  rw [convert_once fw hfw low inp out1 h1 files raws hr (by rw [hfl.1, hfl.2.2.1]; exact hin),
    convert_once fw hfw high inp out2 h2 files raws hr (by rw [hfh.1, hfh.2.2.1]; exact hin), hfl.2.1, hfl.2.2.2, hfh.2.1, hfh.2.2.2, hl, hh]
  have e1 : filtered ⟨none, false, false, none, some T⟩ raws = raws.filter fun r => decide ((r.1 : ℚ) ≤ bound .ps4 T) := by
    unfold filtered
    rw [List.filter_congr (q := fun r => decide ((r.1 : ℚ) ≤ bound .ps4 T)) (fun r _ => by simp [passes, InWindow])]
    simp [leftBits]
  have e2 : filtered ⟨none, false, false, some T, none⟩ raws = raws.filter fun r => decide (bound .ps4 T ≤ (r.1 : ℚ)) := by
    unfold filtered
    rw [List.filter_congr (q := fun r => decide (bound .ps4 T ≤ (r.1 : ℚ))) (fun r _ => by simp [passes, InWindow])]
    simp [leftBits]
  rw [e1, e2]
  refine ⟨raws.filter fun r => decide ((r.1 : ℚ) ≤ bound .ps4 T), raws.filter fun r => decide (bound .ps4 T ≤ (r.1 : ℚ)), by simp [Files.set], by simp [Files.set], ?_, ?_⟩
  · clear hin hr e1 e2
    rw [← List.countP_eq_length_filter, ← List.countP_eq_length_filter]
    induction raws with
    | nil => rfl
    | cons r raws ih =>
      simp only [List.countP_cons, List.length_cons]
      rcases lt_trichotomy (r.1 : ℚ) (bound .ps4 T) with h | h | h
      · simp only [h.le, not_le.mpr h, h.ne, decide_true, decide_false, if_true]
        simp
        omega
      · simp only [h, le_refl, decide_true, if_true]
        omega
      · simp only [h.le, not_le.mpr h, h.ne', decide_true, decide_false, if_true]
        simp
        omega
  · intro hT
    rw [← fileOf_append, sorted_split raws hr.sorted _ hT]

theorem bits_split : ∀ m < 16, ∀ x < 16, ∀ i < 4,
    (if (patKeep m true false x && (ofBits4 (patBit m true false x)).testBit i) = true then 1 else 0) +
      (if (patKeep m true true x && (ofBits4 (patBit m true true x)).testBit i) = true then 1 else 0) =
    if x.testBit i = true then 1 else 0 := by decide +kernel

/-- **C128** (detectors): a recording split by detectors, into those of a mask and the others, has the same number of detections of every
detector in both parts together. -/
theorem C128_detectors (fw : Nat) (hfw : 54 ≤ fw) (some' rest : TsArgs) (inp out1 out2 : List Char) (h1 : Converts some' inp out1)
    (h2 : Converts rest inp out2) (m : Nat) (hf1 : some'.filter = ⟨some m, true, false, none, none⟩)
    (hf2 : rest.filter = ⟨some m, true, true, none, none⟩) (files : Files) (raws : List (Nat × Nat)) (hr : Recording raws)
    (hin : files inp = some (fileOf some'.inFmt some'.legacyIn raws)) (hsame : rest.inFmt = some'.inFmt ∧ rest.legacyIn = some'.legacyIn) :
    ∃ l r, (tsMain fw some' files).files out1 = some (fileOf some'.outFmt some'.legacyOut l) ∧
      (tsMain fw rest files).files out2 = some (fileOf rest.outFmt rest.legacyOut r) ∧
      (∀ e ∈ l, e.2 ≠ 0 ∧ e.2 &&& m = e.2) ∧ (∀ e ∈ r, e.2 &&& m = 0) ∧
      ∀ i < 4, detections i l + detections i r = detections i raws := by
  have hm := h1.pattern m (by rw [hf1])
  rw [convert_once fw hfw some' inp out1 h1 files raws hr hin,
    convert_once fw hfw rest inp out2 h2 files raws hr (by rw [hsame.1, hsame.2]; exact hin), hf1, hf2]
  have k1 : ∀ m < 16, ∀ x < 16, patKeep m true false x = true →
      ofBits4 (patBit m true false x) ≠ 0 ∧ ofBits4 (patBit m true false x) &&& m = ofBits4 (patBit m true false x) := by decide +kernel
  have k2 : ∀ m < 16, ∀ x < 16, ofBits4 (patBit m true true x) &&& m = 0 := by decide +kernel
  refine ⟨filtered ⟨some m, true, false, none, none⟩ raws, filtered ⟨some m, true, true, none, none⟩ raws, by simp [Files.set],
    by simp [Files.set], ?_, ?_, ?_⟩
  · intro e he
    unfold filtered at he
    obtain ⟨q, hq, rfl⟩ := List.mem_map.mp he
    obtain ⟨hq1, hq2⟩ := List.mem_filter.mp hq
    exact k1 m hm q.2 (hr.valid q hq1).2 (by simpa [passes, InWindow] using hq2)
  · intro e he
    unfold filtered at he
    obtain ⟨q, hq, rfl⟩ := List.mem_map.mp he
    exact k2 m hm q.2 (hr.valid q (List.mem_of_mem_filter hq)).2
  · intro i hi
    unfold detections filtered
    rw [List.countP_map, List.countP_map, List.countP_filter, List.countP_filter]
    have hv := hr.valid
    clear hin hr
    induction raws with
    | nil => rfl
    | cons r raws ih =>
      have ih := ih fun q hq => hv q (by simp [hq])
      have := bits_split m hm r.2 (hv r (by simp)).2 i hi
      simp only [List.countP_cons]
      simp only [passes, leftBits, InWindow, Function.comp] at ih this ⊢
      simp only [reduceCtorEq, IsEmpty.forall_iff, implies_true, and_self, decide_true, Bool.and_true] at ih ⊢
      rw [Bool.and_comm, Bool.and_comm (patKeep m true true r.2)] at this
      omega

/-- **C09** (beyond four bits): a pattern with the fifth bit, used to remove detectors, removes the events without any detector too. -/
theorem C09_fifth_bit (p : List Nat) (pattern : Nat) (h : pattern.testBit 4 = true) (i : Nat) (hi : p[i]? = some 0) :
    (getPatternMask p pattern true true).1[i]? = some false := by
  have e : 16 &&& pattern = 16 := by
    apply Nat.eq_of_testBit_eq
    intro k
    rw [Nat.testBit_and, show (16 : Nat) = 2 ^ 4 from rfl, Nat.testBit_two_pow]
    by_cases hk : 4 = k
    · subst hk
      simp [h]
    · simp [hk]
  simp [getPatternMask, hi, e]

/-- Instance: the pattern 31. -/
example : (getPatternMask [0, 1] 31 true true).1[0]? = some false := C09_fifth_bit _ 31 (by decide) 0 rfl

/-! ## Instances -/

/-- Three events: detectors 1, 2 and both, at 1 s, 2 s and 3 s. -/
def chainEvents : List (Nat × Nat) := [(256000000000, 1), (512000000000, 2), (768000000000, 3)]

theorem chain_recording : Recording chainEvents :=
  ⟨by unfold Valid; decide, by decide, by decide⟩

def chainArgs (f : FilterArgs) (inp out : String) : TsArgs := ⟨.a1, false, .a1, false, false, f, false, inp.toList, some out.toList⟩

theorem chain_converts (f : FilterArgs) (hf : ∀ pat, f.pattern = some pat → pat < 16) (inp out : String) (h : out.toList ≠ [])
    (hd : inp.toList ≠ out.toList) : Converts (chainArgs f inp out) inp.toList out.toList := ⟨rfl, rfl, h, hd, rfl, rfl, hf⟩

def chainFiles : Files := fun n => if n = "in".toList then some (fileOf .a1 false chainEvents) else none

theorem chain_bound : bound .ps4 2 = 512000000000 := by
  unfold bound
  show fl 53 (2 * (1000000000 * 256)) = 512000000000
  decide +kernel

/-- Instance of C128_split: the event at 2 s is in both parts. -/
example : ∃ l r, (tsMain 64 (chainArgs ⟨none, false, false, none, some 2⟩ "in" "a") chainFiles).files "a".toList = some (fileOf .a1 false l) ∧
    (tsMain 64 (chainArgs ⟨none, false, false, some 2, none⟩ "in" "b") chainFiles).files "b".toList = some (fileOf .a1 false r) ∧
    l.length + r.length = 4 := by
  obtain ⟨l, r, h1, h2, h3, -⟩ := C128_split 64 (by norm_num) _ _ _ _ _
    (chain_converts ⟨none, false, false, none, some 2⟩ (by simp) "in" "a" (by decide) (by decide))
    (chain_converts ⟨none, false, false, some 2, none⟩ (by simp) "in" "b" (by decide) (by decide)) 2 rfl rfl .a1 false
    ⟨rfl, rfl, rfl, rfl⟩ ⟨rfl, rfl, rfl, rfl⟩ chainFiles chainEvents chain_recording rfl
  refine ⟨l, r, h1, h2, ?_⟩
  rw [h3, chain_bound]
  decide +kernel

/-- Instance of C128_detectors: detector 1 and the others. -/
example : ∃ l r, (tsMain 64 (chainArgs ⟨some 1, true, false, none, none⟩ "in" "a") chainFiles).files "a".toList = some (fileOf .a1 false l) ∧
    (tsMain 64 (chainArgs ⟨some 1, true, true, none, none⟩ "in" "b") chainFiles).files "b".toList = some (fileOf .a1 false r) ∧
    detections 0 l + detections 0 r = 2 := by
  obtain ⟨l, r, h1, h2, -, -, h3⟩ := C128_detectors 64 (by norm_num) _ _ _ _ _
    (chain_converts ⟨some 1, true, false, none, none⟩ (by simp) "in" "a" (by decide) (by decide))
    (chain_converts ⟨some 1, true, true, none, none⟩ (by simp) "in" "b" (by decide) (by decide)) 1 rfl rfl chainFiles chainEvents
    chain_recording rfl ⟨rfl, rfl⟩
  exact ⟨l, r, h1, h2, (h3 0 (by norm_num)).trans (by decide)⟩

end Fp
