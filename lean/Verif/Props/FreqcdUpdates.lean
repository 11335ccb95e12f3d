import Verif.Props.FreqcdChannel
import Verif.Spec.FreqcdUpdates

/-! # C101: updates written at once are all applied, and the last update counts -/
namespace Fp
open Spec

/-- The state of the channel during full reads: the lines `todo` are still to come, or there is no line end any more. -/
def ChannelInv (fcorr : BitVec 32) (ls : List Bytes) (a : AState) : Prop :=
  (10 : UInt8) ∉ a.fpend ∧ a.fpend.length ≤ 98 ∧
    ((∃ done l todo rest, ls = done ++ l :: todo ∧ a.fcorr = done.foldl (fun f l => fcorrUpdate f (l.takeWhile (· ≠ 0))) fcorr ∧
        a.fpend ++ a.freqSrc = (l :: todo).flatMap (· ++ [10]) ++ rest ∧ (10 : UInt8) ∉ rest) ∨
     (a.fcorr = ls.foldl (fun f l => fcorrUpdate f (l.takeWhile (· ≠ 0))) fcorr ∧ (10 : UInt8) ∉ a.freqSrc))

/-- What a text beginning with the lines `l :: todo` has in its first part, if that ends behind the first line. -/
theorem split_lines (ls : List Bytes) (hls : ∀ l ∈ ls, (10 : UInt8) ∉ l) (rest x y : Bytes) (hr : (10 : UInt8) ∉ rest)
    (h : x ++ y = ls.flatMap (· ++ [10]) ++ rest) :
    ∃ done todo p, ls = done ++ todo ∧ Lines x done p ∧ p ++ y = todo.flatMap (· ++ [10]) ++ rest := by
  induction ls generalizing x with
  | nil =>
    refine ⟨[], [], x, rfl, ⟨by simp, by simp, ?_⟩, by simpa using h⟩
    intro hx
    apply hr
    rw [List.flatMap_nil, List.nil_append] at h
    rw [← h]
    exact List.mem_append_left _ hx
  | cons l ls ih =>
    by_cases hlen : l.length + 1 ≤ x.length
    · obtain ⟨x', rfl⟩ : ∃ x', x = (l ++ [10]) ++ x' := by
        have h2 := congrArg (List.take (l.length + 1)) h
        rw [List.take_append_of_le_length hlen, List.flatMap_cons, List.append_assoc, List.take_left' (by simp)] at h2
        exact ⟨x.drop (l.length + 1), by rw [← h2, List.take_append_drop]⟩
      rw [List.flatMap_cons, List.append_assoc, List.append_assoc (l ++ [10])] at h
      obtain ⟨done, todo, p, i1, ⟨i2, i3, i4⟩, i5⟩ := ih (fun l hl => hls l (by simp [hl])) x' (List.append_cancel_left h)
      refine ⟨l :: done, todo, p, by rw [i1]; rfl, ⟨by rw [i2]; simp, ?_, i4⟩, i5⟩
      intro m hm
      rcases List.mem_cons.mp hm with rfl | hm
      · exact hls _ (by simp)
      · exact i3 m hm
    · refine ⟨[], l :: ls, x, rfl, ⟨by simp, by simp, ?_⟩, h⟩
      intro hx
      apply hls l (by simp)
      have h2 := congrArg (List.take x.length) h
      rw [List.take_left, List.flatMap_cons, List.append_assoc, List.append_assoc, List.take_append_of_le_length (by omega)] at h2
      rw [h2] at hx
      exact List.mem_of_mem_take hx

theorem foldl_lines (f : BitVec 32) (a b : List Bytes) :
    b.foldl (fun f l => fcorrUpdate f (l.takeWhile (· ≠ 0))) (a.foldl (fun f l => fcorrUpdate f (l.takeWhile (· ≠ 0))) f) =
      (a ++ b).foldl (fun f l => fcorrUpdate f (l.takeWhile (· ≠ 0))) f := by
  rw [List.foldl_append]

theorem channel_step (fcorr : BitVec 32) (ls : List Bytes) (hls : ∀ l ∈ ls, (10 : UInt8) ∉ l ∧ l.length ≤ 98) (r : Round) (hr : FullFreq r)
    (a : AState) (h : ChannelInv fcorr ls a) : ChannelInv fcorr ls (aFreq r.freqRead a).1 ∧
      (a.freqOpen = true → r.freqRead.isSome = true → a.freqSrc ≠ [] →
        (aFreq r.freqRead a).1.freqOpen = true ∧ (aFreq r.freqRead a).1.freqSrc.length < a.freqSrc.length) := by
  rcases hr with hr | ⟨k, hr, hk⟩
  · rw [hr]
    unfold aFreq
    split <;> exact ⟨h, fun _ hc => by simp at hc⟩
  · obtain ⟨h1, h2, h3⟩ := h
    rw [hr]
    unfold aFreq
    by_cases ho : a.freqOpen
    swap
    · simp only [ho, Bool.not_false, if_true]
      exact ⟨⟨h1, h2, h3⟩, by simp⟩
    simp only [ho, Bool.not_true, Bool.false_eq_true, if_false]
    have hmin : min k (freqBufSize - a.fpend.length - 1) = 99 - a.fpend.length := by
      unfold freqBufSize
      omega
    rw [hmin]
    generalize hd : a.freqSrc.take (99 - a.fpend.length) = data
    have hdrop : a.freqSrc = data ++ a.freqSrc.drop data.length := by
      rw [← hd, List.length_take]
      rcases Nat.le_total (99 - a.fpend.length) a.freqSrc.length with hc | hc
      · rw [min_eq_left hc, List.take_append_drop]
      · rw [min_eq_right hc, List.drop_length, List.append_nil, List.take_of_length_le hc]
    have hdl : a.fpend.length + data.length ≤ 99 := by
      rw [← hd, List.length_take]
      omega
    have hne : a.freqSrc ≠ [] → data ≠ [] := by
      intro hs hc
      rw [← hd, List.take_eq_nil_iff] at hc
      rcases hc with hc | hc
      · omega
      · exact hs hc
    have hprog : a.freqSrc ≠ [] → decide (data.length ≠ 0) = true ∧ (a.freqSrc.drop data.length).length < a.freqSrc.length := by
      intro hs
      have := List.length_pos_iff.mpr (hne hs)
      refine ⟨by simpa using hne hs, ?_⟩
      rw [List.length_drop]
      have := List.length_pos_iff.mpr hs
      omega
    rcases h3 with ⟨done, l, todo, rest, e1, e2, e3, e4⟩ | ⟨e1, e2⟩
    · have hl := hls l (by rw [e1]; simp)
      have hlt : ∀ m ∈ l :: todo, (10 : UInt8) ∉ m := fun m hm => (hls m (by rw [e1]; exact List.mem_append_right _ hm)).1
      rw [hdrop, ← List.append_assoc] at e3
      -- the first line is complete
      have hcomplete : (10 : UInt8) ∈ a.fpend ++ data := by
        have hlen : l.length + 1 ≤ (a.fpend ++ data).length := by
          rw [List.length_append]
          by_cases hfull : 99 - a.fpend.length ≤ a.freqSrc.length
          · have : data.length = 99 - a.fpend.length := by rw [← hd, List.length_take, min_eq_left hfull]
            omega
          · have h99 : data = a.freqSrc := by rw [← hd, List.take_of_length_le (by omega)]
            have h98 := congrArg List.length e3
            rw [h99, List.drop_length, List.append_nil, List.flatMap_cons] at h98
            simp only [List.length_append, List.length_singleton] at h98
            rw [h99]
            omega
        have h2 : (a.fpend ++ data).take (l.length + 1) = l ++ [10] := by
          rw [← List.take_append_of_le_length (l₂ := a.freqSrc.drop data.length) hlen, e3, List.flatMap_cons, List.append_assoc (l ++ [10])]
          exact List.take_left' (by simp)
        have : (10 : UInt8) ∈ (a.fpend ++ data).take (l.length + 1) := by rw [h2]; simp
        exact List.mem_of_mem_take this
      rw [if_pos hcomplete]
      obtain ⟨d2, t2, p, s1, s2, s3⟩ := split_lines (l :: todo) hlt rest _ _ e4 e3
      have hal := aLines_lines a.fcorr _ _ _ s2
      rw [hal, e2, foldl_lines]
      refine ⟨⟨s2.2.2, ?_, ?_⟩, fun _ _ => hprog⟩
      · simp only
        have h98 := congrArg List.length s2.1
        rw [List.length_append, List.length_append] at h98
        cases d2 with
        | nil =>
          have := s2.2.2
          have e : a.fpend ++ data = p := by have := s2.1; simpa using this
          rw [e] at hcomplete
          exact absurd hcomplete this
        | cons d ds =>
          rw [List.flatMap_cons] at h98
          simp only [List.length_append, List.length_singleton] at h98
          omega
      · cases t2 with
        | nil =>
          right
          simp only
          rw [List.append_nil] at s1
          refine ⟨by rw [e1, s1], ?_⟩
          rw [List.flatMap_nil, List.nil_append] at s3
          intro hc
          apply e4
          rw [← s3]
          exact List.mem_append_right _ hc
        | cons m t2 =>
          left
          exact ⟨done ++ d2, m, t2, rest, by rw [e1, s1, List.append_assoc], rfl, s3, e4⟩
    · have hnot : (10 : UInt8) ∉ a.fpend ++ data := by
        rw [List.mem_append]
        rintro (hc | hc)
        · exact h1 hc
        · apply e2
          rw [hdrop]
          exact List.mem_append_left _ hc
      rw [if_neg hnot]
      refine ⟨⟨h1, h2, Or.inr ⟨e1, ?_⟩⟩, fun _ _ => hprog⟩
      intro hc
      exact e2 (List.mem_of_mem_drop hc)

/-- **C101**: text written to the channel before is read to its end, at least a byte with every read; when it has been, every
complete line has been applied, in order, however the reads cut the lines. -/
theorem C101_all_applied (legacy : Bool) (rs : List Round) (s s1 : FState) (fcorr : BitVec 32) (src fsrc : Bytes)
    (h : Initial s fcorr true src fsrc) (h1 : fRun legacy rs s = .ok (s1, none)) (hr : ∀ r ∈ rs, FullFreq r) (ls : List Bytes) (rest : Bytes)
    (hl : Lines fsrc ls rest) (hlen : ∀ l ∈ ls, l.length ≤ 98) :
    (fsrc.length ≤ freqPasses rs → s1.freqSrc = []) ∧ (s1.freqSrc = [] → s1.fcorr = ls.foldl (fun f l => fcorrUpdate f (l.takeWhile (· ≠ 0))) fcorr) := by
  obtain ⟨hw, ho, hp, -, hfc, -⟩ := initial_wf h
  have ha := run_abst hw ho h1
  have hls : ∀ l ∈ ls, (10 : UInt8) ∉ l ∧ l.length ≤ 98 := fun l h => ⟨hl.2.1 l h, hlen l h⟩
  have h0 : (abst s).fpend = [] ∧ (abst s).freqOpen = true ∧ (abst s).freqSrc = fsrc := by
    obtain ⟨_, _, _, _, _, -, -, -, rfl⟩ := h
    simp [abst, fInit]
  obtain ⟨n, -, ⟨i1, i2, i3⟩, i4⟩ := clean_ind (legacy := legacy) (rs := rs) (src := src)
    (fun rs' a _ => ChannelInv fcorr ls a ∧ (a.freqSrc = [] ∨ (a.freqOpen = true ∧ a.freqSrc.length + freqPasses rs' ≤ fsrc.length))) hp
    (by
      refine ⟨⟨by simp [h0.1], by simp [h0.1], ?_⟩, Or.inr ⟨h0.2.1, by rw [h0.2.2]; simp [freqPasses]⟩⟩
      cases ls with
      | nil => exact Or.inr ⟨hfc, by rw [h0.2.2, hl.1]; simpa using hl.2.2⟩
      | cons l ls => exact Or.inl ⟨[], l, ls, rest, rfl, hfc, by rw [h0.1, h0.2.2, hl.1]; rfl, hl.2.2⟩)
    (by
      rintro rs2 r a a1 n hpre - - hpos ⟨c1, c2⟩ hst
      obtain ⟨g1, g2, g3, g4, -, g⟩ := aStep_clean legacy r src a a1 n hpos hst
      have hmem : r ∈ rs := hpre.subset (by simp)
      obtain ⟨k1, k2⟩ := channel_step fcorr ls hls r (hr r hmem) a c1
      have hinv : ChannelInv fcorr ls a1 := by
        unfold ChannelInv at k1 ⊢
        rw [g1, g3, g4]
        exact k1
      have hprog : a1.freqSrc = [] ∨ (a1.freqOpen = true ∧ a1.freqSrc.length + freqPasses (rs2 ++ [r]) ≤ fsrc.length) := by
        have hsuf : (aFreq r.freqRead a).1.freqSrc.length ≤ a.freqSrc.length := by
          unfold aFreq
          split
          · exact le_rfl
          · split
            · exact le_rfl
            · exact le_rfl
            · simp only; split <;> simp
        have hcount : freqPasses (rs2 ++ [r]) = freqPasses rs2 + if r.freqRead.isSome then 1 else 0 := by
          unfold freqPasses
          rw [List.countP_append, List.countP_singleton]
        rcases c2 with c2 | ⟨c2, c3⟩
        · left
          rw [g4]
          rw [c2] at hsuf
          exact List.length_eq_zero_iff.mp (Nat.le_zero.mp hsuf)
        · by_cases hs : a.freqSrc = []
          · left
            rw [g4]
            rw [hs] at hsuf
            exact List.length_eq_zero_iff.mp (Nat.le_zero.mp hsuf)
          · right
            rw [g2, g4, hcount]
            by_cases hsome : r.freqRead.isSome = true
            · obtain ⟨q1, q2⟩ := k2 c2 hsome hs
              rw [if_pos hsome]
              exact ⟨q1, by omega⟩
            · rw [if_neg hsome]
              have hnone : r.freqRead = none := by simpa using hsome
              rw [hnone]
              have : aFreq none a = (a, none) := by unfold aFreq; split <;> rfl
              rw [this]
              exact ⟨c2, c3⟩
      rcases g with ⟨g, -⟩ | ⟨n', -, -, g, -⟩
      · exact ⟨n, g, hinv, hprog⟩
      · exact ⟨n', g, hinv, hprog⟩) _ ha
  have hend : fsrc.length ≤ freqPasses rs → (abst s1).freqSrc = [] := by
    intro hn
    rcases i4 with i4 | ⟨-, i4⟩
    · exact i4
    · exact List.length_eq_zero_iff.mp (by omega)
  refine ⟨hend, fun hend => ?_⟩
  change (abst s1).freqSrc = [] at hend
  rcases i3 with ⟨done, l, todo, rest', e1, e2, e3, e4⟩ | ⟨e1, -⟩
  · exfalso
    rw [hend, List.append_nil, List.flatMap_cons] at e3
    apply i1
    rw [e3]
    simp
  · exact e1

/-- **C101**: whatever has been read before, and in whatever pieces, the last update counts, if none of the last reads is without
line end. -/
theorem C101_last_counts (legacy : Bool) (rs : List Round) (s s1 : FState) (fcorr : BitVec 32) (fo : Bool) (src fsrc : Bytes)
    (h : Initial s fcorr fo src fsrc) (h1 : fRun legacy rs s = .ok (s1, none)) (before last : List Bytes)
    (hreads : freqReads legacy rs s = before ++ last) (hlast : ∀ c ∈ last, c = [] ∨ (10 : UInt8) ∈ c) (x l rest : Bytes)
    (htext : last.flatten = x ++ [10] ++ l ++ [10] ++ rest) (hl10 : (10 : UInt8) ∉ l) (hrest : (10 : UInt8) ∉ rest) (v : ℤ) (hv : Numeral l v) (hrange : |v| < 2 ^ 21) :
    s1.fcorr.toInt = v := by
  have hflat : (last.filter (fun c : Bytes => (10 : UInt8) ∈ c)).flatten = last.flatten := by
    clear hreads htext
    induction last with
    | nil => rfl
    | cons c l ih =>
      have := ih (fun x hx => hlast x (by simp [hx]))
      rcases hlast c (by simp) with hc | hc
      · rw [hc, List.filter_cons_of_neg (by simp), this]; rfl
      · rw [List.filter_cons_of_pos (by simpa using hc), List.flatten_cons, this, List.flatten_cons]
  have hzero : l.takeWhile (· ≠ 0) = l := by
    rw [List.takeWhile_eq_self_iff]
    intro c hc
    obtain ⟨ws, sign, ds, rfl, hws, hne, hds, hval⟩ := hv
    rw [decide_eq_true_eq]
    intro h0
    subst h0
    rw [List.mem_append, List.mem_append] at hc
    rcases hc with (hc | hc) | hc
    · have := hws _ hc
      simp at this
    · rcases hval with ⟨rfl, -⟩ | ⟨rfl, -⟩ | ⟨rfl, -⟩ <;> simp at hc
    · have := hds _ hc
      simp at this
  obtain ⟨ls, r, e1, e2, e3⟩ := lines_exist ((before.filter (fun c : Bytes => (10 : UInt8) ∈ c)).flatten ++ x)
  have hl : Lines ((freqReads legacy rs s).filter (fun c : Bytes => (10 : UInt8) ∈ c)).flatten (ls ++ [r, l]) rest := by
    refine ⟨?_, ?_, hrest⟩
    · rw [hreads, List.filter_append, List.flatten_append, hflat, htext]
      simp only [← List.append_assoc]
      rw [e1]
      simp
    · intro m hm
      rcases List.mem_append.mp hm with hm | hm
      · exact e2 m hm
      · simp only [List.mem_cons, List.not_mem_nil, or_false] at hm
        rcases hm with rfl | rfl
        · exact e3
        · exact hl10
  obtain ⟨k, -⟩ := C45_exact legacy rs s s1 fcorr fo src fsrc h h1 _ _ hl
  rw [abs_lt] at hrange
  rw [k, List.foldl_append, List.foldl_cons, List.foldl_cons, List.foldl_nil, hzero, C46_update_partial _ _ v hv (by omega),
    if_pos (abs_lt.mpr hrange), BitVec.toInt_ofInt, Int.bmod_eq_of_le (by omega) (by omega)]

/-- The lines 0, 1000, 2000, …, 34000 of the test in tests/freqcd/test_freqcd_update.py. -/
def updateTestLines : List Bytes := (List.range 35).map fun i => (Nat.toDigits 10 (1000 * i)).map fun c => UInt8.ofNat c.toNat

/-- The test in tests/freqcd/test_freqcd_update.py: with everything written at once, the correction is 34000 in the end. -/
theorem C101_test (legacy : Bool) (s s1 : FState) (fcorr : BitVec 32) (src : Bytes)
    (h : Initial s fcorr true src (updateTestLines.flatMap (· ++ [10]))) (rs : List Round) (hr : ∀ r ∈ rs, FullFreq r)
    (h1 : fRun legacy rs s = .ok (s1, none)) (hend : s1.freqSrc = []) : s1.fcorr = 34000 := by
  have hl : Lines (updateTestLines.flatMap (· ++ [10])) updateTestLines [] := ⟨by simp, by decide +kernel, by simp⟩
  have h98 : ∀ l ∈ updateTestLines, l.length ≤ 98 := by decide +kernel
  obtain ⟨-, k⟩ := C101_all_applied legacy rs s s1 fcorr src _ h h1 hr _ _ hl h98
  rw [k hend]
  have hsplit : updateTestLines = updateTestLines.take 34 ++ [[51, 52, 48, 48, 48]] := by decide +kernel
  rw [hsplit, List.foldl_append, List.foldl_cons, List.foldl_nil]
  rw [C46_update_partial _ _ 34000 ⟨[], [], [51, 52, 48, 48, 48], by decide, by simp, by simp, by decide, Or.inl ⟨rfl, by decide⟩⟩ (by omega), if_pos (by norm_num)]
  rfl

/-- A pass that reads as much as possible from the frequency channel and nothing else. -/
def fr (k : Nat) : Round := { selectOk := true, inRead := none, freqRead := some (some k), write := some 8192 }

/-- The run of that test: three reads of 99, 95 and 3 bytes; the first ends with 1800, the second with 340. -/
example : ∃ s s1, Initial s 12300 true [] (updateTestLines.flatMap (· ++ [10])) ∧ fRun false [fr 99, fr 99, fr 99] s = .ok (s1, none) ∧
    (∀ r ∈ [fr 99, fr 99, fr 99], FullFreq r) ∧ (freqReads false [fr 99, fr 99, fr 99] s).map List.length = [99, 95, 3] ∧
    (freqReads false [fr 99, fr 99, fr 99] s).map (fun c => c.drop (c.length - 4)) = [[49, 56, 48, 48], [10, 51, 52, 48], [48, 48, 10]] ∧ s1.fcorr = 34000 := by
  obtain ⟨s1, h1, -, -, h4⟩ := demo_run false [fr 99, fr 99, fr 99] 0 12300 true [] (updateTestLines.flatMap (· ++ [10])) _ _ _ none ⟨rfl, rfl, rfl, by decide +kernel⟩
  obtain ⟨hw, ho, -⟩ := initial_wf (demo_initial 0 12300 true [] (updateTestLines.flatMap (· ++ [10])))
  refine ⟨_, s1, demo_initial 0 _ _ _ _, h1, ?_, ?_, ?_, by rw [h4]; decide +kernel⟩
  · intro r hr
    simp only [List.mem_cons, List.not_mem_nil, or_false, or_self] at hr
    rw [hr]
    exact Or.inr ⟨99, rfl, le_rfl⟩
  · rw [aReads_eq hw ho, demo_abst]
    decide +kernel
  · rw [aReads_eq hw ho, demo_abst]
    decide +kernel

/-- The reads "1", "2" and "3\n5\n": the first two are lost, and the last update counts. -/
example : ∃ s s1, Initial s 0 true [] [49, 50, 51, 10, 53, 10] ∧ fRun false [fr 1, fr 1, fr 99] s = .ok (s1, none) ∧
    freqReads false [fr 1, fr 1, fr 99] s = [[49], [50]] ++ [[51, 10, 53, 10]] ∧ Numeral [53] 5 ∧ s1.fcorr.toInt = 5 := by
  obtain ⟨s1, h1, -, -, h4⟩ := demo_run false [fr 1, fr 1, fr 99] 0 0 true [] [49, 50, 51, 10, 53, 10] _ _ _ none ⟨rfl, rfl, rfl, by decide +kernel⟩
  obtain ⟨hw, ho, -⟩ := initial_wf (demo_initial 0 0 true [] [49, 50, 51, 10, 53, 10])
  refine ⟨_, s1, demo_initial 0 _ _ _ _, h1, ?_, ⟨[], [], [53], rfl, by simp, by simp, by decide, Or.inl ⟨rfl, by decide⟩⟩, by rw [h4]; decide +kernel⟩
  rw [aReads_eq hw ho, demo_abst]
  decide +kernel

/-- **C101 fails** for lines of 99 characters and more: 99 letters followed by a digit, which is no number, set the correction to the
digit. -/
theorem C101_long_violated : ∃ s s1, Initial s 0 true [] (List.replicate 99 120 ++ [55, 10]) ∧ (∀ r ∈ [fr 99, fr 99], FullFreq r) ∧
    fRun false [fr 99, fr 99] s = .ok (s1, none) ∧ fcorrUpdate 0 (List.replicate 99 120 ++ [55]) = 0 ∧ s1.fcorr = 7 := by
  obtain ⟨s1, h1, -, -, h4⟩ := demo_run false [fr 99, fr 99] 0 0 true [] (List.replicate 99 120 ++ [55, 10]) _ _ _ none ⟨rfl, rfl, rfl, by decide +kernel⟩
  refine ⟨_, s1, demo_initial 0 _ _ _ _, ?_, h1, by decide +kernel, by rw [h4]; decide +kernel⟩
  intro r hr
  simp only [List.mem_cons, List.not_mem_nil, or_false, or_self] at hr
  rw [hr]
  exact Or.inr ⟨99, rfl, le_rfl⟩

end Fp
