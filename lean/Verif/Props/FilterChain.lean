import Verif.Spec.FilterChain
import Verif.Props.RawMain

/-! # Filters applied one after the other: C114 -/
namespace Fp
open Spec

/-- The part of `passes` that looks at the detectors. -/
def patternPass (f : FilterArgs) (x : Nat) : Bool :=
  match f.pattern with
  | none => true
  | some p => patKeep p f.mask f.invert x

theorem passes_split (f : FilterArgs) (r : Nat × Nat) :
    passes f r = (patternPass f r.2 && decide (InWindow .ps4 f.start f.stop (r.1 : ℚ))) := rfl

/-- One pattern filter in place of two. -/
theorem patterns_fold (f g c : FilterArgs) (h : Patterns f g c) (hf : ∀ a, f.pattern = some a → a < 16) (hg : ∀ a, g.pattern = some a → a < 16)
    (x : Nat) (hx : x < 16) :
    patternPass c x = (patternPass f x && patternPass g (leftBits f x)) ∧
    (patternPass c x = true → leftBits c x = leftBits g (leftBits f x)) := by
  unfold patternPass leftBits
  cases h with
  | second h hc =>
    obtain ⟨h1, h2, h3⟩ := hc
    rw [h, h1, h2, h3]
    exact ⟨by simp, fun _ => rfl⟩
  | first h hc =>
    obtain ⟨h1, h2, h3⟩ := hc
    rw [h, h1, h2, h3]
    exact ⟨by simp, fun _ => rfl⟩
  | same h hc =>
    obtain ⟨h1, h2, h3⟩ := hc
    obtain ⟨g1, g2, g3⟩ := h
    rw [h1, h2, h3, ← g1, ← g2, ← g3]
    rcases hp : f.pattern with _ | a
    · exact ⟨by simp, fun _ => rfl⟩
    · have ha := hf a hp
      simp only []
      generalize f.mask = m
      generalize f.invert = i
      clear hp h1 h2 h3 g1 g2 g3
      have key : ∀ m i : Bool, ∀ a < 16, ∀ x < 16,
          patKeep a m i x = (patKeep a m i x && patKeep a m i (ofBits4 (patBit a m i x))) ∧
          (patKeep a m i x = true → ofBits4 (patBit a m i x) = ofBits4 (patBit a m i (ofBits4 (patBit a m i x)))) := by decide +kernel
      exact key m i a ha x hx
  | masks a b h1 h2 h3 =>
    obtain ⟨a1, a2, a3⟩ := h1
    obtain ⟨b1, b2, b3⟩ := h2
    obtain ⟨c1, c2, c3⟩ := h3
    have ha := hf a a1
    have hb := hg b b1
    rw [a1, a2, a3, b1, b2, b3, c1, c2, c3]
    have key : ∀ a < 16, ∀ b < 16, ∀ x < 16,
        patKeep (a &&& b) true false x = (patKeep a true false x && patKeep b true false (ofBits4 (patBit a true false x))) ∧
        (patKeep (a &&& b) true false x = true → ofBits4 (patBit (a &&& b) true false x) =
          ofBits4 (patBit b true false (ofBits4 (patBit a true false x)))) := by decide +kernel
    exact key a ha b hb x hx
  | inverted a b h1 h2 h3 =>
    obtain ⟨a1, a2, a3⟩ := h1
    obtain ⟨b1, b2, b3⟩ := h2
    obtain ⟨c1, c2, c3⟩ := h3
    have ha := hf a a1
    have hb := hg b b1
    rw [a1, a2, a3, b1, b2, b3, c1, c2, c3]
    have key : ∀ a < 16, ∀ b < 16, ∀ x < 16,
        patKeep (a ||| b) true true x = (patKeep a true true x && patKeep b true true (ofBits4 (patBit a true true x))) ∧
        (patKeep (a ||| b) true true x = true → ofBits4 (patBit (a ||| b) true true x) =
          ofBits4 (patBit b true true (ofBits4 (patBit a true true x)))) := by decide +kernel
    exact key a ha b hb x hx

/-- Bounds keep their order as far as non-negative times are concerned. -/
theorem bound_order (res : Tsres) (hres : 0 ≤ (res.value : ℚ)) (a b x : ℚ) (h : a ≤ b) (hx : 0 ≤ x) :
    (bound res b ≤ x → bound res a ≤ x) ∧ (x ≤ bound res a → x ≤ bound res b) := by
  have hle : a * (1000000000 * res.value) ≤ b * (1000000000 * res.value) := mul_le_mul_of_nonneg_right h (by positivity)
  unfold bound
  rcases le_or_gt 0 (a * (1000000000 * res.value)) with h0 | h0
  · have := fl_mono_nonneg 53 (by norm_num) h0 hle
    exact ⟨fun h => le_trans this h, fun h => le_trans h this⟩
  · have : ¬ 0 ≤ fl 53 (a * (1000000000 * res.value)) := by
      rw [fl_nonneg_iff 53 (by norm_num)]
      exact not_le.mpr h0
    have := not_le.mp this
    exact ⟨fun _ => by linarith, fun h => absurd h (by linarith)⟩

theorem window_inter (res : Tsres) (hres : 0 ≤ (res.value : ℚ)) (s s' e e' : Option ℚ) (x : ℚ) (hx : 0 ≤ x) :
    InWindow res (laterStart s s') (earlierStop e e') x ↔ InWindow res s e x ∧ InWindow res s' e' x := by
  have h1 : (∀ a, laterStart s s' = some a → bound res a ≤ x) ↔ (∀ a, s = some a → bound res a ≤ x) ∧ ∀ a, s' = some a → bound res a ≤ x := by
    cases s <;> cases s' <;> simp only [laterStart, Option.some.injEq, forall_eq', reduceCtorEq, false_implies, implies_true, true_and, and_true]
    rename_i a b
    rcases le_total a b with h | h
    · rw [max_eq_right h]
      exact ⟨fun g => ⟨(bound_order res hres a b x h hx).1 g, g⟩, And.right⟩
    · rw [max_eq_left h]
      exact ⟨fun g => ⟨g, (bound_order res hres b a x h hx).1 g⟩, And.left⟩
  have h2 : (∀ a, earlierStop e e' = some a → x ≤ bound res a) ↔ (∀ a, e = some a → x ≤ bound res a) ∧ ∀ a, e' = some a → x ≤ bound res a := by
    cases e <;> cases e' <;> simp only [earlierStop, Option.some.injEq, forall_eq', reduceCtorEq, false_implies, implies_true, true_and, and_true]
    rename_i a b
    rcases le_total a b with h | h
    · rw [min_eq_left h]
      exact ⟨fun g => ⟨g, (bound_order res hres a b x h hx).2 g⟩, And.left⟩
    · rw [min_eq_right h]
      exact ⟨fun g => ⟨(bound_order res hres b a x h hx).2 g, g⟩, And.right⟩
  unfold InWindow
  rw [h1, h2]
  tauto

/-- One filter in place of two. -/
theorem filtered_twice (f g c : FilterArgs) (h : Combined f g c) (hf : ∀ a, f.pattern = some a → a < 16)
    (hg : ∀ a, g.pattern = some a → a < 16) (raws : List (Nat × Nat)) (hv : ∀ r ∈ raws, Valid r) :
    filtered g (filtered f raws) = filtered c raws := by
  obtain ⟨hp, hs, he⟩ := h
  induction raws with
  | nil => rfl
  | cons r rs ih =>
    have ih := ih fun r hr => hv r (List.mem_cons_of_mem _ hr)
    have hr := hv r (List.mem_cons_self ..)
    obtain ⟨k1, k2⟩ := patterns_fold f g c hp hf hg r.2 hr.2
    have hw := window_inter .ps4 (by simp [Tsres.value]) f.start g.start f.stop g.stop (r.1 : ℚ) (by positivity)
    rw [← hs, ← he] at hw
    have hpass : passes c r = (passes f r && passes g (r.1, leftBits f r.2)) := by
      have hd : decide (InWindow .ps4 c.start c.stop (r.1 : ℚ)) =
          (decide (InWindow .ps4 f.start f.stop (r.1 : ℚ)) && decide (InWindow .ps4 g.start g.stop (r.1 : ℚ))) := by
        rw [← Bool.decide_and]
        exact decide_eq_decide.mpr hw
      rw [passes_split, passes_split, passes_split, k1, hd]
      generalize patternPass f r.2 = b1
      generalize patternPass g (leftBits f r.2) = b2
      generalize decide (InWindow .ps4 f.start f.stop (r.1 : ℚ)) = b3
      generalize decide (InWindow .ps4 g.start g.stop (r.1 : ℚ)) = b4
      cases b1 <;> cases b2 <;> cases b3 <;> cases b4 <;> rfl
    unfold filtered at ih ⊢
    rw [List.filter_cons, List.filter_cons]
    by_cases h1 : passes f r = true
    · rw [if_pos h1, List.map_cons, List.filter_cons]
      rw [h1, Bool.true_and] at hpass
      by_cases h2 : passes g (r.1, leftBits f r.2) = true
      · rw [if_pos h2, if_pos (by rw [hpass]; exact h2), List.map_cons, List.map_cons, ih]
        congr 2
        refine (k2 ?_).symm
        have : passes c r = true := by rw [hpass]; exact h2
        rw [passes_split] at this
        exact (Bool.and_eq_true_iff.mp this).1
      · rw [if_neg h2, if_neg (by rw [hpass]; exact h2), ih]
    · rw [if_neg h1, if_neg (by rw [hpass]; simp [h1]), ih]

theorem combined_timed (f g c : FilterArgs) (h : Combined f g c) : Timed c ↔ Timed f ∨ Timed g := by
  obtain ⟨-, h1, h2⟩ := h
  unfold Timed
  rw [h1, h2]
  cases f.start <;> cases g.start <;> cases f.stop <;> cases g.stop <;> simp [laterStart, earlierStop]

theorem combined_pattern (f g c : FilterArgs) (h : Combined f g c) (hf : ∀ a, f.pattern = some a → a < 16)
    (hg : ∀ a, g.pattern = some a → a < 16) : ∀ a, c.pattern = some a → a < 16 := by
  obtain ⟨h, -⟩ := h
  cases h with
  | second h hc => rw [hc.1]; exact hg
  | first h hc => rw [hc.1]; exact hf
  | same h hc => rw [hc.1]; exact hf
  | masks a b h1 h2 h3 =>
    rw [h3.1]
    rintro _ ⟨⟩
    exact lt_of_le_of_lt Nat.and_le_left (hf a h1.1)
  | inverted a b h1 h2 h3 =>
    rw [h3.1]
    rintro _ ⟨⟩
    exact Nat.or_lt_two_pow (n := 4) (hf a h1.1) (hg b h2.1)

/-- **C114** Two runs of the converter, the second one on the output of the first, give the same file as one run with the
combined filter. -/
theorem C114_two_runs (fw : Nat) (hfw : 54 ≤ fw) (first second : TsArgs) (c : FilterArgs) (hc : Combined first.filter second.filter c)
    (files : Files) (raws : List (Nat × Nat)) (mid out : List Char) (hv : ∀ r ∈ raws, Valid r) (hrep : Representable first.inFmt raws)
    (hrep2 : Representable first.outFmt (filtered first.filter raws))
    (hin : files first.infile = some (fileOf first.inFmt first.legacyIn raws)) (hmid : first.outfile = some mid)
    (hout : second.outfile = some out) (hne : mid ≠ [] ∧ out ≠ [])
    (hdiff : first.infile ≠ mid ∧ mid ≠ out ∧ first.infile ≠ out) (hprint : first.print = false ∧ second.print = false)
    (hmem : first.inmemory = false ∧ second.inmemory = false)
    (hpat : (∀ p, first.filter.pattern = some p → p < 16) ∧ ∀ p, second.filter.pattern = some p → p < 16)
    (hs : Timed first.filter ∨ Timed second.filter → raws.Pairwise (fun x y => x.1 ≤ y.1) ∧ ∀ r ∈ raws, r.1 < 2 ^ 53)
    (hjoin : second.infile = mid ∧ second.inFmt = first.outFmt ∧ second.legacyIn = first.legacyOut) :
    (tsMain fw second (tsMain fw first files).files).files out =
      (tsMain fw { first with filter := c, outFmt := second.outFmt, legacyOut := second.legacyOut, outfile := some out } files).files out ∧
    (tsMain fw second (tsMain fw first files).files).err = none := by
  have hsub : ∀ r ∈ filtered first.filter raws, ∃ r' ∈ raws, r.1 = r'.1 := by
    intro r hr
    obtain ⟨x, hx, rfl⟩ := List.mem_map.mp hr
    exact ⟨x, List.mem_of_mem_filter hx, rfl⟩
  have hs2 : Timed second.filter → (filtered first.filter raws).Pairwise (fun x y => x.1 ≤ y.1) ∧ ∀ r ∈ filtered first.filter raws, r.1 < 2 ^ 53 := by
    intro ht
    obtain ⟨g1, g2⟩ := hs (Or.inr ht)
    refine ⟨?_, fun r hr => ?_⟩
    · unfold filtered
      rw [List.pairwise_map]
      exact g1.filter _
    · obtain ⟨r', h1, h2⟩ := hsub r hr
      rw [h2]
      exact g2 r' h1
  rw [C84_convert_stream_partial fw hfw first files raws mid hv hrep hin hmid hne.1 hdiff.1 hprint.1 hmem.1 hpat.1 (fun h => hs (Or.inl h))]
  rw [C84_convert_stream_partial fw hfw second _ (filtered first.filter raws) out (filtered_valid _ _ hv)
    (by rw [hjoin.2.1]; exact hrep2) (by rw [hjoin.1, hjoin.2.1, hjoin.2.2]; simp [Files.set]) hout hne.2
    (by rw [hjoin.1]; exact hdiff.2.1) hprint.2 hmem.2 hpat.2 hs2]
  rw [C84_convert_stream_partial fw hfw { first with filter := c, outFmt := second.outFmt, legacyOut := second.legacyOut, outfile := some out }
    files raws out hv hrep hin rfl hne.2 hdiff.2.2 hprint.1 hmem.1 (combined_pattern _ _ _ hc hpat.1 hpat.2)
    (fun h => hs ((combined_timed _ _ _ hc).mp h))]
  simp [Files.set, filtered_twice _ _ _ hc hpat.1 hpat.2 raws hv]

/-- **C114** (order): a run that looks at the detectors and a run that looks at the times may be exchanged. -/
theorem C114_exchange (fw : Nat) (hfw : 54 ≤ fw) (first second : TsArgs) (files : Files) (raws : List (Nat × Nat)) (mid out : List Char)
    (hv : ∀ r ∈ raws, Valid r) (hrep : Representable first.inFmt raws)
    (hrep2 : Representable first.outFmt (filtered first.filter raws)) (hrep3 : Representable first.outFmt (filtered second.filter raws))
    (hin : files first.infile = some (fileOf first.inFmt first.legacyIn raws)) (hmid : first.outfile = some mid)
    (hout : second.outfile = some out) (hne : mid ≠ [] ∧ out ≠ [])
    (hdiff : first.infile ≠ mid ∧ mid ≠ out ∧ first.infile ≠ out) (hprint : first.print = false ∧ second.print = false)
    (hmem : first.inmemory = false ∧ second.inmemory = false)
    (hpat : (∀ p, first.filter.pattern = some p → p < 16) ∧ ∀ p, second.filter.pattern = some p → p < 16)
    (hs : Timed first.filter ∨ Timed second.filter → raws.Pairwise (fun x y => x.1 ≤ y.1) ∧ ∀ r ∈ raws, r.1 < 2 ^ 53)
    (hjoin : second.infile = mid ∧ second.inFmt = first.outFmt ∧ second.legacyIn = first.legacyOut)
    (hone : first.filter.pattern = none ∨ second.filter.pattern = none) :
    (tsMain fw second (tsMain fw first files).files).files out =
      (tsMain fw { second with filter := first.filter } (tsMain fw { first with filter := second.filter } files).files).files out := by
  obtain ⟨c, h1, h2⟩ : ∃ c, Combined first.filter second.filter c ∧ Combined second.filter first.filter c := by
    have hl : laterStart first.filter.start second.filter.start = laterStart second.filter.start first.filter.start := by
      cases first.filter.start <;> cases second.filter.start <;> simp [laterStart, max_comm]
    have he : earlierStop first.filter.stop second.filter.stop = earlierStop second.filter.stop first.filter.stop := by
      cases first.filter.stop <;> cases second.filter.stop <;> simp [earlierStop, min_comm]
    rcases hone with h | h
    · exact ⟨⟨second.filter.pattern, second.filter.mask, second.filter.invert, laterStart first.filter.start second.filter.start,
        earlierStop first.filter.stop second.filter.stop⟩, ⟨.second h ⟨rfl, rfl, rfl⟩, rfl, rfl⟩, ⟨.first h ⟨rfl, rfl, rfl⟩, hl, he⟩⟩
    · exact ⟨⟨first.filter.pattern, first.filter.mask, first.filter.invert, laterStart first.filter.start second.filter.start,
        earlierStop first.filter.stop second.filter.stop⟩, ⟨.first h ⟨rfl, rfl, rfl⟩, rfl, rfl⟩, ⟨.second h ⟨rfl, rfl, rfl⟩, hl, he⟩⟩
  rw [(C114_two_runs fw hfw first second c h1 files raws mid out hv hrep hrep2 hin hmid hout hne hdiff hprint hmem hpat hs hjoin).1]
  rw [(C114_two_runs fw hfw { first with filter := second.filter } { second with filter := first.filter } c h2 files raws mid out hv hrep
    hrep3 hin hmid hout hne hdiff hprint hmem ⟨hpat.2, hpat.1⟩ (fun h => hs h.symm) hjoin).1]

/-- The run of the witness below: `infile` to `outfile` in format a1 with a pattern, as a mask or not. -/
def patternRun (infile outfile : List Char) (pattern : Nat) (mask : Bool) : TsArgs :=
  { infile := infile, outfile := some outfile, inFmt := .a1, outFmt := .a1, legacyIn := false, legacyOut := false, print := false,
    inmemory := false, filter := ⟨some pattern, mask, false, none, none⟩ }

/-- **C114** (limit): two pattern filters may not be exchanged in general. An event of the detectors 1 and 2 passes the mask 1
and is then an event of detector 1 alone; as it stands it is no such event. -/
theorem C114_order_matters (fw : Nat) (hfw : 54 ≤ fw) (files : Files)
    (hin : files ['i'] = some (fileOf .a1 false [(5, 3)])) :
    (tsMain fw (patternRun ['m'] ['o'] 1 false) (tsMain fw (patternRun ['i'] ['m'] 1 true) files).files).files ['o'] ≠
      (tsMain fw (patternRun ['m'] ['o'] 1 true) (tsMain fw (patternRun ['i'] ['m'] 1 false) files).files).files ['o'] := by
  have hrun : ∀ (fs : Files) (i o : List Char) (m : Bool) (raws : List (Nat × Nat)), (∀ r ∈ raws, Valid r) →
      fs i = some (fileOf .a1 false raws) → o ≠ [] → i ≠ o →
      (tsMain fw (patternRun i o 1 m) fs).files = Files.set fs o (fileOf .a1 false (filtered ⟨some 1, m, false, none, none⟩ raws)) := by
    intro fs i o m raws hv hi ho hd
    rw [C84_convert_stream_partial fw hfw (patternRun i o 1 m) fs raws o hv trivial hi rfl ho hd rfl rfl
      (by rintro _ ⟨⟩; norm_num) (by rintro (h | h) <;> exact absurd h (by simp [patternRun]))]
    rfl
  have hv : ∀ r ∈ [((5 : Nat), (3 : Nat))], Valid r := by unfold Valid; decide
  have e1 : filtered ⟨some 1, true, false, none, none⟩ [(5, 3)] = [(5, 1)] := by
    have h : passes ⟨some 1, true, false, none, none⟩ (5, 3) = true := by
      rw [passes_split, Bool.and_eq_true]; exact ⟨by decide, by simp [InWindow]⟩
    rw [filtered, List.filter_cons, if_pos h]; decide
  have e2 : filtered ⟨some 1, false, false, none, none⟩ [(5, 3)] = [] := by
    simp [filtered, passes, leftBits, InWindow, patKeep]
  have e3 : filtered ⟨some 1, false, false, none, none⟩ [(5, 1)] = [(5, 1)] := by
    have h : passes ⟨some 1, false, false, none, none⟩ (5, 1) = true := by
      rw [passes_split, Bool.and_eq_true]; exact ⟨by decide, by simp [InWindow]⟩
    rw [filtered, List.filter_cons, if_pos h]; decide
  have e4 : filtered ⟨some 1, true, false, none, none⟩ [] = [] := rfl
  rw [hrun _ ['i'] ['m'] true _ hv hin (by decide) (by decide), hrun _ ['i'] ['m'] false _ hv hin (by decide) (by decide), e1, e2]
  rw [hrun _ ['m'] ['o'] false [(5, 1)] (by unfold Valid; decide) (by simp [Files.set]) (by decide) (by decide),
    hrun _ ['m'] ['o'] true [] (by simp) (by simp [Files.set]) (by decide) (by decide), e3, e4]
  simp [Files.set]
  decide

/-- The hypotheses of C114 can be met: the detectors 1 and 2 from second 1 on, then detector 2 until second 2, is the window of
both for detector 2. -/
example : Combined ⟨some 3, true, false, some 1, none⟩ ⟨some 2, true, false, none, some 2⟩ ⟨some 2, true, false, some 1, some 2⟩ :=
  ⟨.masks 3 2 ⟨rfl, rfl, rfl⟩ ⟨rfl, rfl, rfl⟩ ⟨rfl, rfl, rfl⟩, rfl, rfl⟩

/-- Windows that overlap. -/
example : Combined ⟨none, false, false, some 1, some 5⟩ ⟨some 4, false, true, some 3, some 9⟩ ⟨some 4, false, true, some 3, some 5⟩ :=
  ⟨.second rfl ⟨rfl, rfl, rfl⟩, by norm_num [laterStart], by norm_num [earlierStop]⟩

end Fp
