import Verif.Lemmas.FreqcdRuns

/-! # Properties of `freqcd`: examples for C42 and C43, C47-C51, C55 -/
namespace Fp
open Spec

/-- Hypotheses of `C42_approximation_partial` and `C43_order_partial`: two reads of two events each, cut in the middle of the third. -/
example : Initial (demo 5 2000000 false [0, 0, 0, 0, 0, 0, 0, 0, 0, 0, 0, 0, 0, 1, 0, 0, 0, 0, 0, 0, 0, 2, 0, 0, 0, 0, 0, 0, 0, 3, 0, 0] [])
      2000000 false [0, 0, 0, 0, 0, 0, 0, 0, 0, 0, 0, 0, 0, 1, 0, 0, 0, 0, 0, 0, 0, 2, 0, 0, 0, 0, 0, 0, 0, 3, 0, 0] [] ∧
    |(2000000 : BitVec 32).toInt| < 2 ^ 21 ∧
    NoStall false [rd 20, rd 20] (demo 5 2000000 false [0, 0, 0, 0, 0, 0, 0, 0, 0, 0, 0, 0, 0, 1, 0, 0, 0, 0, 0, 0, 0, 2, 0, 0, 0, 0, 0, 0, 0, 3, 0, 0] []) ∧
    (times false [0, 0, 0, 0, 0, 0, 0, 0, 0, 0, 0, 0, 0, 1, 0, 0, 0, 0, 0, 0, 0, 2, 0, 0, 0, 0, 0, 0, 0, 3, 0, 0]).Pairwise (· ≤ ·) ∧
    ∃ s', fRun false [rd 20, rd 20] (demo 5 2000000 false [0, 0, 0, 0, 0, 0, 0, 0, 0, 0, 0, 0, 0, 1, 0, 0, 0, 0, 0, 0, 0, 2, 0, 0, 0, 0, 0, 0, 0, 3, 0, 0] []) =
      .ok (s', none) ∧ times false s'.out = [0, 1073866824, 2147733648, 3221600472] := by
  refine ⟨demo_initial _ _ _ _ _, by decide +kernel, demo_noStall (by decide +kernel), by decide +kernel, ?_⟩
  obtain ⟨s', h1, h2, -⟩ := demo_run false [rd 20, rd 20] 5 2000000 false
    [0, 0, 0, 0, 0, 0, 0, 0, 0, 0, 0, 0, 0, 1, 0, 0, 0, 0, 0, 0, 0, 2, 0, 0, 0, 0, 0, 0, 0, 3, 0, 0] [] _ _ _ none ⟨rfl, rfl, rfl, by decide +kernel⟩
  exact ⟨s', h1, by rw [h2]; decide +kernel⟩

/-- **C42 fails** with reads that do not complete an event: here 2^26 units in three reads. -/
theorem C42_violated : ∃ (rs : List Round) (s s' : FState) (f : BitVec 32) (src : Bytes) (o t t0 : ℕ), Initial s f false src [] ∧
    |f.toInt| < 2 ^ 21 ∧ Throughout false rs s (fun s1 => s1.fcorr = f) ∧ (times false src).Pairwise (· ≤ ·) ∧
    fRun false rs s = .ok (s', none) ∧ (times false s'.out)[2]? = some o ∧ (times false src)[2]? = some t ∧ (times false src).head? = some t0 ∧
    ∀ c : ℤ, (o : ℤ) = (t + c) % 2 ^ 54 → (2 : ℚ) ^ 24 * (reads rs : ℚ) ≤ |(c : ℚ) - ((t : ℚ) - t0) * f.toInt / 2 ^ 34| := by
  obtain ⟨s', h1, h2, -⟩ := demo_run false [rd 16, rd 4, rd 4] 0 (-2 ^ 20) false
    [0, 0, 0, 0, 0, 0, 0, 0, 0, 0, 0, 0, 0, 0, 4, 0, 0, 4, 0, 0, 0, 0, 4, 0] [] _ _ _ none ⟨rfl, rfl, rfl, by decide +kernel⟩
  refine ⟨[rd 16, rd 4, rd 4], _, s', -2 ^ 20, [0, 0, 0, 0, 0, 0, 0, 0, 0, 0, 0, 0, 0, 0, 4, 0, 0, 4, 0, 0, 0, 0, 4, 0], 2 ^ 40 + 1 - 2 ^ 27, 2 ^ 40 + 1, 0,
    demo_initial 0 _ _ _ _, by decide +kernel, closed_const (demo_initial _ _ _ _ _), by decide +kernel, h1, by rw [h2]; decide +kernel, by decide +kernel, by decide +kernel, ?_⟩
  intro c hc
  have hr : (reads [rd 16, rd 4, rd 4] : ℚ) = 3 := by
    rw [show reads [rd 16, rd 4, rd 4] = 3 by decide]; norm_num
  have hfi : (((-2 ^ 20 : BitVec 32).toInt : ℤ) : ℚ) = -2 ^ 20 := by
    rw [show (-2 ^ 20 : BitVec 32).toInt = -2 ^ 20 by decide +kernel]; norm_num
  rw [hr, hfi]
  by_contra hlt
  rw [not_le, abs_lt] at hlt
  push_cast at hc hlt
  have b1 : c < 0 := by
    have : (c : ℚ) < 0 := by linarith [hlt.2]
    exact_mod_cast this
  have b2 : -2 ^ 27 < c := by
    have : (-2 ^ 27 : ℚ) < (c : ℚ) := by linarith [hlt.1]
    exact_mod_cast this
  norm_num at hc b2
  omega

/-- **C43 fails** with reads that do not complete an event. -/
theorem C43_violated : ∃ (rs : List Round) (s s' : FState) (f : BitVec 32) (src : Bytes), Initial s f false src [] ∧
    |f.toInt| < 2 ^ 21 ∧ Throughout false rs s (fun s1 => s1.fcorr = f) ∧ (times false src).Pairwise (· ≤ ·) ∧
    (∀ t ∈ times false src, t ≤ 2 ^ 17) ∧
    fRun false rs s = .ok (s', none) ∧ ¬ (times false s'.out).Pairwise (· ≤ ·) := by
  obtain ⟨s', h1, h2, -⟩ := demo_run false [rd 16, rd 4, rd 4] 0 (-2 ^ 20) false
    [0, 0, 0, 0, 0, 0, 0, 0, 0, 0, 0, 4, 0, 0, 0, 0, 0, 4, 0, 4, 0, 0, 0, 0] [] _ _ _ none ⟨rfl, rfl, rfl, by decide +kernel⟩
  exact ⟨[rd 16, rd 4, rd 4], _, s', -2 ^ 20, [0, 0, 0, 0, 0, 0, 0, 0, 0, 0, 0, 4, 0, 0, 0, 0, 0, 4, 0, 4, 0, 0, 0, 0],
    demo_initial 0 _ _ _ _, by decide +kernel, closed_const (demo_initial _ _ _ _ _), by decide +kernel, by decide +kernel, h1, by rw [h2]; decide +kernel⟩

/-- **C43 fails** at the end of the range: a corrected time beyond 2^54 wraps around although the input does not. -/
theorem C43_violated_at_end : ∃ (rs : List Round) (s s' : FState) (f : BitVec 32) (src : Bytes), Initial s f false src [] ∧
    |f.toInt| < 2 ^ 21 ∧ Throughout false rs s (fun s1 => s1.fcorr = f) ∧ NoStall false rs s ∧ (times false src).Pairwise (· ≤ ·) ∧
    fRun false rs s = .ok (s', none) ∧ ¬ (times false s'.out).Pairwise (· ≤ ·) := by
  obtain ⟨s', h1, h2, -⟩ := demo_run false [rd 16] 0 1000 false
    [0, 0, 0, 0, 0, 0, 0, 128, 0, 255, 255, 255, 255, 255, 255, 255] [] _ _ _ none ⟨rfl, rfl, rfl, by decide +kernel⟩
  exact ⟨[rd 16], _, s', 1000, [0, 0, 0, 0, 0, 0, 0, 128, 0, 255, 255, 255, 255, 255, 255, 255],
    demo_initial 0 _ _ _ _, by decide +kernel, closed_const (demo_initial _ _ _ _ _), demo_noStall (by decide +kernel), by decide +kernel, h1, by rw [h2]; decide +kernel⟩

/-! ## C48 -/

/-- **C48**: killed at any moment, the program has written whole events, and a prefix of what it would have written. -/
theorem C48_killed (legacy : Bool) (rs rs' : List Round) (s s1 s2 : FState) (fcorr : BitVec 32) (fo : Bool) (src fsrc : Bytes)
    (h : Initial s fcorr fo src fsrc) (h1 : fRun legacy rs s = .ok (s1, none)) (st : Option Stop)
    (h2 : fRun legacy (rs ++ rs') s = .ok (s2, st)) : s1.out <+: s2.out ∧ 8 ∣ s1.out.length := by
  obtain ⟨hw, ho, hp, hout, -⟩ := initial_wf h
  have a1 := run_abst hw ho h1
  have a2 := run_abst hw ho h2
  rw [aRun_append _ _ _ _ _ a1] at a2
  have hm := aRun_mono legacy rs' (abst s1)
  rw [a2] at hm
  obtain ⟨n, -, g2, -⟩ := flags_inv legacy src rs (abst s) hp hout _ a1
  exact ⟨hm, ⟨n / 8, g2⟩⟩

/-- **C48**: stopped by the end of the input or by an error other than of writing, in the pass `r`, the program has written
whole events, and a prefix of what it would have written had that pass gone differently. -/
theorem C48_stopped (legacy : Bool) (rs : List Round) (s s1 : FState) (fcorr : BitVec 32) (fo : Bool) (src fsrc : Bytes)
    (h : Initial s fcorr fo src fsrc) (st : Stop) (h1 : fRun legacy rs s = .ok (s1, some st)) (hst : st ≠ .writeError) :
    8 ∣ s1.out.length ∧ ∃ rs1 r rs2, rs = rs1 ++ r :: rs2 ∧
      ∀ r' rs' s2 st', fRun legacy (rs1 ++ r' :: rs') s = .ok (s2, st') → s1.out <+: s2.out := by
  obtain ⟨hw, ho, hp, hout, -⟩ := initial_wf h
  have a1 := run_abst hw ho h1
  obtain ⟨rs1, r, rs2, a, e1, e2, e3⟩ := aRun_split legacy rs _ _ st a1
  have hq : (abst s1).out = a.out := by
    have := aStep_out_eq legacy r a (by rw [e3]; simpa using hst) (by rw [e3]; simp)
    rwa [e3] at this
  obtain ⟨n, -, g2, -⟩ := flags_inv legacy src rs1 (abst s) hp hout _ e2
  refine ⟨⟨n / 8, by rw [← g2, ← hq]; rfl⟩, rs1, r, rs2, e1, ?_⟩
  intro r' rs' s2 st' h2
  have a2 := run_abst hw ho h2
  rw [aRun_append _ _ _ _ _ e2] at a2
  have hm := aRun_mono legacy (r' :: rs') a
  rw [a2, ← hq] at hm
  exact hm

/-- **C48**: stopped by an error of writing in the pass `r`, the program has written a prefix of what it would have written had
that write accepted more; if nothing was accepted, whole events have been written. -/
theorem C48_write_error (legacy : Bool) (rs : List Round) (s s1 : FState) (fcorr : BitVec 32) (fo : Bool) (src fsrc : Bytes)
    (h : Initial s fcorr fo src fsrc) (h1 : fRun legacy rs s = .ok (s1, some .writeError)) :
    ∃ rs1 r rs2, rs = rs1 ++ r :: rs2 ∧ (r.write = none → 8 ∣ s1.out.length) ∧
      ∀ k' rs' s2 st', (∀ k, r.write = some k → k ≤ k') → fRun legacy (rs1 ++ { r with write := some k' } :: rs') s = .ok (s2, st') →
        s1.out <+: s2.out := by
  obtain ⟨hw, ho, hp, hout, -⟩ := initial_wf h
  have a1 := run_abst hw ho h1
  obtain ⟨rs1, r, rs2, a, e1, e2, e3⟩ := aRun_split legacy rs _ _ _ a1
  obtain ⟨n, gp, g2, -⟩ := flags_inv legacy src rs1 (abst s) hp hout _ e2
  -- the failing pass got as far as writing
  have hpass : ∃ block b, b.out = a.out ∧ aWrite r.write block b = (abst s1, some .writeError) ∧
      ∀ k', aStep legacy { r with write := some k' } a = aWrite (some k') block b := by
    have hc := aStep_stop legacy r src a _ n gp _ e3
    have hnw : ∀ x, Stop.writeError = x → x ≠ .selectError ∧ x ≠ .inputClosed ∧ x ≠ .inputError ∧ x ≠ .freqError := by
      rintro x rfl; decide
    have hnf : ∀ (q) (b : AState), (aFreq q b).2 = none ∨ (aFreq q b).2 = some .freqError := by
      intro q b
      unfold aFreq
      split
      · exact Or.inl rfl
      · split
        · exact Or.inl rfl
        · exact Or.inr rfl
        · simp only; split <;> exact Or.inl rfl
    have hni : (aInput legacy r.inRead a).2.2 ≠ some .writeError := by
      unfold aInput
      split
      · simp
      · simp
      · simp only; split <;> simp
    unfold aStep at e3
    split at e3
    · simp at e3
    · rename_i h0
      simp only at e3
      split at e3
      · exact absurd (congrArg Prod.snd e3) hni
      · rename_i h1
        split at e3
        · rcases hnf r.freqRead (aInput legacy r.inRead a).1 with hh | hh
          · rename_i h2; exact absurd hh h2
          · rw [e3] at hh; simp at hh
        · rename_i h2
          refine ⟨(aInput legacy r.inRead a).2.1, (aFreq r.freqRead (aInput legacy r.inRead a).1).1, ?_, e3, ?_⟩
          · rw [aFreq_out, aInput_out]
          · intro k'
            unfold aStep
            simp only
            rw [if_neg h0, if_neg h1, if_neg h2]
  obtain ⟨block, b, hb1, hb2, hb3⟩ := hpass
  refine ⟨rs1, r, rs2, e1, ?_, ?_⟩
  · intro hn
    rw [hn] at hb2
    unfold aWrite at hb2
    simp only [Prod.mk.injEq, and_true] at hb2
    have : s1.out = a.out := by rw [← hb1, hb2]; rfl
    rw [this]
    exact ⟨n / 8, g2⟩
  · intro k' rs' s2 st' hk h2
    have a2 := run_abst hw ho h2
    rw [aRun_append _ _ _ _ _ e2] at a2
    have hstep : (abst s1).out <+: (aStep legacy { r with write := some k' } a).1.out := by
      rw [hb3]
      cases hr : r.write with
      | none =>
        rw [hr] at hb2
        unfold aWrite at hb2 ⊢
        simp only [Prod.mk.injEq, and_true] at hb2
        rw [← hb2]
        exact List.prefix_append _ _
      | some k =>
        rw [hr] at hb2
        unfold aWrite at hb2 ⊢
        simp only [Prod.mk.injEq] at hb2
        rw [← hb2.1]
        simp only
        rw [List.prefix_append_right_inj]
        exact List.take_prefix_take_left (hk k hr)
    have hrun : (aStep legacy { r with write := some k' } a).1.out <+: (aRun legacy ({ r with write := some k' } :: rs') a).1.out := by
      rw [aRun]
      split
      · exact List.prefix_refl _
      · exact aRun_mono _ _ _
    rw [a2] at hrun
    exact hstep.trans hrun

/-- A short write of 11 of 16 bytes stops the program. -/
example : ∃ s s', Initial s 0 false [1, 4, 0, 0, 0, 0, 0, 0, 2, 8, 0, 0, 0, 0, 0, 1] [] ∧
    fRun false [{ selectOk := true, inRead := some (some 100), freqRead := none, write := some 11 }] s = .ok (s', some .writeError) ∧
    s'.out = [1, 4, 0, 0, 0, 0, 0, 0, 2, 8, 0] := by
  obtain ⟨s', h1, h2, -⟩ := demo_run false [{ selectOk := true, inRead := some (some 100), freqRead := none, write := some 11 }] 0 0 false
    [1, 4, 0, 0, 0, 0, 0, 0, 2, 8, 0, 0, 0, 0, 0, 1] [] _ _ _ (some .writeError) ⟨rfl, rfl, rfl, by decide +kernel⟩
  exact ⟨_, s', demo_initial 0 0 false _ [], h1, by rw [h2]; decide +kernel⟩

/-! ## C47 -/

/-- **C47**: legacy mode is the program on word-swapped data: same answers of the kernel, word-swapped input, and the program
stops in the same way with word-swapped output. -/
theorem C47_legacy (rs : List Round) (inbuf outbuf freqbuf : Bytes) (tsmeas tscorr : BitVec 64) (fcorr : BitVec 32) (fo : Bool)
    (src fsrc : Bytes) (h1 : inbuf.length = 8192) (h2 : outbuf.length = 8192) (h3 : freqbuf.length = 100) (s1 : FState) (stop : Option Stop)
    (hrun : fRun false rs (fInit inbuf outbuf freqbuf tsmeas tscorr fcorr fo src fsrc) = .ok (s1, stop)) :
    ∃ s2, fRun true rs (fInit inbuf outbuf freqbuf tsmeas tscorr fcorr fo (swapWords src) fsrc) = .ok (s2, stop) ∧
      s2.out.length = s1.out.length ∧ events s2.out = (events s1.out).map swapEvent ∧
      (stop ≠ some .writeError → s2.out = swapWords s1.out) := by
  have hi1 : Initial (fInit inbuf outbuf freqbuf tsmeas tscorr fcorr fo src fsrc) fcorr fo src fsrc := ⟨_, _, _, _, _, h1, h2, h3, rfl⟩
  have hi2 : Initial (fInit inbuf outbuf freqbuf tsmeas tscorr fcorr fo (swapWords src) fsrc) fcorr fo (swapWords src) fsrc :=
    ⟨_, _, _, _, _, h1, h2, h3, rfl⟩
  obtain ⟨hw1, ho1, hp1, hout1, -⟩ := initial_wf hi1
  obtain ⟨hw2, ho2, hp2, -⟩ := initial_wf hi2
  have a1 := run_abst hw1 ho1 hrun
  have hsw : Swapped src (abst (fInit inbuf outbuf freqbuf tsmeas tscorr fcorr fo src fsrc))
      (abst (fInit inbuf outbuf freqbuf tsmeas tscorr fcorr fo (swapWords src) fsrc)) :=
    ⟨0, hp1, hp2, rfl, rfl, rfl, rfl, rfl⟩
  obtain ⟨g1, g2⟩ := aRun_swap rs hsw swappedOut_nil (by
    intro n hn
    have e1 := hp1.src
    rw [hn.src] at e1
    have := congrArg List.length e1
    rw [List.length_drop, List.length_drop] at this
    have := hn.le
    have : n = 0 := by omega
    subst this
    rfl)
  rw [a1] at g1 g2
  obtain ⟨s2, r1, r2⟩ := run_ok true rs hw2 ho2
  rw [g1] at r1
  have hq : s2.out = (aRun true rs (abst (fInit inbuf outbuf freqbuf tsmeas tscorr fcorr fo (swapWords src) fsrc))).1.out := by
    rw [← r2]; rfl
  rw [← hq] at g2
  replace g2 : SwappedOut s1.out s2.out := g2
  refine ⟨s2, r1, g2.1, g2.2, ?_⟩
  intro hne
  have h8 : 8 ∣ s1.out.length := by
    cases stop with
    | none =>
      obtain ⟨n, -, g, -⟩ := flags_inv false src rs _ hp1 hout1 _ a1
      exact ⟨n / 8, g⟩
    | some st =>
      obtain ⟨rs1, r, rs2, a, e1, e2, e3⟩ := aRun_split false rs _ _ st a1
      have hq : (abst s1).out = a.out := by
        have := aStep_out_eq false r a (by rw [e3]; simpa using hne) (by rw [e3]; simp)
        rwa [e3] at this
      obtain ⟨n, -, g, -⟩ := flags_inv false src rs1 _ hp1 hout1 _ e2
      exact ⟨n / 8, by rw [← g, ← hq]; rfl⟩
  obtain ⟨k, hk⟩ := h8
  unfold swapWords
  have hf := flatMap_events s2.out k (by rw [g2.1, hk])
  rw [← hf, g2.2, List.flatMap_map]
  rw [show s1.out.drop (8 * (s1.out.length / 8)) = [] from List.drop_eq_nil_of_le (by omega), List.append_nil]
  rfl

/-- Word-swapped data. -/
example : swapWords [1, 2, 3, 4, 5, 6, 7, 8, 9] = [5, 6, 7, 8, 1, 2, 3, 4, 9] := by decide

end Fp
