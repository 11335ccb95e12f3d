import Verif.Lemmas.FreqcdRun

/-! # Properties of `freqcd`: C39-C44, C47-C51, C55 -/
namespace Fp
open Spec

/-! ## C44 -/

/-- **C44**: no access outside of a buffer. -/
theorem C44_no_fault (legacy : Bool) (rs : List Round) (s : FState) (fcorr : BitVec 32) (fo : Bool) (src fsrc : Bytes)
    (h : Initial s fcorr fo src fsrc) : ∃ s' stop, fRun legacy rs s = .ok (s', stop) := by
  obtain ⟨hw, ho, -⟩ := initial_wf h
  obtain ⟨s', h1, -⟩ := run_ok legacy rs hw ho
  exact ⟨s', _, h1⟩

/-! ## C39 -/

/-- **C39**: whatever the reads, one event is written for each complete event read, in the same order, with the same
detector and flag bits. -/
theorem C39_events (legacy : Bool) (rs : List Round) (s s' : FState) (fcorr : BitVec 32) (fo : Bool) (src fsrc : Bytes)
    (h : Initial s fcorr fo src fsrc) (stop : Option Stop) (hrun : fRun legacy rs s = .ok (s', stop))
    (h1 : stop ≠ some .freqError) (h2 : stop ≠ some .writeError) :
    ∃ n ≤ src.length, s'.src = src.drop n ∧ s'.out.length = 8 * (n / 8) ∧ flags legacy s'.out = flags legacy (src.take n) := by
  obtain ⟨hw, ho, hp, hout, -⟩ := initial_wf h
  have ha := run_abst hw ho hrun
  cases stop with
  | none =>
    obtain ⟨n, g1, g2, g3⟩ := flags_inv legacy src rs (abst s) hp hout _ ha
    refine ⟨n, g1.le, g1.src, g2, ?_⟩
    unfold flags
    rw [events_take _ _ g1.le]
    exact g3
  | some st =>
    obtain ⟨rs1, r, rs2, a1, -, e2, e3⟩ := aRun_split legacy rs _ _ st ha
    obtain ⟨n, g1, g2, g3⟩ := flags_inv legacy src rs1 (abst s) hp hout _ e2
    rcases aStep_stop legacy r src a1 _ n g1 st e3 with ⟨-, hq⟩ | ⟨hq, -⟩ | ⟨hq, -⟩
    · rw [← hq] at g1 g2 g3
      refine ⟨n, g1.le, g1.src, g2, ?_⟩
      unfold flags
      rw [events_take _ _ g1.le]
      exact g3
    · exact absurd (by rw [hq]) h1
    · exact absurd (by rw [hq]) h2

/-- **C39**, whenever and however the program ends: the detector and flag bits written are the first of those of the input. -/
theorem C39_prefix (legacy : Bool) (rs : List Round) (s s' : FState) (fcorr : BitVec 32) (fo : Bool) (src fsrc : Bytes)
    (h : Initial s fcorr fo src fsrc) (stop : Option Stop) (hrun : fRun legacy rs s = .ok (s', stop)) :
    flags legacy s'.out <+: flags legacy src := by
  obtain ⟨hw, ho, hp, hout, -⟩ := initial_wf h
  have ha := run_abst hw ho hrun
  have key : ∀ k n, (∀ b : Bytes, b.length = 8 * (n / 8) → (events b).map (evFlags legacy) = ((events src).take (n / 8)).map (evFlags legacy) →
      flags legacy (b.take k) <+: flags legacy src) := by
    intro k n b hb h3
    have h4 : flags legacy b <+: flags legacy src := by
      unfold flags
      rw [h3, List.map_take]
      exact List.take_prefix _ _
    refine List.IsPrefix.trans ?_ h4
    by_cases hk : k ≤ b.length
    · unfold flags
      rw [events_take _ _ hk, List.map_take]
      exact List.take_prefix _ _
    · rw [List.take_of_length_le (by omega)]
  cases stop with
  | none =>
    obtain ⟨n, g1, g2, g3⟩ := flags_inv legacy src rs (abst s) hp hout _ ha
    have := key (abst s').out.length n _ g2 g3
    rwa [List.take_length] at this
  | some st =>
    obtain ⟨rs1, r, rs2, a1, -, e2, e3⟩ := aRun_split legacy rs _ _ st ha
    obtain ⟨n, g1, g2, g3⟩ := flags_inv legacy src rs1 (abst s) hp hout _ e2
    have hold := key a1.out.length n _ g2 g3
    rw [List.take_length] at hold
    rcases aStep_stop legacy r src a1 _ n g1 st e3 with ⟨-, hq⟩ | ⟨-, hq, -⟩ | ⟨-, n', hn, hn', -, k, hq⟩
    · have : s'.out = a1.out := by rw [← hq]; rfl
      rwa [this]
    · have : s'.out = a1.out := hq
      rwa [this]
    · have hd := Nat.div_le_div_right (c := 8) hn
      have := key (a1.out.length + k) n' (a1.out ++ eBlock legacy a1.fcorr (between src n n') a1.e)
        (by rw [List.length_append, block_length, between_length _ _ _ hn', g2]; omega)
        (by rw [events_append _ _ _ g2, List.map_append, g3, block_flags, ← take_between src n n' hn, List.map_append])
      rw [List.take_length_add_append] at this
      have hq' : s'.out = a1.out ++ (eBlock legacy a1.fcorr (between src n n') a1.e).take k := hq
      rwa [hq']

/-- A run on 20 bytes (two and a half events) in reads of 9, 0 (end of the stream is only noticed later) and 7 bytes. -/
example : ∃ s s', Initial s 1000000 false [1, 4, 0, 0, 0, 0, 0, 0, 2, 8, 0, 0, 0, 0, 0, 1, 3, 3, 3, 3] [] ∧
    fRun false [rd 9, { selectOk := true, inRead := none, freqRead := none, write := some 0 }, rd 7] s = .ok (s', none) ∧
    flags false s'.out = [1, 2] ∧ times false s'.out ≠ times false [1, 4, 0, 0, 0, 0, 0, 0, 2, 8, 0, 0, 0, 0, 0, 1] := by
  obtain ⟨s', h1, h2, -⟩ := demo_run false [rd 9, { selectOk := true, inRead := none, freqRead := none, write := some 0 }, rd 7] 0 1000000 false
    [1, 4, 0, 0, 0, 0, 0, 0, 2, 8, 0, 0, 0, 0, 0, 1, 3, 3, 3, 3] [] _ _ _ none ⟨rfl, rfl, rfl, by decide +kernel⟩
  exact ⟨_, s', demo_initial 0 1000000 false _ [], h1, by rw [h2]; decide +kernel, by rw [h2]; decide +kernel⟩

/-! ## C40 -/

/-- **C40** (without short first reads, or if the uninitialised variable happens to be zero): with zero correction the output
is the input. -/
theorem C40_identity_partial (legacy : Bool) (rs : List Round) (s s' : FState) (fcorr : BitVec 32) (fo : Bool) (src fsrc : Bytes)
    (h : Initial s fcorr fo src fsrc) (stop : Option Stop) (hrun : fRun legacy rs s = .ok (s', stop))
    (h0 : Throughout legacy rs s fun s1 => s1.fcorr = 0)
    (hg : s.tscorr = 0 ∨ Throughout legacy rs s fun s1 => s1.out = [] → s1.src = src)
    (h1 : stop ≠ some .freqError) (h2 : stop ≠ some .writeError) :
    ∃ n ≤ src.length, s'.src = src.drop n ∧ s'.out = src.take (8 * (n / 8)) := by
  obtain ⟨hw, ho, hp, hout, -, -, -, hovf⟩ := initial_wf h
  have key : ∀ rs1, rs1 <+: rs → ∀ a', aRun legacy rs1 (abst s) = (a', none) →
      ∃ n, Pos src a' n ∧ a'.out = src.take (8 * (n / 8)) := by
    intro rs1 hpre a' ha
    have := clean_ind (legacy := legacy) (rs := rs1) (a0 := abst s) (src := src)
      (fun _ a n => a.out = src.take (8 * (n / 8)) ∧ ((n = 0 ∧ a.ovf = 0 ∧ a.tscorr = s.tscorr) ∨ (a.ovf = 0 ∧ a.tscorr = 0) ∨
        (0 < n ∧ n / 8 = 0 ∧ s.tscorr ≠ 0))) hp ⟨hout, Or.inl ⟨rfl, hovf, rfl⟩⟩ ?_ a' ha
    · obtain ⟨n, g1, g2, -⟩ := this
      exact ⟨n, g1, g2⟩
    · rintro rs2 r a a1 n hpre2 hr1 hr2 hpos ⟨i1, i2⟩ hst
      obtain ⟨s1, hs1, hs1'⟩ := run_of_abst hw ho hr1
      have hf : a.fcorr = 0 := by
        rw [← hs1']
        exact h0 rs2 r s1 (hpre2.trans hpre) hs1
      obtain ⟨-, -, -, -, -, ⟨g1, ge, g2⟩ | ⟨n', g1, -, g2, ge, g3⟩⟩ := aStep_clean legacy r src a a1 n hpos hst
      · refine ⟨n, g1, by rw [g2]; exact i1, ?_⟩
        have e1 : a1.ovf = a.ovf := congrArg EState.ovf ge
        have e2 : a1.tscorr = a.tscorr := congrArg EState.tscorr ge
        rw [e1, e2]
        exact i2
      · have hd := Nat.div_le_div_right (c := 8) g1.le
        have hle := g2.le
        rw [hf] at ge g3
        have hov : a.ovf = 0 := by
          rcases i2 with i | i | ⟨j1, j2, j3⟩
          · exact i.2.1
          · exact i.1
          · exfalso
            rcases hg with hg | hg
            · exact j3 hg
            · have hsrc : s1.out = [] → s1.src = src := hg rs2 r s1 (hpre2.trans hpre) hs1
              have e1 : s1.out = a.out := by rw [← hs1']; rfl
              have e2 : s1.src = a.src := by rw [← hs1']; rfl
              rw [e1, e2, i1, j2, hpos.src] at hsrc
              have := congrArg List.length (hsrc (by simp))
              rw [List.length_drop] at this
              omega
        refine ⟨n', g2, ?_, ?_⟩
        · have hb : eBlock legacy 0 (between src n n') a.e = (between src n n').flatMap id := by
            unfold eBlock
            rw [show a.e.ovf = 0 from hov]
            apply List.flatMap_congr
            intro ev hev
            exact evCorrect_zero _ _ _ (between_mem hev)
          rw [g3, hb, between_bytes _ _ _ g1.le hle, i1]
          conv_rhs => rw [← List.take_append_drop (8 * (n / 8)) (src.take (8 * (n' / 8)))]
          rw [List.take_take, min_eq_left (by omega)]
        · have e1 : a1.ovf = (eRead legacy 0 (between src n n') a.e).ovf := congrArg EState.ovf ge
          have e2 : a1.tscorr = (eRead legacy 0 (between src n n') a.e).tscorr := congrArg EState.tscorr ge
          have hbl := between_length src n n' hle
          rw [e1, e2]
          unfold eRead
          simp only [tsCorr_zero, show a.e.ovf = 0 from hov, show ∀ x : BitVec 64, 0 + x = x by simp]
          cases hl : (between src n n').getLast? with
          | some x => right; left; simp
          | none =>
            rw [List.getLast?_eq_none_iff] at hl
            rw [hl] at hbl
            simp only [List.length_nil] at hbl
            simp only [Option.map_none, Option.getD_none, and_self]
            by_cases hz : s.tscorr = 0
            · right; left
              rcases i2 with i | i | i
              · exact i.2.2.trans hz
              · exact i.2
              · exact absurd hz i.2.2
            · rcases i2 with i | i | i
              · right; right; exact ⟨by omega, by omega, hz⟩
              · right; left; exact i.2
              · right; right; exact ⟨by omega, by omega, hz⟩
  have ha := run_abst hw ho hrun
  cases stop with
  | none =>
    obtain ⟨n, g1, g2⟩ := key rs (List.prefix_refl _) _ ha
    exact ⟨n, g1.le, g1.src, g2⟩
  | some st =>
    obtain ⟨rs1, r, rs2, a1, e1, e2, e3⟩ := aRun_split legacy rs _ _ st ha
    obtain ⟨n, g1, g2⟩ := key rs1 (by rw [e1]; exact List.prefix_append _ _) _ e2
    rcases aStep_stop legacy r src a1 _ n g1 st e3 with ⟨-, hq⟩ | ⟨hq, -⟩ | ⟨hq, -⟩
    · rw [← hq] at g1 g2
      exact ⟨n, g1.le, g1.src, g2⟩
    · exact absurd (by rw [hq]) h1
    · exact absurd (by rw [hq]) h2

/-! ## C41 -/

/-- **C41**: the 64-bit computation of the correction is exact, and its intermediate product fits. -/
theorem C41_no_overflow (fcorr : BitVec 32) (tsref tsmeas : BitVec 64) (hle : tsref.toNat ≤ tsmeas.toNat)
    (hm : tsmeas.toNat < 2 ^ 54) (hf : |fcorr.toInt| < 2 ^ 21) :
    (tsCorr fcorr tsref tsmeas).toInt =
        ⌊(⌊((tsmeas.toNat : ℚ) - tsref.toNat) / 2 ^ 12⌋ * fcorr.toInt : ℚ) / 2 ^ 22⌋ ∧
    |(⌊((tsmeas.toNat : ℚ) - tsref.toNat) / 2 ^ 12⌋ * fcorr.toInt : ℤ)| < 2 ^ 63 := by
  have h1 : ⌊((tsmeas.toNat : ℚ) - tsref.toNat) / 2 ^ 12⌋ = ((tsmeas.toNat : ℤ) - tsref.toNat) / 2 ^ 12 := by
    have := floor_div ((tsmeas.toNat : ℤ) - tsref.toNat) (2 ^ 12)
    push_cast at this
    exact this
  rw [h1]
  constructor
  · rw [tsCorr_toInt _ _ _ hle hm hf]
    have := floor_div (((tsmeas.toNat : ℤ) - tsref.toNat) / 2 ^ 12 * fcorr.toInt) (2 ^ 22)
    rw [Int.cast_mul] at this
    rw [show ((2 : ℚ) ^ 22) = ((2 ^ 22 : ℕ) : ℚ) by norm_num, this]
    norm_num
  · rw [abs_mul]
    have hq : |((tsmeas.toNat : ℤ) - tsref.toNat) / 2 ^ 12| < 2 ^ 42 := by
      rw [abs_lt]
      constructor <;> omega
    calc _ ≤ 2 ^ 42 * |fcorr.toInt| := mul_le_mul_of_nonneg_right hq.le (abs_nonneg _)
      _ < 2 ^ 42 * 2 ^ 21 := mul_lt_mul_of_pos_left hf (by norm_num)
      _ = 2 ^ 63 := by norm_num

/-- The largest correction over the longest time, and a negative one. -/
example : (tsCorr 2097151 0 (2 ^ 54 - 1)).toInt = 2199022206975 ∧ (tsCorr (-2097151) 5 (2 ^ 54 - 1)).toInt = -2199022206976 := by
  decide +kernel

/-- **C41**, the corrected event: its time is the measured time plus the accumulated offset plus the (exact) correction,
modulo the 54-bit range. -/
theorem C41_corrected_time (legacy : Bool) (fcorr : BitVec 32) (tsref ovf : BitVec 64) (ev : Bytes) (h : ev.length = 8)
    (hle : tsref.toNat ≤ evTime legacy ev) (hf : |fcorr.toInt| < 2 ^ 21) :
    (evTime legacy (evCorrect legacy fcorr tsref ovf ev) : ℤ) =
      ((evTime legacy ev : ℤ) + ovf.toInt +
        ⌊(⌊((evTime legacy ev : ℚ) - tsref.toNat) / 2 ^ 12⌋ * fcorr.toInt : ℚ) / 2 ^ 22⌋) % 2 ^ 54 := by
  have hm := evMeas_toNat legacy ev h
  have hlt := evTime_lt legacy ev h
  have h1 := (C41_no_overflow fcorr tsref (evMeas legacy ev) (by omega) (by omega) hf).1
  have h2 := tsCorr_toInt fcorr tsref (evMeas legacy ev) (by omega) (by omega) hf
  rw [corrected_time _ _ _ _ _ h hle hf ovf.toInt (by rw [BitVec.ofInt_toInt])]
  rw [h1, hm] at h2
  rw [h2]
  unfold corrOf
  congr 1
  ring

/-! ## C42, C43 -/

/-- **C42** (for reads that complete an event): with a constant correction `f` every output time is within 3/2 units per read
of the ideal linear correction.  The offset is understood modulo the 54-bit range of the times. -/
theorem C42_approximation_partial (legacy : Bool) (rs : List Round) (s s' : FState) (f : BitVec 32) (fo : Bool) (src fsrc : Bytes)
    (h : Initial s f fo src fsrc) (stop : Option Stop) (hrun : fRun legacy rs s = .ok (s', stop))
    (hf : |f.toInt| < 2 ^ 21) (hconst : Throughout legacy rs s fun s1 => s1.fcorr = f)
    (hord : (times legacy src).Pairwise (· ≤ ·)) (hns : NoStall legacy rs s)
    (i : Nat) (o t t0 : ℕ) (hi : (times legacy s'.out)[i]? = some o) (hti : (times legacy src)[i]? = some t)
    (ht0 : (times legacy src).head? = some t0) :
    ∃ c : ℤ, (o : ℤ) = (t + c) % 2 ^ 54 ∧ |(c : ℚ) - ((t : ℚ) - t0) * f.toInt / 2 ^ 34| < (3 / 2 : ℚ) * (reads rs : ℚ) := by
  obtain ⟨us, h1, -, m, h2⟩ := ideal_run h hrun (fun g => g = f) (fun g hg => by rw [hg]; exact hf)
    (fun k c t => |(c : ℚ) - ((t : ℚ) - t0) * f.toInt / 2 ^ 34| ≤ (3 / 2 : ℚ) * (k : ℚ) ∧
      (0 < k → |(c : ℚ) - ((t : ℚ) - t0) * f.toInt / 2 ^ 34| < (3 / 2 : ℚ) * (k : ℚ))) t0
    (fun t ht => by rw [ht0, Option.some.injEq] at ht; exact ht.symm)
    (fun k => by
      simp only [Int.cast_zero, sub_self, zero_mul, zero_div, abs_zero]
      refine ⟨by positivity, fun hk => by positivity⟩)
    (by
      rintro g rfl k c r t hrt ⟨hg, -⟩
      have := corrOf_approx g.toInt ((t : ℤ) - r) hf
      have hsum : |((c + corrOf g.toInt ((t : ℤ) - r) : ℤ) : ℚ) - ((t : ℚ) - t0) * g.toInt / 2 ^ 34| < 3 / 2 * ((k + 1 : ℕ) : ℚ) := by
        have e : ((c + corrOf g.toInt ((t : ℤ) - r) : ℤ) : ℚ) - ((t : ℚ) - t0) * g.toInt / 2 ^ 34 =
            ((c : ℚ) - ((r : ℚ) - t0) * g.toInt / 2 ^ 34) + ((corrOf g.toInt ((t : ℤ) - r) : ℚ) - (((t : ℤ) - r : ℤ) : ℚ) * g.toInt / 2 ^ 34) := by
          push_cast
          ring
        rw [e]
        push_cast at this ⊢
        calc _ ≤ _ := abs_add_le _ _
          _ < 3 / 2 * (k : ℚ) + 3 / 2 := add_lt_add_of_le_of_lt hg this
          _ = _ := by ring
      exact ⟨hsum.le, fun _ => hsum⟩)
    (by
      rintro k c t ⟨hg, -⟩
      have : |(c : ℚ) - ((t : ℚ) - t0) * f.toInt / 2 ^ 34| < 3 / 2 * ((k + 1 : ℕ) : ℚ) := by
        push_cast
        linarith
      exact ⟨this.le, fun _ => this⟩) hord hconst hns
  have hlen := h2.length_eq
  have hil : i < us.length := by
    have := congrArg List.length h1
    rw [List.length_map, List.length_map] at this
    rw [← this]
    exact (List.getElem?_eq_some_iff.mp hi).1
  have hu : us[i]? = some us[i] := List.getElem?_eq_getElem hil
  have hou : (o : ℤ) = us[i] % 2 ^ 54 := by
    have := congrArg (fun l => l[i]?) h1
    simp only [List.getElem?_map, hi, hu, Option.map_some, Option.some.injEq] at this
    exact this
  have hm : i < m := by
    rw [List.length_take] at hlen
    omega
  have hti' : ((times legacy src).take m)[i]? = some t := by
    rw [List.getElem?_take, if_pos hm]
    exact hti
  obtain ⟨-, hall⟩ := List.forall₂_iff_get.mp h2
  have hil' : i < ((times legacy src).take m).length := (List.getElem?_eq_some_iff.mp hti').1
  have hg := hall i hil hil'
  have htt : ((times legacy src).take m).get ⟨i, hil'⟩ = t := (List.getElem?_eq_some_iff.mp hti').2
  rw [htt] at hg
  refine ⟨us[i] - t, ?_, ?_⟩
  · rw [hou]; congr 1; ring
  · apply hg.2.2
    exact hg.1

/-- **C43** (for reads that complete an event, corrections in range and times not at the very end of the 54-bit range): the
output is in chronological order if the input is. -/
theorem C43_order_partial (legacy : Bool) (rs : List Round) (s s' : FState) (fcorr : BitVec 32) (fo : Bool) (src fsrc : Bytes)
    (h : Initial s fcorr fo src fsrc) (stop : Option Stop) (hrun : fRun legacy rs s = .ok (s', stop))
    (hf : Throughout legacy rs s fun s1 => |s1.fcorr.toInt| < 2 ^ 21)
    (hord : (times legacy src).Pairwise (· ≤ ·)) (hns : NoStall legacy rs s)
    (hmax : ∀ t ∈ times legacy src, t ≤ 2 ^ 54 - 2 ^ 41) :
    (times legacy s'.out).Pairwise (· ≤ ·) := by
  obtain ⟨us, h1, h2, m, h3⟩ := ideal_run h hrun (fun g => |g.toInt| < 2 ^ 21) (fun g hg => hg)
    (fun _ c t => 2 ^ 13 * c ≤ (t : ℤ) - ((times legacy src).headD 0 : ℕ) ∧ (((times legacy src).headD 0 : ℕ) : ℤ) ≤ t + c) ((times legacy src).headD 0)
    (fun t ht => by rw [List.headD_eq_head?_getD, ht]; rfl)
    (fun k => by constructor <;> simp)
    (by
      rintro g hg k c r t hrt ⟨i1, i2⟩
      have a1 := corrOf_le g.toInt ((t : ℤ) - r) (by omega) hg
      have a2 := corrOf_mono g.toInt 0 ((t : ℤ) - r) (by omega) hg
      rw [corrOf_zero] at a2
      constructor
      · linarith
      · linarith)
    (fun k c t hh => hh) hord hf hns
  have hr : ∀ u ∈ us, 0 ≤ u ∧ u < 2 ^ 54 := by
    intro u hu
    obtain ⟨i, hi, rfl⟩ := List.getElem_of_mem hu
    obtain ⟨hl, hall⟩ := List.forall₂_iff_get.mp h3
    have hg := (hall i hi (by omega)).2
    have hm := hmax _ (List.mem_of_mem_take (List.getElem_mem (by omega : i < ((times legacy src).take m).length)))
    simp only [List.get_eq_getElem] at hg
    have h0 : (0 : ℤ) ≤ (((times legacy src).headD 0 : ℕ) : ℤ) := Int.natCast_nonneg _
    have hm' : ((((times legacy src).take m)[i]'(by omega) : ℕ) : ℤ) ≤ 2 ^ 54 - 2 ^ 41 := by
      have : (((2 ^ 54 - 2 ^ 41 : ℕ)) : ℤ) = 2 ^ 54 - 2 ^ 41 := by norm_num
      rw [← this]
      exact_mod_cast hm
    generalize ((((times legacy src).take m)[i]'(by omega) : ℕ) : ℤ) = t at *
    generalize (((times legacy src).headD 0 : ℕ) : ℤ) = t0 at *
    constructor
    · linarith [hg.2]
    · have := hg.1
      omega
  have h4 : (times legacy s'.out : List ℕ).map (fun x : ℕ => (x : ℤ)) = us := by
    rw [h1]
    conv_rhs => rw [← List.map_id us]
    apply List.map_congr_left
    intro u hu
    exact Int.emod_eq_of_lt (hr u hu).1 (hr u hu).2
  rw [← h4, List.pairwise_map] at h2
  exact h2.imp (fun hh => by exact_mod_cast hh)

/-! ## Runs of examples -/

/-- A run that meets the hypotheses of `C40_identity_partial`: no short first read, whatever the garbage. -/
example : ∃ s s', Initial s 0 false [1, 4, 0, 0, 0, 0, 0, 0, 2, 8, 0, 0, 0, 0, 0, 1] [] ∧ s.tscorr = 77 ∧
    Throughout true [rd 9, rd 100] s (fun s1 => s1.out = [] → s1.src = [1, 4, 0, 0, 0, 0, 0, 0, 2, 8, 0, 0, 0, 0, 0, 1]) ∧
    Throughout true [rd 9, rd 100] s (fun s1 => s1.fcorr = 0) ∧
    fRun true [rd 9, rd 100] s = .ok (s', none) ∧ s'.out = [1, 4, 0, 0, 0, 0, 0, 0, 2, 8, 0, 0, 0, 0, 0, 1] := by
  have hi := demo_initial 77 0 false [1, 4, 0, 0, 0, 0, 0, 0, 2, 8, 0, 0, 0, 0, 0, 1] []
  obtain ⟨s', h1, h2, -⟩ := demo_run true [rd 9, rd 100] 77 0 false [1, 4, 0, 0, 0, 0, 0, 0, 2, 8, 0, 0, 0, 0, 0, 1] []
    [1, 4, 0, 0, 0, 0, 0, 0, 2, 8, 0, 0, 0, 0, 0, 1] [] 0 none (by decide +kernel)
  obtain ⟨s1, h3, h4, h5, -⟩ := demo_run true [rd 9] 77 0 false [1, 4, 0, 0, 0, 0, 0, 0, 2, 8, 0, 0, 0, 0, 0, 1] []
    [1, 4, 0, 0, 0, 0, 0, 0] [8, 0, 0, 0, 0, 0, 1] 0 none (by decide +kernel)
  refine ⟨_, s', hi, rfl, ?_, closed_const hi, h1, h2⟩
  intro rs1 r s2 hpre hrun hout
  have hl := hpre.length_le
  match rs1, hpre, hrun, hl with
  | [], _, hrun, _ =>
    rw [fRun, Except.ok.injEq, Prod.mk.injEq] at hrun
    rw [← hrun.1]; rfl
  | [x], hpre, hrun, _ =>
    have hx : x = rd 9 := by
      obtain ⟨t, ht⟩ := hpre
      simp only [List.cons_append, List.cons.injEq] at ht
      exact ht.1
    rw [hx, h3, Except.ok.injEq, Prod.mk.injEq] at hrun
    rw [← hrun.1, h4] at hout
    simp at hout
  | _ :: _ :: _, _, _, hl => simp at hl

/-- **C40 fails**: if the first read delivers less than an event, garbage from an uninitialised variable is added to all times. -/
theorem C40_violated : ∃ (rs : List Round) (s s' : FState) (src : Bytes), Initial s 0 false src [] ∧
    Throughout false rs s (fun s1 => s1.fcorr = 0) ∧ fRun false rs s = .ok (s', none) ∧ s'.src = [] ∧ src.length = 8 ∧ s'.out ≠ src := by
  obtain ⟨s', h1, h2, h3, -⟩ := demo_run false [rd 4, rd 4] 1 0 false [0, 4, 0, 0, 0, 0, 0, 0] []
    [0, 8, 0, 0, 0, 0, 0, 0] [] 0 none (by decide +kernel)
  exact ⟨[rd 4, rd 4], _, s', _, demo_initial 1 0 false [0, 4, 0, 0, 0, 0, 0, 0] [], closed_const (demo_initial _ _ _ _ _),
    h1, h3, rfl, by rw [h2]; decide⟩

end Fp
