import Verif.Lemmas.FreqcdFaults

/-! # Properties of `freqcd`: C49-C51, C55 -/
namespace Fp
open Spec

/-! ## C49 -/

/-- **C49 fails**: the same data with the last event split over two reads is corrected differently. -/
theorem C49_violated : ∃ (s s1 s2 : FState) (f : BitVec 32) (src : Bytes), Initial s f false src [] ∧ |f.toInt| < 2 ^ 21 ∧
    fRun false [rd 16, rd 8] s = .ok (s1, none) ∧ fRun false [rd 16, rd 4, rd 4] s = .ok (s2, none) ∧ s1.src = [] ∧ s2.src = [] ∧
    times false s1.out = [0, 65532, 65533] ∧ times false s2.out = [0, 65532, 65529] := by
  obtain ⟨s1, h1, h2, h3, -⟩ := demo_run false [rd 16, rd 8] 0 (-2 ^ 20) false
    [0, 0, 0, 0, 0, 0, 0, 0, 0, 0, 0, 4, 0, 0, 0, 0, 0, 4, 0, 4, 0, 0, 0, 0] [] _ _ _ none ⟨rfl, rfl, rfl, by decide +kernel⟩
  obtain ⟨s2, g1, g2, g3, -⟩ := demo_run false [rd 16, rd 4, rd 4] 0 (-2 ^ 20) false
    [0, 0, 0, 0, 0, 0, 0, 0, 0, 0, 0, 4, 0, 0, 0, 0, 0, 4, 0, 4, 0, 0, 0, 0] [] _ _ _ none ⟨rfl, rfl, rfl, by decide +kernel⟩
  exact ⟨_, s1, s2, -2 ^ 20, [0, 0, 0, 0, 0, 0, 0, 0, 0, 0, 0, 4, 0, 0, 0, 0, 0, 4, 0, 4, 0, 0, 0, 0], demo_initial 0 _ _ _ _, by decide +kernel,
    h1, g1, by rw [h3]; decide +kernel, by rw [g3]; decide +kernel, by rw [h2]; decide +kernel, by rw [g2]; decide +kernel⟩

/-- **C49 fails**, in general: any read that delivers data but completes no event adds the last correction once more to the
offset of all later events. -/
theorem C49_stale (legacy : Bool) (rs : List Round) (r : Round) (s s1 s2 : FState) (fcorr : BitVec 32) (fo : Bool) (src fsrc : Bytes)
    (h : Initial s fcorr fo src fsrc) (h1 : fRun legacy rs s = .ok (s1, none)) (h2 : fRun legacy (rs ++ [r]) s = .ok (s2, none))
    (hread : s2.src ≠ s1.src) (hout : s2.out = s1.out) :
    s2.ovf = s1.ovf + s1.tscorr ∧ s2.tscorr = s1.tscorr ∧ s2.tsref = s1.tsmeas ∧ s2.tsmeas = s1.tsmeas := by
  obtain ⟨hw, ho, hp, -⟩ := initial_wf h
  have a1 := run_abst hw ho h1
  have a2 := run_abst hw ho h2
  obtain ⟨a, e1, e2⟩ := aRun_concat _ _ _ _ _ a2
  rw [a1, Prod.mk.injEq] at e1
  obtain ⟨e1, -⟩ := e1
  subst e1
  obtain ⟨n, hpos, -⟩ := clean_ind (legacy := legacy) (rs := rs) (src := src) (fun _ _ _ => True) hp trivial (by
    rintro rs2 r a a1 n - - - hpos - hst
    obtain ⟨-, -, -, -, -, ⟨g, -⟩ | ⟨n', -, -, g, -⟩⟩ := aStep_clean legacy r src a a1 n hpos hst
    · exact ⟨n, g, trivial⟩
    · exact ⟨n', g, trivial⟩) _ a1
  obtain ⟨-, -, -, -, -, ⟨g1, -⟩ | ⟨n', -, -, -, g4, g5⟩⟩ := aStep_clean legacy r src _ _ n hpos e2
  · exact absurd (g1.src.trans hpos.src.symm) hread
  · have hb : between src n n' = [] := by
      apply block_nil (legacy := legacy) (fc := (abst s1).fcorr) (e := (abst s1).e)
      have : (abst s2).out = (abst s1).out := hout
      rw [this] at g5
      exact (List.self_eq_append_right.mp g5)
    rw [hb] at g4
    refine ⟨?_, ?_, ?_, ?_⟩
    · exact congrArg EState.ovf g4
    · exact congrArg EState.tscorr g4
    · exact congrArg EState.tsref g4
    · exact congrArg EState.tsmeas g4

/-- **C49** (for schedules without reads that complete no event): the output depends on the reads only through the number of
events complete after each read, not on how many bytes of the next event they deliver. -/
theorem C49_split_partial (legacy : Bool) (rs rs' : List Round) (s s1 s2 : FState) (fcorr : BitVec 32) (fo : Bool) (src fsrc : Bytes)
    (h : Initial s fcorr fo src fsrc) (h1 : fRun legacy rs s = .ok (s1, none)) (h2 : fRun legacy rs' s = .ok (s2, none))
    (hlen : rs.length = rs'.length)
    (hfreq : ∀ (i : Nat) r r', rs[i]? = some r → rs'[i]? = some r' → r.freqRead = r'.freqRead)
    (hcount : ∀ (i : Nat) x y, fRun legacy (rs.take i) s = .ok (x, none) → fRun legacy (rs'.take i) s = .ok (y, none) →
      x.out.length = y.out.length)
    (hn1 : NoStall legacy rs s) (hn2 : NoStall legacy rs' s) : s1.out = s2.out := by
  obtain ⟨hw, ho, hp, hout, -⟩ := initial_wf h
  have A1 := run_abst hw ho h1
  have A2 := run_abst hw ho h2
  have hpre : ∀ (l : List Round) (a' : AState), aRun legacy l (abst s) = (a', none) → ∀ i, ∃ a, aRun legacy (l.take i) (abst s) = (a, none) := by
    intro l
    induction l using List.reverseRecOn with
    | nil => intro a' ha i; exact ⟨_, by rw [List.take_nil]; exact ha⟩
    | append_singleton l r ih =>
      intro a' ha i
      obtain ⟨a1, e1, -⟩ := aRun_concat _ _ _ _ _ ha
      rcases Nat.lt_or_ge l.length i with hi | hi
      · exact ⟨a', by rw [List.take_of_length_le (by simp; omega)]; exact ha⟩
      · rw [List.take_append_of_le_length hi]
        exact ih a1 e1 i
  have key : ∀ (i : Nat), i ≤ rs.length → ∃ a b n m, aRun legacy (rs.take i) (abst s) = (a, none) ∧ aRun legacy (rs'.take i) (abst s) = (b, none) ∧
      Pos src a n ∧ Pos src b m ∧ n / 8 = m / 8 ∧ a.e = b.e ∧ a.out = b.out ∧ a.out.length = 8 * (n / 8) ∧ a.fcorr = b.fcorr ∧
      a.freqOpen = b.freqOpen ∧ a.fpend = b.fpend ∧ a.freqSrc = b.freqSrc := by
    intro i
    induction i with
    | zero =>
      intro _
      refine ⟨abst s, abst s, 0, 0, rfl, rfl, hp, hp, rfl, rfl, rfl, ?_, rfl, rfl, rfl, rfl⟩
      rw [show (abst s).out = [] from hout]; rfl
    | succ i ih =>
      intro hi
      obtain ⟨a, b, n, m, r1, r2, p1, p2, d, e, o, ol, f1, f2, f3, f4⟩ := ih (by omega)
      obtain ⟨a', r1'⟩ := hpre rs _ A1 (i + 1)
      obtain ⟨b', r2'⟩ := hpre rs' _ A2 (i + 1)
      obtain ⟨x, hx⟩ : ∃ x, rs[i]? = some x := ⟨_, List.getElem?_eq_getElem (by omega)⟩
      obtain ⟨y, hy⟩ : ∃ y, rs'[i]? = some y := ⟨_, List.getElem?_eq_getElem (by omega)⟩
      have t1 : rs.take (i + 1) = rs.take i ++ [x] := by rw [List.take_add_one, hx]; rfl
      have t2 : rs'.take (i + 1) = rs'.take i ++ [y] := by rw [List.take_add_one, hy]; rfl
      have st1 : aStep legacy x a = (a', none) := by
        rw [t1] at r1'
        obtain ⟨c, c1, c2⟩ := aRun_concat _ _ _ _ _ r1'
        rw [r1, Prod.mk.injEq] at c1
        rw [c1.1]; exact c2
      have st2 : aStep legacy y b = (b', none) := by
        rw [t2] at r2'
        obtain ⟨c, c1, c2⟩ := aRun_concat _ _ _ _ _ r2'
        rw [r2, Prod.mk.injEq] at c1
        rw [c1.1]; exact c2
      obtain ⟨x1, X1, X1'⟩ := run_of_abst hw ho r1
      obtain ⟨x2, X2, X2'⟩ := run_of_abst hw ho r1'
      obtain ⟨y1, Y1, Y1'⟩ := run_of_abst hw ho r2
      obtain ⟨y2, Y2, Y2'⟩ := run_of_abst hw ho r2'
      have hcnt : a'.out.length = b'.out.length := by
        rw [← X2', ← Y2']; exact hcount (i + 1) x2 y2 X2 Y2
      have ns1 : a'.src ≠ a.src → a'.out ≠ a.out := by
        rw [← X1', ← X2']
        exact hn1 (rs.take i) x x1 x2 (by rw [← t1]; exact List.take_prefix _ _) X1 (by rw [← t1]; exact X2)
      have ns2 : b'.src ≠ b.src → b'.out ≠ b.out := by
        rw [← Y1', ← Y2']
        exact hn2 (rs'.take i) y y1 y2 (by rw [← t2]; exact List.take_prefix _ _) Y1 (by rw [← t2]; exact Y2)
      obtain ⟨u1, u2, u3, u4, -, u5⟩ := aStep_clean legacy x src a a' n p1 st1
      obtain ⟨v1, v2, v3, v4, -, v5⟩ := aStep_clean legacy y src b b' m p2 st2
      have hfr : x.freqRead = y.freqRead := hfreq i x y hx hy
      have hF : (aFreq x.freqRead a).1.fcorr = (aFreq y.freqRead b).1.fcorr ∧ (aFreq x.freqRead a).1.freqOpen = (aFreq y.freqRead b).1.freqOpen ∧
          (aFreq x.freqRead a).1.fpend = (aFreq y.freqRead b).1.fpend ∧ (aFreq x.freqRead a).1.freqSrc = (aFreq y.freqRead b).1.freqSrc := by
        rw [hfr]
        unfold aFreq
        rw [f2]
        split
        · exact ⟨f1, f2, f3, f4⟩
        · split
          · exact ⟨f1, f2, f3, f4⟩
          · exact ⟨f1, f2, f3, f4⟩
          · simp only [f1, f3, f4]
            split <;> exact ⟨rfl, rfl, rfl, rfl⟩
      have g1 : a'.fcorr = b'.fcorr := by rw [u1, v1]; exact hF.1
      have g2 : a'.freqOpen = b'.freqOpen := by rw [u2, v2]; exact hF.2.1
      have g3 : a'.fpend = b'.fpend := by rw [u3, v3]; exact hF.2.2.1
      have g4 : a'.freqSrc = b'.freqSrc := by rw [u4, v4]; exact hF.2.2.2
      have gt : ∀ {l l' : Bytes} {k k' : Nat}, k < k' → k' ≤ src.length → l = src.drop k → l' = src.drop k' → l' ≠ l := by
        intro l l' k k' hk hk' e1 e2 hc
        rw [e1, e2] at hc
        have := congrArg List.length hc
        rw [List.length_drop, List.length_drop] at this
        omega
      rcases u5 with ⟨q1, qe, qo⟩ | ⟨n', ql, -, q1, qe, qo⟩ <;> rcases v5 with ⟨w1, we, wo⟩ | ⟨m', wl, -, w1, we, wo⟩
      · exact ⟨a', b', n, m, r1', r2', q1, w1, d, by rw [qe, we, e], by rw [qo, wo, o], by rw [qo, ol], g1, g2, g3, g4⟩
      · exfalso
        apply ns2 (gt wl w1.le p2.src w1.src)
        rw [wo, ← o]
        rw [qo, wo, List.length_append, o] at hcnt
        rw [List.eq_nil_of_length_eq_zero (by omega : (eBlock legacy b.fcorr (between src m m') b.e).length = 0), List.append_nil]
      · exfalso
        apply ns1 (gt ql q1.le p1.src q1.src)
        rw [qo]
        rw [qo, wo, List.length_append, ← o] at hcnt
        rw [List.eq_nil_of_length_eq_zero (by omega : (eBlock legacy a.fcorr (between src n n') a.e).length = 0), List.append_nil]
      · have hd' : n' / 8 = m' / 8 := by
          rw [qo, wo, List.length_append, List.length_append, o, block_length, block_length, between_length _ _ _ q1.le, between_length _ _ _ w1.le] at hcnt
          have := Nat.div_le_div_right (c := 8) ql.le
          have := Nat.div_le_div_right (c := 8) wl.le
          omega
        have hbt : between src n n' = between src m m' := by unfold between; rw [d, hd']
        refine ⟨a', b', n', m', r1', r2', q1, w1, hd', by rw [qe, we, e, f1, hbt], by rw [qo, wo, o, f1, e, hbt], ?_, g1, g2, g3, g4⟩
        rw [qo, List.length_append, block_length, between_length _ _ _ q1.le, ol]
        have := Nat.div_le_div_right (c := 8) ql.le
        omega
  obtain ⟨a, b, n, m, r1, r2, -, -, -, -, o, -⟩ := key rs.length le_rfl
  rw [List.take_length, A1, Prod.mk.injEq] at r1
  rw [hlen, List.take_length, A2, Prod.mk.injEq] at r2
  rw [← r1.1, ← r2.1] at o
  exact o

/-- Two schedules that meet the hypotheses of `C49_split_partial`. -/
example : NoStall false [rd 16, rd 8] (demo 0 (-2 ^ 20) false [0, 0, 0, 0, 0, 0, 0, 0, 0, 0, 0, 4, 0, 0, 0, 0, 0, 4, 0, 4, 0, 0, 0, 0] []) ∧
    NoStall false [rd 20, rd 4] (demo 0 (-2 ^ 20) false [0, 0, 0, 0, 0, 0, 0, 0, 0, 0, 0, 4, 0, 0, 0, 0, 0, 4, 0, 4, 0, 0, 0, 0] []) :=
  ⟨demo_noStall (by decide +kernel), demo_noStall (by decide +kernel)⟩

/-! ## C50 -/

/-- **C50 fails**, for every non-zero correction: when the counter rolls over between the reference time and an event, the
correction of the event is wrong by at least 2^20 units (4 microseconds). -/
theorem C50_violated (fcorr : BitVec 32) (tsref tsmeas : BitVec 64) (hlt : tsmeas.toNat < tsref.toNat) (hr : tsref.toNat < 2 ^ 54)
    (hf : |fcorr.toInt| < 2 ^ 21) (h0 : fcorr ≠ 0) :
    2 ^ 20 ≤ |(tsCorr fcorr tsref tsmeas).toInt - ⌊(⌊((tsmeas.toNat : ℚ) + 2 ^ 54 - tsref.toNat) / 2 ^ 12⌋ * fcorr.toInt : ℚ) / 2 ^ 22⌋| := by
  obtain ⟨z, -, hz⟩ := tsCorr_back fcorr tsref tsmeas hlt hr
  have h1 : ⌊((tsmeas.toNat : ℚ) + 2 ^ 54 - tsref.toNat) / 2 ^ 12⌋ = ((tsmeas.toNat : ℤ) - tsref.toNat) / 2 ^ 12 + 2 ^ 42 := by
    have h := floor_div ((tsmeas.toNat : ℤ) + 2 ^ 54 - tsref.toNat) (2 ^ 12)
    rw [show (((tsmeas.toNat : ℤ) + 2 ^ 54 - tsref.toNat : ℤ) : ℚ) / ((2 ^ 12 : ℕ) : ℚ) = ((tsmeas.toNat : ℚ) + 2 ^ 54 - tsref.toNat) / 2 ^ 12 by norm_num] at h
    rw [h]
    omega
  have hf0 : fcorr.toInt ≠ 0 := by
    intro hc
    apply h0
    apply BitVec.eq_of_toInt_eq
    rw [hc]; rfl
  have h2 : ⌊(⌊((tsmeas.toNat : ℚ) + 2 ^ 54 - tsref.toNat) / 2 ^ 12⌋ * fcorr.toInt : ℚ) / 2 ^ 22⌋ =
      ((((tsmeas.toNat : ℤ) - tsref.toNat) / 2 ^ 12 + 2 ^ 42) * fcorr.toInt) / 2 ^ 22 := by
    rw [h1]
    have := floor_div ((((tsmeas.toNat : ℤ) - tsref.toNat) / 2 ^ 12 + 2 ^ 42) * fcorr.toInt) (2 ^ 22)
    rw [Int.cast_mul] at this
    rw [show ((2 : ℚ) ^ 22) = ((2 ^ 22 : ℕ) : ℚ) by norm_num, this]
    norm_num
  rw [h2, hz]
  generalize fcorr.toInt = F at *
  generalize ((tsmeas.toNat : ℤ) - tsref.toNat) / 2 ^ 12 = e at *
  rw [add_mul, add_mul]
  generalize e * F = p at *
  rw [abs_lt] at hf
  rw [le_abs]
  omega

/-- **C50** (without a correction): with a correction of zero the time is left alone, also across the roll-over. -/
theorem C50_smooth_partial (tsref tsmeas : BitVec 64) : (tsCorr 0 tsref tsmeas).toInt = 0 := by
  rw [tsCorr_zero]; rfl

/-- A roll-over: reference ten units before the end of the range, event ten units after it, correction 1000 * 2^-34. -/
example : (tsCorr 1000 (2 ^ 54 - 10) 10).toInt = 1072693248000 := by decide +kernel

/-- Events earlier than the reference (out of order): the correction is the signed one if and only if the correction value is
a multiple of 2^12; otherwise it is wrong by at least 2^30 units (4.3 ms). -/
theorem C61_out_of_order (fcorr : BitVec 32) (tsref tsmeas : BitVec 64) (hlt : tsmeas.toNat < tsref.toNat) (hr : tsref.toNat < 2 ^ 54)
    (hf : |fcorr.toInt| < 2 ^ 21) :
    (2 ^ 12 ∣ fcorr.toInt → (tsCorr fcorr tsref tsmeas).toInt = ⌊(⌊((tsmeas.toNat : ℚ) - tsref.toNat) / 2 ^ 12⌋ * fcorr.toInt : ℚ) / 2 ^ 22⌋) ∧
    (¬ 2 ^ 12 ∣ fcorr.toInt →
      2 ^ 30 ≤ |(tsCorr fcorr tsref tsmeas).toInt - ⌊(⌊((tsmeas.toNat : ℚ) - tsref.toNat) / 2 ^ 12⌋ * fcorr.toInt : ℚ) / 2 ^ 22⌋|) := by
  obtain ⟨z, hb, hz⟩ := tsCorr_back fcorr tsref tsmeas hlt hr
  have h1 : ⌊((tsmeas.toNat : ℚ) - tsref.toNat) / 2 ^ 12⌋ = ((tsmeas.toNat : ℤ) - tsref.toNat) / 2 ^ 12 := by
    have := floor_div ((tsmeas.toNat : ℤ) - tsref.toNat) (2 ^ 12)
    push_cast at this
    exact this
  have h2 : ⌊(⌊((tsmeas.toNat : ℚ) - tsref.toNat) / 2 ^ 12⌋ * fcorr.toInt : ℚ) / 2 ^ 22⌋ =
      (((tsmeas.toNat : ℤ) - tsref.toNat) / 2 ^ 12 * fcorr.toInt) / 2 ^ 22 := by
    rw [h1]
    have := floor_div (((tsmeas.toNat : ℤ) - tsref.toNat) / 2 ^ 12 * fcorr.toInt) (2 ^ 22)
    rw [Int.cast_mul] at this
    rw [show ((2 : ℚ) ^ 22) = ((2 ^ 22 : ℕ) : ℚ) by norm_num, this]
    norm_num
  rw [h2, hz]
  have he : -2 ^ 42 ≤ ((tsmeas.toNat : ℤ) - tsref.toNat) / 2 ^ 12 ∧ ((tsmeas.toNat : ℤ) - tsref.toNat) / 2 ^ 12 < 0 := by omega
  have hbm := Int.bmod_lt (x := (((tsmeas.toNat : ℤ) - tsref.toNat) / 2 ^ 12 + 2 ^ 52) * fcorr.toInt) (m := 2 ^ 64) (by norm_num)
  have hbm' := Int.le_bmod (x := (((tsmeas.toNat : ℤ) - tsref.toNat) / 2 ^ 12 + 2 ^ 52) * fcorr.toInt) (m := 2 ^ 64) (by norm_num)
  rw [← hb] at hbm hbm'
  have hprod : |((tsmeas.toNat : ℤ) - tsref.toNat) / 2 ^ 12 * fcorr.toInt| < 2 ^ 63 := by
    rw [abs_mul]
    calc _ ≤ 2 ^ 42 * |fcorr.toInt| := mul_le_mul_of_nonneg_right (by rw [abs_le]; constructor <;> omega) (abs_nonneg _)
      _ < 2 ^ 42 * 2 ^ 21 := mul_lt_mul_of_pos_left hf (by norm_num)
      _ = 2 ^ 63 := by norm_num
  clear hb h1 h2 hz
  generalize fcorr.toInt = F at *
  generalize ((tsmeas.toNat : ℤ) - tsref.toNat) / 2 ^ 12 = e at *
  rw [add_mul] at hbm hbm' ⊢
  generalize e * F = p at *
  rw [abs_lt] at hf hprod
  norm_num at hbm hbm' hprod
  constructor
  · rintro ⟨c, rfl⟩
    omega
  · intro hnd
    rw [le_abs]
    omega

/-- Two events out of order: with a correction of 4096 the event one millisecond before the reference is corrected as it
should be, with a correction of 1000 it is not. -/
example : (tsCorr 4096 250000000 0).toInt = -60 ∧ (tsCorr 1000 250000000 0).toInt = 1073741823985 := by decide +kernel

/-! ## C51 -/

/-- **C51 fails**: an event read in the pass in which reading the frequency channel fails is not written. -/
theorem C51_violated : ∃ (s s1 : FState) (f : BitVec 32) (src : Bytes), Initial s f true src [] ∧
    fRun false [{ selectOk := true, inRead := some (some 8), freqRead := some none, write := some 8192 }] s = .ok (s1, some .freqError) ∧
    src.length = 8 ∧ s1.src = [] ∧ s1.out = [] := by
  obtain ⟨s1, h1, h2, h3, -⟩ := demo_run false [{ selectOk := true, inRead := some (some 8), freqRead := some none, write := some 8192 }] 0 0 true
    [1, 2, 3, 4, 5, 6, 7, 8] [] _ _ _ (some .freqError) ⟨rfl, rfl, rfl, by decide +kernel⟩
  exact ⟨_, s1, 0, [1, 2, 3, 4, 5, 6, 7, 8], demo_initial 0 _ _ _ _, h1, rfl, by rw [h3]; decide +kernel, by rw [h2]; decide +kernel⟩

/-- **C51** (as long as reading the frequency channel does not fail, and every write is complete): however the program ends,
all complete events read have been written. -/
theorem C51_all_written_partial (legacy : Bool) (rs : List Round) (s s1 : FState) (stop : Option Stop) (fcorr : BitVec 32) (fo : Bool)
    (src fsrc : Bytes) (h : Initial s fcorr fo src fsrc) (h1 : fRun legacy rs s = .ok (s1, stop))
    (hfreq : ∀ r ∈ rs, r.freqRead ≠ some none) (hwrite : ∀ r ∈ rs, ∃ k, r.write = some k ∧ 8192 ≤ k) :
    s1.out.length = 8 * ((src.length - s1.src.length) / 8) := by
  obtain ⟨hw, ho, hp, hout, -⟩ := initial_wf h
  have A := run_abst hw ho h1
  have fin : ∀ (a : AState) (n : Nat), Pos src a n → a.out.length = 8 * (n / 8) → a.out.length = 8 * ((src.length - a.src.length) / 8) := by
    intro a n hpos hl
    rw [hl, hpos.src, List.length_drop]
    have := hpos.le
    congr 2
    omega
  cases stop with
  | none =>
    obtain ⟨n, hpos, hl, -⟩ := flags_inv legacy src rs _ hp hout _ A
    exact fin _ n hpos hl
  | some stop =>
    obtain ⟨rs1, r, rs2, a1, e1, e2, e3⟩ := aRun_split _ _ _ _ _ A
    obtain ⟨n, hpos, hl, -⟩ := flags_inv legacy src rs1 _ hp hout _ e2
    have hr : r ∈ rs := by rw [e1]; simp
    rcases aStep_stop legacy r src a1 _ n hpos stop e3 with ⟨-, g⟩ | ⟨-, -, -, g⟩ | ⟨rfl, -⟩
    · have := fin a1 n hpos hl
      rw [← g] at this
      exact this
    · exact absurd g (hfreq r hr)
    · exfalso
      obtain ⟨k, hk, hk'⟩ := hwrite r hr
      rcases step_writeError legacy r src a1 _ n hpos e3 with g | ⟨k', g, g'⟩
      · rw [g] at hk; simp at hk
      · rw [g, Option.some.injEq] at hk
        have : bufSize = 8192 := rfl
        omega

/-- A run that meets the hypotheses of `C51_all_written_partial` and ends with an error on the input. -/
example : ∃ s s1 : FState, Initial s 0 true [1, 2, 3, 4, 5, 6, 7, 8, 9] [] ∧
    fRun false [rd 9, { selectOk := true, inRead := some none, freqRead := none, write := some 8192 }] s = .ok (s1, some .inputError) ∧
    s1.out.length = 8 ∧ s1.src = [] := by
  obtain ⟨s1, h1, h2, h3, -⟩ := demo_run false [rd 9, { selectOk := true, inRead := some none, freqRead := none, write := some 8192 }] 0 0 true
    [1, 2, 3, 4, 5, 6, 7, 8, 9] [] _ _ _ (some .inputError) ⟨rfl, rfl, rfl, by decide +kernel⟩
  exact ⟨_, s1, demo_initial 0 _ _ _ _, h1, by rw [h2]; decide +kernel, by rw [h3]; decide +kernel⟩

/-! ## C55 -/

/-- **C55**, causality: the frequency channel acts on the output only through the corrections in force at the beginning of
the passes.  In particular an update read in a pass has no effect on the output of this pass or of earlier ones, and two
runs whose updates agree up to some pass agree in their output up to and including that pass. -/
theorem C55_causality (legacy : Bool) (rs rs' : List Round) (s s' s1 s1' : FState) (fcorr : BitVec 32) (fo fo' : Bool)
    (src fsrc fsrc' : Bytes) (h : Initial s fcorr fo src fsrc) (hs' : s' = { s with freqOpen := fo', freqSrc := fsrc' })
    (hsame : rs.map Round.inRead = rs'.map Round.inRead)
    (h1 : fRun legacy rs s = .ok (s1, none)) (h1' : fRun legacy rs' s' = .ok (s1', none))
    (hforce : ∀ (k : Nat) (x x' : FState), k < rs.length → fRun legacy (rs.take k) s = .ok (x, none) →
      fRun legacy (rs'.take k) s' = .ok (x', none) → x.fcorr = x'.fcorr) :
    s1.out = s1'.out ∧ s1.src = s1'.src := by
  obtain ⟨hw, ho, hp, hout, -⟩ := initial_wf h
  have hI' : Initial s' fcorr fo' src fsrc' := by
    obtain ⟨ib, ob, fb, tm, tc, g1, g2, g3, rfl⟩ := h
    exact ⟨ib, ob, fb, tm, tc, g1, g2, g3, hs'⟩
  obtain ⟨hw', ho', hp', -⟩ := initial_wf hI'
  have A := run_abst hw ho h1
  have A' := run_abst hw' ho' h1'
  suffices key : ∀ (l l' : List Round), l <+: rs → l' <+: rs' → l.map Round.inRead = l'.map Round.inRead → ∀ a a', aRun legacy l (abst s) = (a, none) →
      aRun legacy l' (abst s') = (a', none) → a.pend = a'.pend ∧ a.e = a'.e ∧ a.src = a'.src ∧ a.out = a'.out by
    obtain ⟨-, -, k1, k2⟩ := key rs rs' (List.prefix_refl _) (List.prefix_refl _) hsame _ _ A A'
    exact ⟨k2, k1⟩
  intro l
  induction l using List.reverseRecOn with
  | nil =>
    intro l' _ _ hm a a' ha ha'
    have : l' = [] := by simpa using hm.symm
    subst this
    simp only [aRun, Prod.mk.injEq, and_true] at ha ha'
    rw [← ha, ← ha', hs']
    exact ⟨rfl, rfl, rfl, rfl⟩
  | append_singleton l r ih =>
    intro l' hl hl' hm a a' ha ha'
    obtain ⟨l1, r', rfl⟩ : ∃ l1 r', l' = l1 ++ [r'] := by
      rcases List.eq_nil_or_concat l' with hc | ⟨l1, r', hc⟩
      · rw [hc] at hm; simp at hm
      · exact ⟨l1, r', by rw [hc, List.concat_eq_append]⟩
    rw [List.map_append, List.map_append] at hm
    obtain ⟨hm1, hm2⟩ := List.append_inj' hm rfl
    simp only [List.map_cons, List.map_nil, List.cons.injEq, and_true] at hm2
    obtain ⟨b, hb, hst⟩ := aRun_concat _ _ _ _ _ ha
    obtain ⟨b', hb', hst'⟩ := aRun_concat _ _ _ _ _ ha'
    have p1 : l <+: rs := (List.prefix_append _ _).trans hl
    have p1' : l1 <+: rs' := (List.prefix_append _ _).trans hl'
    obtain ⟨k1, k2, k3, k4⟩ := ih l1 p1 p1' hm1 b b' hb hb'
    obtain ⟨x, x1, x2⟩ := run_of_abst hw ho hb
    obtain ⟨y, y1, y2⟩ := run_of_abst hw' ho' hb'
    have hlen : l.length = l1.length := by simpa using congrArg List.length hm1
    have hlt : l.length < rs.length := by
      have := hl.length_le
      simp at this
      omega
    have hfc : x.fcorr = y.fcorr := by
      apply hforce l.length x y hlt
      · rw [← List.prefix_iff_eq_take.mp p1]; exact x1
      · rw [hlen, ← List.prefix_iff_eq_take.mp p1']; exact y1
    have hfc' : b.fcorr = b'.fcorr := by rw [← x2, ← y2]; exact hfc
    exact step_same legacy r r' b b' a a' k1 k2 k3 k4 hfc' hm2 hst hst'

/-- The next event written: its time is computed from the last event written before as reference, with the offset by which
that one was moved. -/
theorem next_event (legacy : Bool) (rs : List Round) (r : Round) (s s1 s2 : FState) (fcorr : BitVec 32) (fo : Bool) (src fsrc : Bytes)
    (h : Initial s fcorr fo src fsrc) (hns : NoStall legacy rs s)
    (h1 : fRun legacy rs s = .ok (s1, none)) (h2 : fRun legacy (rs ++ [r]) s = .ok (s2, none))
    (k j t1 u1 t2 u2 : Nat) (hk : s1.out.length = 8 * (k + 1)) (hj : k < j)
    (ht1 : (times legacy src)[k]? = some t1) (hu1 : (times legacy s1.out)[k]? = some u1)
    (ht2 : (times legacy src)[j]? = some t2) (hu2 : (times legacy s2.out)[j]? = some u2) :
    ∃ ev : Bytes, ev.length = 8 ∧ evTime legacy ev = t2 ∧ s1.tsref.toNat = t1 ∧ (u1 : ℤ) % 2 ^ 54 = ((t1 : ℤ) + s1.ovf.toInt) % 2 ^ 54 ∧
      u2 = evTime legacy (evCorrect legacy s1.fcorr s1.tsref s1.ovf ev) := by
  obtain ⟨hw, ho, hp, hout, -⟩ := initial_wf h
  have A1 := run_abst hw ho h1
  have A2 := run_abst hw ho h2
  obtain ⟨a, e1, e2⟩ := aRun_concat _ _ _ _ _ A2
  rw [A1, Prod.mk.injEq] at e1
  obtain ⟨e1, -⟩ := e1
  subst e1
  obtain ⟨n, hpos, i1, i2, i3⟩ := jump_inv legacy rs s fcorr fo src fsrc h hns _ A1
  have hn : n / 8 = k + 1 := by
    have : (abst s1).out.length = 8 * (k + 1) := hk
    omega
  obtain ⟨t, j1, j2, j3⟩ := i3 (by omega)
  rw [hn, Nat.add_sub_cancel] at j1 j3
  rw [ht1, Option.some.injEq] at j1
  subst j1
  have j3' : u1 = ((abst s1).tsref + (abst s1).ovf).toNat % 2 ^ 54 := by
    have : (times legacy (abst s1).out)[k]? = some u1 := hu1
    rw [this, Option.some.injEq] at j3
    exact j3
  rw [hn] at i2
  obtain ⟨-, -, -, -, -, ⟨g1, ge, g2⟩ | ⟨n', gl, -, g2, ge, go⟩⟩ := aStep_clean legacy r src _ _ n hpos e2
  · exfalso
    have : (times legacy s2.out)[j]? = none := by
      rw [List.getElem?_eq_none_iff]
      simp only [times, List.length_map, events_length]
      have : s2.out = s1.out := g2
      rw [this, hk]
      omega
    rw [this] at hu2
    simp at hu2
  · have hev : ∃ ev ∈ between src n n', evTime legacy ev = t2 ∧
        u2 = evTime legacy (evCorrect legacy s1.fcorr (eRef legacy (between src n n') (abst s1).e) s1.ovf ev) := by
      have hu : (times legacy s2.out)[j]? = ((between src n n').map fun ev => evTime legacy (evCorrect legacy s1.fcorr (eRef legacy (between src n n') (abst s1).e) s1.ovf ev))[j - (k + 1)]? := by
        have : s2.out = s1.out ++ eBlock legacy s1.fcorr (between src n n') (abst s1).e := go
        unfold times
        rw [this, events_append _ _ _ hk, List.map_append, events_block, List.map_map, List.getElem?_append_right]
        · rw [List.length_map, events_length, hk, show 8 * (k + 1) / 8 = k + 1 by omega]
          rfl
        · rw [List.length_map, events_length, hk]
          omega
      have hlt : j - (k + 1) < (between src n n').length := by
        by_contra hc
        rw [hu, List.getElem?_eq_none_iff.mpr (by rw [List.length_map]; omega)] at hu2
        simp at hu2
      refine ⟨(between src n n')[j - (k + 1)], List.getElem_mem _, ?_, ?_⟩
      · have ht : ((between src n n').map (evTime legacy))[j - (k + 1)]? = some t2 := by
          rw [times_between, hn, List.getElem?_drop, show k + 1 + (j - (k + 1)) = j by omega, List.getElem?_take_of_lt, ht2]
          rw [between_length _ _ _ g2.le] at hlt
          omega
        rw [List.getElem?_map, List.getElem?_eq_getElem hlt] at ht
        simpa using ht
      · rw [hu, List.getElem?_map, List.getElem?_eq_getElem hlt] at hu2
        simpa using hu2.symm
    obtain ⟨ev, hev1, hev2, hev3⟩ := hev
    have href : eRef legacy (between src n n') (abst s1).e = s1.tsref := by
      unfold eRef
      rw [show (abst s1).e.isset = true by
        have : (abst s1).isset = true := by rw [i2]; simp
        exact this]
      rfl
    rw [href] at hev3
    have hr : s1.tsref.toNat = t1 := j2
    exact ⟨ev, between_mem hev1, hev2, hr, jump_arith u1 t1 s1.tsref s1.ovf hr j3', hev3⟩

/-- **C55**, no jump (when no read completes no event): an event of the next pass is placed relative to the last event
written before, by their distance and the correction in force; the offset accumulated so far is kept, whatever happened to
the correction. -/
theorem C55_no_jump (legacy : Bool) (rs : List Round) (r : Round) (s s1 s2 : FState) (fcorr : BitVec 32) (fo : Bool) (src fsrc : Bytes)
    (h : Initial s fcorr fo src fsrc) (hns : NoStall legacy rs s)
    (h1 : fRun legacy rs s = .ok (s1, none)) (h2 : fRun legacy (rs ++ [r]) s = .ok (s2, none))
    (k j t1 u1 t2 u2 : Nat) (hk : s1.out.length = 8 * (k + 1)) (hj : k < j)
    (ht1 : (times legacy src)[k]? = some t1) (hu1 : (times legacy s1.out)[k]? = some u1)
    (ht2 : (times legacy src)[j]? = some t2) (hu2 : (times legacy s2.out)[j]? = some u2)
    (hle : t1 ≤ t2) (hf : |s1.fcorr.toInt| < 2 ^ 21) :
    (u2 : ℤ) = (u1 + (t2 - t1) + ⌊(⌊((t2 : ℚ) - t1) / 2 ^ 12⌋ * s1.fcorr.toInt : ℚ) / 2 ^ 22⌋) % 2 ^ 54 := by
  obtain ⟨ev, hev1, hev2, hr, hu1', hev3⟩ := next_event legacy rs r s s1 s2 fcorr fo src fsrc h hns h1 h2 k j t1 u1 t2 u2 hk hj ht1 hu1 ht2 hu2
  have hct := corrected_time legacy s1.fcorr s1.tsref s1.ovf ev hev1 (by rw [hr, hev2]; exact hle) hf s1.ovf.toInt
    (by rw [BitVec.ofInt_toInt])
  rw [← hev3, hev2, hr] at hct
  have hfl : ⌊(⌊((t2 : ℚ) - t1) / 2 ^ 12⌋ * s1.fcorr.toInt : ℚ) / 2 ^ 22⌋ = corrOf s1.fcorr.toInt ((t2 : ℤ) - t1) := by
    unfold corrOf
    have q1 : ⌊((t2 : ℚ) - t1) / 2 ^ 12⌋ = ((t2 : ℤ) - t1) / 2 ^ 12 := by
      have := floor_div ((t2 : ℤ) - t1) (2 ^ 12)
      push_cast at this
      exact this
    rw [q1]
    have := floor_div (((t2 : ℤ) - t1) / 2 ^ 12 * s1.fcorr.toInt) (2 ^ 22)
    rw [Int.cast_mul] at this
    rw [show ((2 : ℚ) ^ 22) = ((2 ^ 22 : ℕ) : ℚ) by norm_num, this]
    norm_num
  rw [hfl, hct]
  exact jump_arith' _ _ _ _ _ hu1'

/-- An update from 0 to 2^20 (a relative frequency of 2^-14) that arrives in the first pass: the first event is written
unchanged, the second one, 65536 units later, gets a correction of 4 units. -/
example : ∃ s s1 s2 : FState, Initial s 0 true [0, 0, 0, 0, 0, 0, 0, 0, 0, 0, 0, 4, 0, 0, 0, 0] [49, 48, 52, 56, 53, 55, 54, 10] ∧
    fRun false [{ selectOk := true, inRead := some (some 8), freqRead := some (some 50), write := some 8192 }] s = .ok (s1, none) ∧
    fRun false ([{ selectOk := true, inRead := some (some 8), freqRead := some (some 50), write := some 8192 }] ++ [rd 8]) s = .ok (s2, none) ∧
    times false s1.out = [0] ∧ times false s2.out = [0, 65540] ∧ s1.fcorr = 2 ^ 20 ∧
    NoStall false [{ selectOk := true, inRead := some (some 8), freqRead := some (some 50), write := some 8192 }] s := by
  obtain ⟨s1, h1, h2, h3, h4⟩ := demo_run false [{ selectOk := true, inRead := some (some 8), freqRead := some (some 50), write := some 8192 }] 0 0 true
    [0, 0, 0, 0, 0, 0, 0, 0, 0, 0, 0, 4, 0, 0, 0, 0] [49, 48, 52, 56, 53, 55, 54, 10] _ _ _ none ⟨rfl, rfl, rfl, by decide +kernel⟩
  obtain ⟨s2, g1, g2, g3, -⟩ := demo_run false ([{ selectOk := true, inRead := some (some 8), freqRead := some (some 50), write := some 8192 }] ++ [rd 8]) 0 0 true
    [0, 0, 0, 0, 0, 0, 0, 0, 0, 0, 0, 4, 0, 0, 0, 0] [49, 48, 52, 56, 53, 55, 54, 10] _ _ _ none ⟨rfl, rfl, rfl, by decide +kernel⟩
  exact ⟨_, s1, s2, demo_initial 0 _ _ _ _, h1, g1, by rw [h2]; decide +kernel, by rw [g2]; decide +kernel, by rw [h4]; decide +kernel, demo_noStall (by decide +kernel)⟩

/-- The distance of the next event written from the last one, in terms of the computed correction. -/
theorem next_distance (legacy : Bool) (rs : List Round) (r : Round) (s s1 s2 : FState) (fcorr : BitVec 32) (fo : Bool) (src fsrc : Bytes)
    (h : Initial s fcorr fo src fsrc) (hns : NoStall legacy rs s)
    (h1 : fRun legacy rs s = .ok (s1, none)) (h2 : fRun legacy (rs ++ [r]) s = .ok (s2, none))
    (k j t1 u1 t2 u2 : Nat) (hk : s1.out.length = 8 * (k + 1)) (hj : k < j)
    (ht1 : (times legacy src)[k]? = some t1) (hu1 : (times legacy s1.out)[k]? = some u1)
    (ht2 : (times legacy src)[j]? = some t2) (hu2 : (times legacy s2.out)[j]? = some u2) :
    ∃ tm : BitVec 64, tm.toNat = t2 ∧ s1.tsref.toNat = t1 ∧ t1 < 2 ^ 54 ∧ |(tsCorr s1.fcorr s1.tsref tm).toInt| ≤ 2 ^ 41 ∧
      (u2 : ℤ) = (u1 + (t2 - t1) + (tsCorr s1.fcorr s1.tsref tm).toInt) % 2 ^ 54 := by
  obtain ⟨ev, hev1, hev2, hr, hu1', hev3⟩ := next_event legacy rs r s s1 s2 fcorr fo src fsrc h hns h1 h2 k j t1 u1 t2 u2 hk hj ht1 hu1 ht2 hu2
  have hm := evMeas_toNat legacy ev hev1
  rw [hev2] at hm
  refine ⟨evMeas legacy ev, hm, hr, ?_, ?_, ?_⟩
  · obtain ⟨ev1, g1, g2⟩ : ∃ ev1 ∈ events src, evTime legacy ev1 = t1 := by
      have := List.mem_of_getElem? ht1
      simpa [times] using this
    rw [← g2]
    exact evTime_lt legacy ev1 (mem_events g1)
  · unfold tsCorr
    rw [BitVec.toInt_sshiftRight, Int.shiftRight_eq_div_pow]
    generalize hq : ((evMeas legacy ev - s1.tsref) >>> 12 * s1.fcorr.signExtend 64) = q
    have q1 := BitVec.toInt_lt (x := q)
    have q2 := BitVec.le_toInt (x := q)
    norm_num at q1 q2 ⊢
    rw [abs_le]
    omega
  rw [evTime_evCorrect _ _ _ _ _ hev1] at hev3
  generalize tsCorr s1.fcorr s1.tsref (evMeas legacy ev) = T at *
  have e1 : T.toInt = T.toNat ∨ T.toInt = (T.toNat : ℤ) - 2 ^ 64 := by
    rw [BitVec.toInt_eq_toNat_cond]
    split
    · exact Or.inl rfl
    · exact Or.inr rfl
  have e2 : s1.ovf.toInt = s1.ovf.toNat ∨ s1.ovf.toInt = (s1.ovf.toNat : ℤ) - 2 ^ 64 := by
    rw [BitVec.toInt_eq_toNat_cond]
    split
    · exact Or.inl rfl
    · exact Or.inr rfl
  rw [BitVec.toNat_add, BitVec.toNat_add, hm] at hev3
  generalize T.toInt = o at *
  generalize T.toNat = x at *
  generalize s1.ovf.toInt = o' at *
  generalize s1.ovf.toNat = x' at *
  omega

/-- A correction in exact arithmetic is at most 2^41 units. -/
theorem ideal_le (d f : ℤ) (hd : -2 ^ 54 ≤ d) (hd' : d ≤ 2 ^ 54) (hf : |f| < 2 ^ 21) : |⌊(⌊(d : ℚ) / 2 ^ 12⌋ * f : ℚ) / 2 ^ 22⌋| ≤ 2 ^ 41 := by
  have e1 : ⌊(d : ℚ) / 2 ^ 12⌋ = d / 2 ^ 12 := by
    have := floor_div d (2 ^ 12)
    push_cast at this
    exact this
  have e2 : ⌊(⌊(d : ℚ) / 2 ^ 12⌋ * f : ℚ) / 2 ^ 22⌋ = (d / 2 ^ 12 * f) / 2 ^ 22 := by
    rw [e1]
    have := floor_div (d / 2 ^ 12 * f) (2 ^ 22)
    rw [Int.cast_mul] at this
    rw [show ((2 : ℚ) ^ 22) = ((2 ^ 22 : ℕ) : ℚ) by norm_num, this]
    norm_num
  rw [e2]
  have hprod : |d / 2 ^ 12 * f| ≤ 2 ^ 63 := by
    rw [abs_mul]
    calc _ ≤ 2 ^ 42 * |f| := mul_le_mul_of_nonneg_right (by rw [abs_le]; constructor <;> omega) (abs_nonneg _)
      _ ≤ 2 ^ 42 * 2 ^ 21 := mul_le_mul_of_nonneg_left hf.le (by norm_num)
      _ = 2 ^ 63 := by norm_num
  generalize d / 2 ^ 12 * f = q at *
  rw [abs_le] at hprod ⊢
  omega

/-- **C50 fails** in the output, for every non-zero correction in range: when the counter rolls over between the last event of
a pass and an event of the next one, the distance between the two events written is wrong by at least 2^20 units, also
modulo the range of the counter. -/
theorem C50_stream (legacy : Bool) (rs : List Round) (r : Round) (s s1 s2 : FState) (fcorr : BitVec 32) (fo : Bool) (src fsrc : Bytes)
    (h : Initial s fcorr fo src fsrc) (hns : NoStall legacy rs s)
    (h1 : fRun legacy rs s = .ok (s1, none)) (h2 : fRun legacy (rs ++ [r]) s = .ok (s2, none))
    (k j t1 u1 t2 u2 : Nat) (hk : s1.out.length = 8 * (k + 1)) (hj : k < j)
    (ht1 : (times legacy src)[k]? = some t1) (hu1 : (times legacy s1.out)[k]? = some u1)
    (ht2 : (times legacy src)[j]? = some t2) (hu2 : (times legacy s2.out)[j]? = some u2)
    (hlt : t2 < t1) (hf : |s1.fcorr.toInt| < 2 ^ 21) (h0 : s1.fcorr ≠ 0) (c : ℤ)
    (hc : (u2 : ℤ) = (u1 + (t2 + 2 ^ 54 - t1) + c) % 2 ^ 54) :
    2 ^ 20 ≤ |c - ⌊(⌊((t2 : ℚ) + 2 ^ 54 - t1) / 2 ^ 12⌋ * s1.fcorr.toInt : ℚ) / 2 ^ 22⌋| := by
  obtain ⟨tm, hm, hr, ht1', hsmall, hsum⟩ := next_distance legacy rs r s s1 s2 fcorr fo src fsrc h hns h1 h2 k j t1 u1 t2 u2 hk hj ht1 hu1 ht2 hu2
  have hbad := C50_violated s1.fcorr s1.tsref tm (by rw [hm, hr]; exact hlt) (by rw [hr]; exact ht1') hf h0
  rw [hm, hr] at hbad
  have hideal := ideal_le ((t2 : ℤ) + 2 ^ 54 - t1) s1.fcorr.toInt (by omega) (by omega) hf
  rw [show (((t2 : ℤ) + 2 ^ 54 - t1 : ℤ) : ℚ) = (t2 : ℚ) + 2 ^ 54 - t1 by norm_num] at hideal
  generalize ⌊(⌊((t2 : ℚ) + 2 ^ 54 - t1) / 2 ^ 12⌋ * s1.fcorr.toInt : ℚ) / 2 ^ 22⌋ = I at *
  generalize (tsCorr s1.fcorr s1.tsref tm).toInt = T at *
  rw [abs_le] at hsmall hideal
  obtain ⟨z, hz⟩ : ∃ z : ℤ, c = T + 2 ^ 54 * z := ⟨(c - T) / 2 ^ 54, by omega⟩
  rw [le_abs] at hbad ⊢
  clear hsum hc
  rcases lt_trichotomy z 0 with hz0 | hz0 | hz0 <;> omega

/-- **C61** in the output: an event that is earlier than the last event of the pass before.  For corrections that are multiples
of 2^12 its distance from that event is corrected like any other; for all others the distance written is wrong by at least
2^30 units, also modulo the range of the counter. -/
theorem C61_stream (legacy : Bool) (rs : List Round) (r : Round) (s s1 s2 : FState) (fcorr : BitVec 32) (fo : Bool) (src fsrc : Bytes)
    (h : Initial s fcorr fo src fsrc) (hns : NoStall legacy rs s)
    (h1 : fRun legacy rs s = .ok (s1, none)) (h2 : fRun legacy (rs ++ [r]) s = .ok (s2, none))
    (k j t1 u1 t2 u2 : Nat) (hk : s1.out.length = 8 * (k + 1)) (hj : k < j)
    (ht1 : (times legacy src)[k]? = some t1) (hu1 : (times legacy s1.out)[k]? = some u1)
    (ht2 : (times legacy src)[j]? = some t2) (hu2 : (times legacy s2.out)[j]? = some u2)
    (hlt : t2 < t1) (hf : |s1.fcorr.toInt| < 2 ^ 21) :
    (2 ^ 12 ∣ s1.fcorr.toInt → (u2 : ℤ) = (u1 + (t2 - t1) + ⌊(⌊((t2 : ℚ) - t1) / 2 ^ 12⌋ * s1.fcorr.toInt : ℚ) / 2 ^ 22⌋) % 2 ^ 54) ∧
    (¬ 2 ^ 12 ∣ s1.fcorr.toInt → ∀ c : ℤ, (u2 : ℤ) = (u1 + (t2 - t1) + c) % 2 ^ 54 →
      2 ^ 30 ≤ |c - ⌊(⌊((t2 : ℚ) - t1) / 2 ^ 12⌋ * s1.fcorr.toInt : ℚ) / 2 ^ 22⌋|) := by
  obtain ⟨tm, hm, hr, ht1', hsmall, hsum⟩ := next_distance legacy rs r s s1 s2 fcorr fo src fsrc h hns h1 h2 k j t1 u1 t2 u2 hk hj ht1 hu1 ht2 hu2
  obtain ⟨g1, g2⟩ := C61_out_of_order s1.fcorr s1.tsref tm (by rw [hm, hr]; exact hlt) (by rw [hr]; exact ht1') hf
  rw [hm, hr] at g1 g2
  have hideal := ideal_le ((t2 : ℤ) - t1) s1.fcorr.toInt (by omega) (by omega) hf
  push_cast at hideal
  refine ⟨fun hd => by rw [← g1 hd]; exact hsum, fun hd c hc => ?_⟩
  have hbad := g2 hd
  clear g1 g2
  generalize ⌊(⌊((t2 : ℚ) - t1) / 2 ^ 12⌋ * s1.fcorr.toInt : ℚ) / 2 ^ 22⌋ = I at *
  generalize (tsCorr s1.fcorr s1.tsref tm).toInt = T at *
  rw [abs_le] at hsmall hideal
  obtain ⟨z, hz⟩ : ∃ z : ℤ, c = T + 2 ^ 54 * z := ⟨(c - T) / 2 ^ 54, by omega⟩
  rw [le_abs] at hbad ⊢
  clear hsum hc
  rcases lt_trichotomy z 0 with hz0 | hz0 | hz0 <;> omega

/-- A roll-over in a stream: ten units before the end of the range and ten units after it, correction 1000 * 2^-34.  Instead
of 20 units later the second event is written 1072693248020 units later. -/
example : ∃ s s1 s2 : FState, Initial s 1000 false [255, 219, 255, 255, 255, 255, 255, 255, 0, 40, 0, 0, 0, 0, 0, 0] [] ∧
    NoStall false [rd 8] s ∧ fRun false [rd 8] s = .ok (s1, none) ∧ fRun false ([rd 8] ++ [rd 8]) s = .ok (s2, none) ∧
    times false s1.out = [2 ^ 54 - 10] ∧ times false s2.out = [2 ^ 54 - 10, 10 + 1072693248000] := by
  obtain ⟨s1, h1, h2, h3, h4⟩ := demo_run false [rd 8] 0 1000 false [255, 219, 255, 255, 255, 255, 255, 255, 0, 40, 0, 0, 0, 0, 0, 0] [] _ _ _ none
    ⟨rfl, rfl, rfl, by decide +kernel⟩
  obtain ⟨s2, g1, g2, g3, -⟩ := demo_run false ([rd 8] ++ [rd 8]) 0 1000 false [255, 219, 255, 255, 255, 255, 255, 255, 0, 40, 0, 0, 0, 0, 0, 0] [] _ _ _ none
    ⟨rfl, rfl, rfl, by decide +kernel⟩
  exact ⟨_, s1, s2, demo_initial _ _ _ _ _, demo_noStall (by decide +kernel), h1, g1, by rw [h2]; decide +kernel, by rw [g2]; decide +kernel⟩

end Fp
