import Verif.Lemmas.FreqcdRuns

/-! Helper lemmas for `Verif/Props/FreqcdFaults.lean`. -/
namespace Fp
open Spec

theorem block_nil {legacy : Bool} {fc : BitVec 32} {evs : List Bytes} {e : EState} (h : eBlock legacy fc evs e = []) : evs = [] := by
  have := congrArg List.length h
  rw [block_length] at this
  exact List.eq_nil_of_length_eq_zero (by simpa using this)

theorem tsCorr_back (fcorr : BitVec 32) (tsref tsmeas : BitVec 64) (hlt : tsmeas.toNat < tsref.toNat) (hr : tsref.toNat < 2 ^ 54) :
    ∃ z : ℤ, (((tsmeas.toNat : ℤ) - tsref.toNat) / 2 ^ 12 + 2 ^ 52) * fcorr.toInt + 2 ^ 64 * z =
        Int.bmod ((((tsmeas.toNat : ℤ) - tsref.toNat) / 2 ^ 12 + 2 ^ 52) * fcorr.toInt) (2 ^ 64) ∧
      (tsCorr fcorr tsref tsmeas).toInt =
        ((((tsmeas.toNat : ℤ) - tsref.toNat) / 2 ^ 12 + 2 ^ 52) * fcorr.toInt + 2 ^ 64 * z) / 2 ^ 22 := by
  have hd : (tsmeas - tsref).toNat = 2 ^ 64 - tsref.toNat + tsmeas.toNat := by
    rw [BitVec.toNat_sub]
    omega
  have hx : ((tsmeas - tsref) >>> 12).toNat = (2 ^ 64 - tsref.toNat + tsmeas.toNat) / 2 ^ 12 := by
    rw [BitVec.toNat_ushiftRight, Nat.shiftRight_eq_div_pow, hd]
  have hxi : ((tsmeas - tsref) >>> 12).toInt = ((tsmeas.toNat : ℤ) - tsref.toNat) / 2 ^ 12 + 2 ^ 52 := by
    rw [BitVec.toInt_eq_toNat_of_lt (by rw [hx]; omega), hx]
    omega
  have hfi : (fcorr.signExtend 64).toInt = fcorr.toInt := BitVec.toInt_signExtend_of_le (by norm_num)
  have ht : (tsCorr fcorr tsref tsmeas).toInt = Int.bmod ((((tsmeas.toNat : ℤ) - tsref.toNat) / 2 ^ 12 + 2 ^ 52) * fcorr.toInt) (2 ^ 64) / 2 ^ 22 := by
    unfold tsCorr
    rw [BitVec.toInt_sshiftRight, BitVec.toInt_mul, hxi, hfi, Int.shiftRight_eq_div_pow]
    rfl
  obtain ⟨z, hz⟩ : ∃ z : ℤ, Int.bmod ((((tsmeas.toNat : ℤ) - tsref.toNat) / 2 ^ 12 + 2 ^ 52) * fcorr.toInt) (2 ^ 64) =
      (((tsmeas.toNat : ℤ) - tsref.toNat) / 2 ^ 12 + 2 ^ 52) * fcorr.toInt + 2 ^ 64 * z := by
    have h1 := Int.dvd_self_sub_bmod (x := (((tsmeas.toNat : ℤ) - tsref.toNat) / 2 ^ 12 + 2 ^ 52) * fcorr.toInt) (m := 2 ^ 64)
    obtain ⟨c, hc⟩ := h1
    refine ⟨-c, ?_⟩
    have hc' := hc
    rw [show ((2 ^ 64 : ℕ) : ℤ) = 2 ^ 64 from by norm_num] at hc'
    linarith
  exact ⟨z, hz.symm, by rw [ht, hz]⟩

theorem step_writeError (legacy : Bool) (r : Round) (src : Bytes) (a a' : AState) (n : Nat) (hp : Pos src a n)
    (h : aStep legacy r a = (a', some .writeError)) : r.write = none ∨ ∃ k, r.write = some k ∧ k < bufSize := by
  unfold aStep at h
  split at h
  · simp at h
  simp only at h
  rcases aInput_cases legacy r.inRead src a n hp with ⟨h1, h2, h3, h4⟩ | h1 | ⟨h1, n', g1, g2, g3, g4, g5⟩
  · rw [if_pos h1] at h
    rw [Prod.mk.injEq] at h
    rcases h4 with h4 | h4 <;> rw [h4] at h <;> simp at h
  · rw [h1] at h
    simp only [ne_eq, not_true_eq_false, if_false] at h
    split at h
    · rename_i hf
      exfalso
      have hfe : (aFreq r.freqRead a).2 = some .freqError := by
        revert hf
        unfold aFreq
        split
        · simp
        · split
          · simp
          · simp
          · simp only; split <;> simp
      have := congrArg Prod.snd h
      rw [hfe] at this
      simp at this
    · unfold aWrite at h
      cases hw : r.write with
      | none => exact Or.inl rfl
      | some k =>
        rw [hw] at h
        simp at h
  · rw [if_neg (by simp [h1])] at h
    split at h
    · rename_i hf
      exfalso
      have hfe : (aFreq r.freqRead (aInput legacy r.inRead a).1).2 = some .freqError := by
        revert hf
        unfold aFreq
        split
        · simp
        · split
          · simp
          · simp
          · simp only; split <;> simp
      have := congrArg Prod.snd h
      rw [hfe] at this
      simp at this
    · unfold aWrite at h
      cases hw : r.write with
      | none => exact Or.inl rfl
      | some k =>
        refine Or.inr ⟨k, rfl, ?_⟩
        rw [hw] at h
        simp only [Prod.mk.injEq] at h
        have hk : k < (aInput legacy r.inRead a).2.1.length := by
          by_contra hc
          rw [if_neg hc] at h
          simp at h
        have hlen : (aInput legacy r.inRead a).2.1.length ≤ bufSize := by
          unfold aInput at hk ⊢
          have hpl := hp.pend_length
          split at hk
          · simp at hk
          · simp at hk
          · simp only at hk ⊢
            split at hk
            · simp at hk
            · rename_i hd
              rw [if_neg hd]
              simp only
              rw [flatMap_length_fixed _ _ 8 (fun _ => evCorrect_length _ _ _ _ _), events_length, List.length_append, List.length_take]
              have : bufSize = 8192 := rfl
              omega
        omega

theorem input_same (legacy : Bool) (r : Option (Option Nat)) (a b : AState) (hp : a.pend = b.pend) (he : a.e = b.e) (hs : a.src = b.src)
    (ho : a.out = b.out) (hf : a.fcorr = b.fcorr) :
    (aInput legacy r a).1.pend = (aInput legacy r b).1.pend ∧ (aInput legacy r a).1.e = (aInput legacy r b).1.e ∧
    (aInput legacy r a).1.src = (aInput legacy r b).1.src ∧ (aInput legacy r a).1.out = (aInput legacy r b).1.out ∧
    (aInput legacy r a).2 = (aInput legacy r b).2 := by
  have e1 : a.tsref = b.tsref := congrArg EState.tsref he
  have e2 : a.isset = b.isset := congrArg EState.isset he
  have e3 : a.tsmeas = b.tsmeas := congrArg EState.tsmeas he
  have e4 : a.tscorr = b.tscorr := congrArg EState.tscorr he
  have e5 : a.ovf = b.ovf := congrArg EState.ovf he
  unfold aInput
  split
  · exact ⟨hp, he, hs, ho, rfl⟩
  · exact ⟨hp, he, hs, ho, rfl⟩
  · simp only [hp, hs, e1, e2, e3, e4, e5, hf]
    split
    · exact ⟨hp, he, hs, ho, rfl⟩
    · exact ⟨rfl, by simp only [AState.e], rfl, ho, rfl⟩

theorem freq_keeps (r : Option (Option Nat)) (a : AState) :
    (aFreq r a).1.pend = a.pend ∧ (aFreq r a).1.e = a.e ∧ (aFreq r a).1.src = a.src ∧ (aFreq r a).1.out = a.out := by
  unfold aFreq
  split
  · exact ⟨rfl, rfl, rfl, rfl⟩
  · split
    · exact ⟨rfl, rfl, rfl, rfl⟩
    · exact ⟨rfl, rfl, rfl, rfl⟩
    · simp only
      split <;> exact ⟨rfl, rfl, rfl, rfl⟩

theorem step_same (legacy : Bool) (r r' : Round) (a b a' b' : AState) (hp : a.pend = b.pend) (he : a.e = b.e) (hs : a.src = b.src)
    (ho : a.out = b.out) (hf : a.fcorr = b.fcorr) (hr : r.inRead = r'.inRead)
    (h1 : aStep legacy r a = (a', none)) (h2 : aStep legacy r' b = (b', none)) :
    a'.pend = b'.pend ∧ a'.e = b'.e ∧ a'.src = b'.src ∧ a'.out = b'.out := by
  obtain ⟨i1, i2, i3, i4, i5⟩ := input_same legacy r.inRead a b hp he hs ho hf
  have done : ∀ (r : Round) (a a' : AState), aStep legacy r a = (a', none) → a'.pend = (aInput legacy r.inRead a).1.pend ∧
      a'.e = (aInput legacy r.inRead a).1.e ∧ a'.src = (aInput legacy r.inRead a).1.src ∧
      a'.out = (aInput legacy r.inRead a).1.out ++ (aInput legacy r.inRead a).2.1 := by
    intro r a a' h
    unfold aStep at h
    split at h
    · simp at h
    simp only at h
    split at h
    · rename_i hc
      rw [Prod.mk.injEq] at h
      exact absurd h.2 hc
    · split at h
      · rename_i hc
        exact absurd (by rw [h]) hc
      · obtain ⟨k1, k2, k3, k4⟩ := freq_keeps r.freqRead (aInput legacy r.inRead a).1
        unfold aWrite at h
        split at h
        · simp at h
        · rename_i k _
          rw [Prod.mk.injEq] at h
          have hk : ¬ k < (aInput legacy r.inRead a).2.1.length := by
            intro hc
            rw [if_pos hc] at h
            simp at h
          rw [← h.1]
          refine ⟨k1, k2, k3, ?_⟩
          simp only
          rw [k4, List.take_of_length_le (by omega)]
  obtain ⟨d1, d2, d3, d4⟩ := done r a a' h1
  obtain ⟨c1, c2, c3, c4⟩ := done r' b b' h2
  rw [← hr] at c1 c2 c3 c4
  exact ⟨by rw [d1, c1, i1], by rw [d2, c2, i2], by rw [d3, c3, i3], by rw [d4, c4, i4, i5]⟩

theorem jump_inv (legacy : Bool) (rs : List Round) (s : FState) (fcorr : BitVec 32) (fo : Bool) (src fsrc : Bytes)
    (h : Initial s fcorr fo src fsrc) (hns : NoStall legacy rs s) (a' : AState) (ha : aRun legacy rs (abst s) = (a', none)) :
    ∃ n, Pos src a' n ∧ a'.out.length = 8 * (n / 8) ∧ (a'.isset = decide (0 < n / 8)) ∧
      (0 < n / 8 → ∃ t : ℕ, (times legacy src)[n / 8 - 1]? = some t ∧ a'.tsref.toNat = t ∧
        (times legacy a'.out)[n / 8 - 1]? = some ((a'.tsref + a'.ovf).toNat % 2 ^ 54)) := by
  obtain ⟨hw, ho, hp, hout, -, -, hi, -⟩ := initial_wf h
  refine clean_ind (rs := rs) (fun _ a n => a.out.length = 8 * (n / 8) ∧ (a.isset = decide (0 < n / 8)) ∧
      (0 < n / 8 → ∃ t : ℕ, (times legacy src)[n / 8 - 1]? = some t ∧ a.tsref.toNat = t ∧
        (times legacy a.out)[n / 8 - 1]? = some ((a.tsref + a.ovf).toNat % 2 ^ 54))) hp
    ⟨by rw [show (abst s).out = [] from hout]; rfl, hi, by intro hc; simp at hc⟩ ?_ a' ha
  rintro rs1 r a a1 n hpre r1 r2 hpos ⟨i1, i2, i3⟩ hst
  obtain ⟨-, -, -, -, -, ⟨g1, ge, g2⟩ | ⟨n', gl, -, g2, ge, go⟩⟩ := aStep_clean legacy r src a a1 n hpos hst
  · have e1 : a1.tsref = a.tsref := congrArg EState.tsref ge
    have e2 : a1.isset = a.isset := congrArg EState.isset ge
    have e5 : a1.ovf = a.ovf := congrArg EState.ovf ge
    exact ⟨n, g1, by rw [g2]; exact i1, by rw [e2]; exact i2, by rw [e1, e5, g2]; exact i3⟩
  · obtain ⟨x, X1, X2⟩ := run_of_abst hw ho r1
    obtain ⟨y, Y1, Y2⟩ := run_of_abst hw ho r2
    have hne : between src n n' ≠ [] := by
      intro hc
      have h1 : y.src ≠ x.src := by
        have e1 : y.src = a1.src := by rw [← Y2]; rfl
        have e2 : x.src = a.src := by rw [← X2]; rfl
        rw [e1, e2, g2.src, hpos.src]
        intro hc
        have := congrArg List.length hc
        rw [List.length_drop, List.length_drop] at this
        have := g2.le
        omega
      apply hns rs1 r x y hpre X1 Y1 h1
      have e1 : y.out = a1.out := by rw [← Y2]; rfl
      have e2 : x.out = a.out := by rw [← X2]; rfl
      rw [e1, e2, go, hc]
      simp [eBlock]
    have hbl := between_length src n n' g2.le
    have hb0 : 0 < (between src n n').length := List.length_pos_iff.mpr hne
    have hd := Nat.div_le_div_right (c := 8) gl.le
    have hlen : a1.out.length = 8 * (n' / 8) := by
      rw [go, List.length_append, block_length, hbl, i1]
      omega
    obtain ⟨z, hz⟩ : ∃ z, (between src n n').getLast? = some z := by
      cases hc : (between src n n').getLast? with
      | none => rw [List.getLast?_eq_none_iff] at hc; exact absurd hc hne
      | some z => exact ⟨z, rfl⟩
    have hz8 := between_mem (List.mem_of_getLast? hz)
    have e1 : a1.tsref = evMeas legacy z := by
      have : a1.tsref = (eRead legacy a.fcorr (between src n n') a.e).tsref := congrArg EState.tsref ge
      rw [this]; unfold eRead; simp [hz]
    have e5 : a1.ovf = a.ovf + tsCorr a.fcorr (eRef legacy (between src n n') a.e) (evMeas legacy z) := by
      have : a1.ovf = (eRead legacy a.fcorr (between src n n') a.e).ovf := congrArg EState.ovf ge
      rw [this]; unfold eRead; simp [hz]; rfl
    have e2 : a1.isset = true := by
      have : a1.isset = (eRead legacy a.fcorr (between src n n') a.e).isset := congrArg EState.isset ge
      rw [this]; unfold eRead; simp [hne]
    refine ⟨n', g2, hlen, ?_, ?_⟩
    · rw [e2]; simp; omega
    · intro _
      refine ⟨evTime legacy z, ?_, by rw [e1]; exact evMeas_toNat _ _ hz8, ?_⟩
      · have hgl : ((times legacy src).take (n' / 8)).getLast? = some (evTime legacy z) := by
          have h2 : (times legacy src).take (n' / 8) = (times legacy src).take (n / 8) ++ (between src n n').map (evTime legacy) := by
            rw [times_between]
            conv_lhs => rw [← List.take_append_drop (n / 8) ((times legacy src).take (n' / 8))]
            rw [List.take_take, min_eq_left hd]
          rw [h2, List.getLast?_append, List.getLast?_map, hz]
          rfl
        rw [List.getLast?_eq_getElem?, List.length_take] at hgl
        have hl : (times legacy src).length = src.length / 8 := by simp [times, events_length]
        have := g2.le
        rw [hl, min_eq_left (by omega), List.getElem?_take_of_lt (by omega)] at hgl
        exact hgl
      · have hgl : (times legacy a1.out).getLast? = some ((a1.tsref + a1.ovf).toNat % 2 ^ 54) := by
          unfold times
          rw [go, events_append _ _ _ i1, List.map_append, events_block, List.map_map, List.getLast?_append, List.getLast?_map, hz]
          simp only [Option.map_some, Option.some_or, Option.some.injEq, Function.comp]
          rw [evTime_evCorrect _ _ _ _ _ hz8, e1, e5]
          congr 2
          rw [BitVec.add_assoc, BitVec.add_comm (tsCorr _ _ _)]
          rfl
        rw [List.getLast?_eq_getElem?] at hgl
        have hl : (times legacy a1.out).length = n' / 8 := by
          simp only [times, List.length_map, events_length]; omega
        rw [hl] at hgl
        exact hgl

theorem jump_arith (u1 t1 : ℕ) (R O : BitVec 64) (hR : R.toNat = t1) (h : u1 = (R + O).toNat % 2 ^ 54) :
    (u1 : ℤ) % 2 ^ 54 = ((t1 : ℤ) + O.toInt) % 2 ^ 54 := by
  have h1 : O.toInt = O.toNat ∨ O.toInt = (O.toNat : ℤ) - 2 ^ 64 := by
    rw [BitVec.toInt_eq_toNat_cond]
    split
    · exact Or.inl rfl
    · exact Or.inr rfl
  rw [BitVec.toNat_add, hR] at h
  generalize O.toInt = o at *
  generalize O.toNat = x at *
  omega

theorem jump_arith' (u1 t1 t2 o c : ℤ) (h : u1 % 2 ^ 54 = (t1 + o) % 2 ^ 54) :
    (t2 + (o + c)) % 2 ^ 54 = (u1 + (t2 - t1) + c) % 2 ^ 54 := by
  omega

end Fp
