import Verif.Spec.Freqcd
import Verif.Lemmas.FreqcdBuf
import Mathlib.Tactic.Ring
import Mathlib.Tactic.Linarith
import Mathlib.Tactic.NormNum
import Mathlib.Algebra.Order.Ring.Abs

/-! Arithmetic of a corrected event. -/
namespace Fp
open Spec

theorem leNat_append (a b : Bytes) : leNat (a ++ b) = leNat a + 256 ^ a.length * leNat b := by
  induction a with
  | nil => simp [leNat]
  | cons c cs ih =>
    rw [List.cons_append, leNat, ih, leNat, List.length_cons, pow_succ]
    ring

theorem word_lt (legacy : Bool) (ev : Bytes) (h : ev.length = 8) : word legacy ev < 2 ^ 64 := by
  unfold word
  have h1 := leNat_lt ev
  have h2 := leNat_lt (ev.take 4)
  have h3 := leNat_lt (ev.drop 4)
  simp only [h, List.length_take, List.length_drop] at h1 h2 h3
  norm_num at h1 h2 h3
  cases legacy
  · simp only [Bool.false_eq_true, if_false]; omega
  · simp only [if_true]; omega

theorem leNat_halves (ev : Bytes) (h : ev.length = 8) : leNat ev = leNat (ev.drop 4) * 2 ^ 32 + leNat (ev.take 4) := by
  conv_lhs => rw [← List.take_append_drop 4 ev]
  rw [leNat_append, List.length_take, h]
  norm_num
  ring

/-- The words of an event. -/
theorem words_of (legacy : Bool) (ev : Bytes) (h : ev.length = 8) :
    ((if legacy then firstWord ev else secondWord ev).toNat = word legacy ev / 2 ^ 32) ∧
    ((if legacy then secondWord ev else firstWord ev).toNat = word legacy ev % 2 ^ 32) := by
  have h1 := leNat_lt (ev.take 4)
  have h2 := leNat_lt (ev.drop 4)
  have h3 := leNat_halves ev h
  simp only [List.length_take, List.length_drop, h] at h1 h2
  norm_num at h1 h2
  unfold firstWord secondWord word
  cases legacy
  · simp only [Bool.false_eq_true, if_false, BitVec.toNat_ofNat]
    omega
  · simp only [if_true, BitVec.toNat_ofNat]
    omega

theorem evMeas_toNat (legacy : Bool) (ev : Bytes) (h : ev.length = 8) : (evMeas legacy ev).toNat = evTime legacy ev := by
  obtain ⟨h1, h2⟩ := words_of legacy ev h
  have hw := word_lt legacy ev h
  have : evMeas legacy ev = ((if legacy then firstWord ev else secondWord ev).setWidth 64 <<< 22) |||
      ((if legacy then secondWord ev else firstWord ev) >>> 10).setWidth 64 := by
    unfold evMeas
    cases legacy <;> rfl
  rw [this]
  generalize (if legacy then firstWord ev else secondWord ev) = hi at h1 ⊢
  generalize (if legacy then secondWord ev else firstWord ev) = lo at h2 ⊢
  rw [BitVec.toNat_or, BitVec.toNat_shiftLeft, BitVec.toNat_setWidth, BitVec.toNat_setWidth, BitVec.toNat_ushiftRight,
    Nat.shiftRight_eq_div_pow, Nat.shiftLeft_eq, h1, h2]
  unfold evTime
  generalize word legacy ev = w at hw ⊢
  have e1 : w / 2 ^ 32 % 2 ^ 64 * 2 ^ 22 % 2 ^ 64 = (w / 2 ^ 32) <<< 22 := by
    rw [Nat.shiftLeft_eq]
    omega
  have e2 : w % 2 ^ 32 / 2 ^ 10 % 2 ^ 64 = w % 2 ^ 32 / 2 ^ 10 := by omega
  rw [e1, e2, ← Nat.shiftLeft_add_eq_or_of_lt (by omega), Nat.shiftLeft_eq]
  omega

theorem evTime_lt (legacy : Bool) (ev : Bytes) (h : ev.length = 8) : evTime legacy ev < 2 ^ 54 := by
  have := word_lt legacy ev h
  unfold evTime
  omega

/-- The corrected event as a number. -/
theorem word_evCorrect (legacy : Bool) (fcorr : BitVec 32) (tsref ovf : BitVec 64) (ev : Bytes) (h : ev.length = 8) :
    word legacy (evCorrect legacy fcorr tsref ovf ev) =
      (evMeas legacy ev + tsCorr fcorr tsref (evMeas legacy ev) + ovf).toNat % 2 ^ 54 * 2 ^ 10 + evFlags legacy ev := by
  obtain ⟨-, h2⟩ := words_of legacy ev h
  unfold evCorrect
  simp only
  generalize evMeas legacy ev + tsCorr fcorr tsref (evMeas legacy ev) + ovf = ts
  unfold evFlags
  generalize hlo : (if legacy = true then secondWord ev else firstWord ev) = lo at h2 ⊢
  have hhi : ((ts >>> 22).setWidth 32 : BitVec 32).toNat = ts.toNat / 2 ^ 22 % 2 ^ 32 := by
    rw [BitVec.toNat_setWidth, BitVec.toNat_ushiftRight, Nat.shiftRight_eq_div_pow]
  have hlow : (((ts <<< 10) ||| (lo &&& 0x3ff).setWidth 64).setWidth 32 : BitVec 32).toNat =
      ts.toNat % 2 ^ 22 * 2 ^ 10 + word legacy ev % 2 ^ 10 := by
    have hm : (lo &&& 0x3ff).toNat = word legacy ev % 2 ^ 10 := by
      rw [BitVec.toNat_and, show (0x3ff : BitVec 32).toNat = 2 ^ 10 - 1 from rfl, Nat.and_two_pow_sub_one_eq_mod, h2]
      omega
    rw [BitVec.toNat_setWidth, BitVec.toNat_or, BitVec.toNat_shiftLeft, BitVec.toNat_setWidth, hm]
    have e1 : ts.toNat <<< 10 % 2 ^ 64 = (ts.toNat % 2 ^ 54) <<< 10 := by
      rw [Nat.shiftLeft_eq, Nat.shiftLeft_eq]
      omega
    rw [e1, Nat.mod_eq_of_lt (show word legacy ev % 2 ^ 10 < 2 ^ 64 by omega), ← Nat.shiftLeft_add_eq_or_of_lt (by omega), Nat.shiftLeft_eq]
    omega
  generalize ((ts >>> 22).setWidth 32 : BitVec 32) = hi at hhi ⊢
  generalize (((ts <<< 10) ||| (lo &&& 0x3ff).setWidth 64).setWidth 32 : BitVec 32) = low at hlow ⊢
  have hil := hi.isLt
  have hll := low.isLt
  unfold word at *
  cases legacy
  · simp only [Bool.false_eq_true, if_false] at *
    unfold eventBytes
    rw [leNat_append, leBytes_length, leNat_leBytes, leNat_leBytes, hlow, hhi]
    norm_num
    omega
  · simp only [if_true] at *
    unfold eventBytes
    rw [List.take_left' (leBytes_length _ _), List.drop_left' (leBytes_length _ _), leNat_leBytes, leNat_leBytes, hlow, hhi]
    norm_num
    omega

theorem evTime_evCorrect (legacy : Bool) (fcorr : BitVec 32) (tsref ovf : BitVec 64) (ev : Bytes) (h : ev.length = 8) :
    evTime legacy (evCorrect legacy fcorr tsref ovf ev) =
      (evMeas legacy ev + tsCorr fcorr tsref (evMeas legacy ev) + ovf).toNat % 2 ^ 54 := by
  unfold evTime
  rw [word_evCorrect _ _ _ _ _ h]
  have : evFlags legacy ev < 2 ^ 10 := by unfold evFlags; omega
  omega

theorem evFlags_evCorrect (legacy : Bool) (fcorr : BitVec 32) (tsref ovf : BitVec 64) (ev : Bytes) (h : ev.length = 8) :
    evFlags legacy (evCorrect legacy fcorr tsref ovf ev) = evFlags legacy ev := by
  unfold evFlags
  rw [word_evCorrect _ _ _ _ _ h]
  unfold evFlags
  omega

/-- Value of the correction for times not before the reference. -/
theorem tsCorr_toInt (fcorr : BitVec 32) (tsref tsmeas : BitVec 64) (hle : tsref.toNat ≤ tsmeas.toNat) (hm : tsmeas.toNat < 2 ^ 54)
    (hf : |fcorr.toInt| < 2 ^ 21) :
    (tsCorr fcorr tsref tsmeas).toInt = (((tsmeas.toNat : ℤ) - tsref.toNat) / 2 ^ 12 * fcorr.toInt) / 2 ^ 22 := by
  unfold tsCorr
  have hd : (tsmeas - tsref).toNat = tsmeas.toNat - tsref.toNat := BitVec.toNat_sub_of_le hle
  have hx : ((tsmeas - tsref) >>> 12).toNat = (tsmeas.toNat - tsref.toNat) / 2 ^ 12 := by
    rw [BitVec.toNat_ushiftRight, Nat.shiftRight_eq_div_pow, hd]
  have hxi : ((tsmeas - tsref) >>> 12).toInt = ((tsmeas.toNat : ℤ) - tsref.toNat) / 2 ^ 12 := by
    rw [BitVec.toInt_eq_toNat_of_lt (by rw [hx]; omega), hx]
    push_cast [Nat.cast_sub hle]
    rfl
  have hfi : (fcorr.signExtend 64).toInt = fcorr.toInt := BitVec.toInt_signExtend_of_le (by norm_num)
  rw [BitVec.toInt_sshiftRight, BitVec.toInt_mul, hxi, hfi, Int.shiftRight_eq_div_pow]
  have hX : 0 ≤ ((tsmeas.toNat : ℤ) - tsref.toNat) / 2 ^ 12 ∧ ((tsmeas.toNat : ℤ) - tsref.toNat) / 2 ^ 12 < 2 ^ 42 := by omega
  generalize ((tsmeas.toNat : ℤ) - tsref.toNat) / 2 ^ 12 = X at hX
  generalize fcorr.toInt = F at hf
  obtain ⟨hf1, hf2⟩ := abs_lt.mp hf
  have hp : |X * F| < 2 ^ 63 := by
    rw [abs_mul, abs_of_nonneg hX.1]
    calc X * |F| ≤ 2 ^ 42 * |F| := mul_le_mul_of_nonneg_right hX.2.le (abs_nonneg _)
      _ < 2 ^ 42 * 2 ^ 21 := by linarith
      _ = 2 ^ 63 := by norm_num
  obtain ⟨hp1, hp2⟩ := abs_lt.mp hp
  rw [Int.bmod_eq_of_le (by omega) (by omega)]
  rfl

end Fp
