import Verif.Lemmas.EpochDates

/-! # Properties of the conversions between dates and epochs: C62 -/
namespace Fp

open Spec

/-! ## C62 -/

/-- **C62**, proved part: for dates of whole seconds before 2038 that are not a multiple of 2^20 s, `date2epoch` returns the
name of the epoch that contains the date. -/
theorem C62_whole_seconds_partial (s : Nat) (h : s < 2 ^ 31) (hs : ¬ 2 ^ 20 ∣ s) :
    date2epoch (s * 10 ^ 6) = hexPad 8 (epochAt (s * 10 ^ 6)) := by
  have e : s * 10 ^ 6 / 10 ^ 6 = s := Nat.mul_div_cancel _ (by norm_num)
  have e2 : s * 8000000000 = s * 10 ^ 6 * 8000 := by ring
  rcases date2epoch_eq (s * 10 ^ 6) (by omega) with h1 | ⟨h1, _⟩
  · rw [h1, e, epochAt, e2]
  · rw [e] at h1
    exact absurd (Nat.dvd_of_mod_eq_zero h1) hs

/-- The hypotheses are met by the date 1676921700 s (2023-02-20), in epoch ba2cfb36. -/
example : date2epoch (1676921700 * 10 ^ 6) = hexPad 8 (epochAt (1676921700 * 10 ^ 6)) :=
  C62_whole_seconds_partial _ (by norm_num) (by norm_num)

/-- For every date before 2038 the result is never a later epoch, and at most two epochs early. -/
theorem C62_bound (us : Nat) (h : us < 2 ^ 31 * 10 ^ 6) :
    ∃ v, date2epoch us = hexPad 8 v ∧ v ≤ epochAt us ∧ epochAt us ≤ v + 2 := by
  unfold epochAt
  rcases date2epoch_eq us h with h1 | ⟨h1, v, h2, h3⟩
  · refine ⟨_, h1, ?_, ?_⟩ <;> omega
  · refine ⟨v, h3, ?_, ?_⟩ <;> omega

/-- `date2epoch` of the first instant of epoch 1953125 (2^20 s after 1970) names the epoch before it: 125e-12 is not a double
and the quotient is rounded down. -/
theorem C62_boundary_violated : epochAt (2 ^ 20 * 10 ^ 6) = 1953125 ∧ date2epoch (2 ^ 20 * 10 ^ 6) = hexPad 8 1953124 := by
  constructor
  · norm_num [epochAt]
  · unfold date2epoch
    rw [timestamp_floor _ (by norm_num), c125]
    have hx : fl 53 ((((2 ^ 20 * 10 ^ 6 / 10 ^ 6 : Nat)) : ℚ) / (4835703278458517 / 2 ^ 85)) = 8388607999999999 := by
      rw [fl_eval 53 _ 52 (by norm_num) (by norm_num)]
      have : rne ((((2 ^ 20 * 10 ^ 6 / 10 ^ 6 : Nat)) : ℚ) / (4835703278458517 / 2 ^ 85) / 2 ^ ((52 : ℤ) - (((53 : ℕ) : ℤ) - 1))) =
          8388607999999999 := by
        unfold rne
        have hf : ⌊(((2 ^ 20 * 10 ^ 6 / 10 ^ 6 : Nat)) : ℚ) / (4835703278458517 / 2 ^ 85) / 2 ^ ((52 : ℤ) - (((53 : ℕ) : ℤ) - 1))⌋ =
            8388607999999999 := by
          rw [Int.floor_eq_iff]; constructor <;> norm_num
        rw [hf]
        norm_num
      rw [this]
      norm_num
    rw [hx]
    have : ⌊(8388607999999999 : ℚ)⌋ = 8388607999999999 := by
      have := Int.floor_intCast (R := ℚ) 8388607999999999
      exact_mod_cast this
    have h2 : (8388607999999999 : ℤ).toNat >>> 32 = 1953124 := by
      rw [Nat.shiftRight_eq_div_pow, show (8388607999999999 : ℤ) = ((8388607999999999 : Nat) : ℤ) from rfl, Int.toNat_natCast]
    rw [this, h2]

/-- The date computed for an epoch is within one microsecond of its exact start, `e * 2^29` ns after 1970. -/
theorem C62_date (e : Nat) (h : e < 2 ^ 32) :
    ∃ us, epoch2date (hexPad 8 e) = .ok us ∧ |(us : ℚ) - (e : ℚ) * 2 ^ 29 / 1000| ≤ 1 := by
  obtain ⟨h0, h1⟩ := epoch_seconds e h
  unfold epoch2date
  rw [pyInt16_hexPad]
  refine ⟨_, rfl, ?_⟩
  generalize fl 53 (fl 53 (((e : ℤ) : ℚ) * 2 ^ 32) * fl 53 (125 / 10 ^ 12)) = x at *
  have h2 := fromTimestamp_err x h0
  generalize (fromTimestamp x : ℚ) = u at *
  rw [abs_le] at *
  obtain ⟨h1a, h1b⟩ := h1
  obtain ⟨h2a, h2b⟩ := h2
  constructor <;> linarith

/-- Epoch ba2cfb33 of the test data. -/
example : ∃ us, epoch2date (hexPad 8 0xba2cfb33) = .ok us ∧ |(us : ℚ) - ((0xba2cfb33 : Nat) : ℚ) * 2 ^ 29 / 1000| ≤ 1 :=
  C62_date 0xba2cfb33 (by norm_num)

/-- `date2epoch` does not invert `epoch2date`: whenever an epoch (before 2038) starts at least one microsecond away from a whole
second, the date of its start is converted to an earlier epoch. -/
theorem C62_roundtrip_violated (e us : Nat) (h : e < 3999999999) (hd : epoch2date (hexPad 8 e) = .ok us)
    (h1 : 1000 < e * 2 ^ 29 % 10 ^ 9) (h2 : e * 2 ^ 29 % 10 ^ 9 + 1000 < 10 ^ 9) :
    ∃ v, date2epoch us = hexPad 8 v ∧ v < e := by
  obtain ⟨us', g1, g2⟩ := C62_date e (h.trans (by norm_num))
  rw [hd] at g1
  injection g1 with g1
  subst g1
  rw [abs_le] at g2
  have a1 : us * 1000 ≤ e * 2 ^ 29 + 1000 := by
    have : (us : ℚ) * 1000 ≤ e * 2 ^ 29 + 1000 := by linarith [g2.2]
    exact_mod_cast this
  have a2 : e * 2 ^ 29 ≤ us * 1000 + 1000 := by
    have : (e : ℚ) * 2 ^ 29 ≤ us * 1000 + 1000 := by linarith [g2.1]
    exact_mod_cast this
  obtain ⟨s, r, hr, hsr⟩ : ∃ s r, r < 10 ^ 9 ∧ e * 2 ^ 29 = s * 10 ^ 9 + r :=
    ⟨e * 2 ^ 29 / 10 ^ 9, e * 2 ^ 29 % 10 ^ 9, Nat.mod_lt _ (by norm_num), by rw [mul_comm (_ / _)]; exact (Nat.div_add_mod _ _).symm⟩
  have hr' : e * 2 ^ 29 % 10 ^ 9 = r := by
    rw [hsr, Nat.mul_add_mod_self_right]
    exact Nat.mod_eq_of_lt hr
  rw [hr'] at h1 h2
  rw [hsr] at a1 a2
  have hs : us / 10 ^ 6 = s := by
    apply Nat.div_eq_of_lt_le <;> linarith
  have hv : s * 8000000000 / 2 ^ 32 < e := by
    rw [Nat.div_lt_iff_lt_mul (by norm_num)]
    linarith
  have hus : us < 2 ^ 31 * 10 ^ 6 := by linarith
  rcases date2epoch_eq us hus with h3 | ⟨_, v, h4, h5⟩
  · rw [hs] at h3
    exact ⟨_, h3, hv⟩
  · rw [hs] at h4
    exact ⟨v, h5, by linarith⟩

/-- Epoch 1 starts 0.536870912 s after 1970; its date is converted to epoch 0. -/
example : ∃ us v, epoch2date (hexPad 8 1) = .ok us ∧ date2epoch us = hexPad 8 v ∧ v < 1 := by
  obtain ⟨us, h, _⟩ := C62_date 1 (by norm_num)
  obtain ⟨v, h1, h2⟩ := C62_roundtrip_violated 1 us (by norm_num) h (by norm_num) (by norm_num)
  exact ⟨us, v, h, h1, h2⟩

end Fp
