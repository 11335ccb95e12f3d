import Verif.Lemmas.Detune

/-! # C77: detuned timestamps; C78: writing times that are not on the grid -/
namespace Fp
open Spec

/-! ## C78 -/

/-- **C78**: writing any non-negative times (as floats with `fw` significant bits, in any unit) stores each time rounded down
to the resolution of 4 ps, and the patterns unchanged; so reading the file back returns times that are early by less than
4 ps. -/
theorem C78_write_floor (fw : Nat) (hfw : 54 ≤ fw) (legacy : Bool) (res : Tsres) (events : List (ℚ × Nat))
    (h : ∀ e ∈ events, fl fw e.1 = e.1 ∧ 0 ≤ e.1 ∧ ⌊e.1 * 256 / res.value⌋ < 2 ^ 54 ∧ e.2 < 16) :
    writeA1 fw legacy res (events.map fun e => (.flt e.1, e.2)) =
        (events.flatMap fun e => a1Event legacy (⌊e.1 * 256 / res.value⌋.toNat, e.2)) ∧
      ∃ out : List (ℚ × Nat), readA1 fw legacy res true (writeA1 fw legacy res (events.map fun e => (.flt e.1, e.2))) =
          .ok (out.map fun e => (.flt e.1, e.2)) ∧
        List.Forall₂ (fun (e o : ℚ × Nat) => o.2 = e.2 ∧ o.1 ≤ e.1 ∧ e.1 < o.1 + res.value / 256) events out := by
  have hfile : writeA1 fw legacy res (events.map fun e => (.flt e.1, e.2)) =
        (events.flatMap fun e => a1Event legacy (⌊e.1 * 256 / res.value⌋.toNat, e.2)) := by
    unfold writeA1 consolidateEvents
    simp only [Bool.false_eq_true, if_false]
    rw [List.map_map, List.flatMap_map]
    apply List.flatMap_congr
    intro e he
    obtain ⟨h1, h2, h3, h4⟩ := h e he
    simp only [Function.comp]
    rw [consolidate_floor fw res e.1 e.2 h1 h2 h3 (by omega)]
    exact encode_eq_a1Event legacy (⌊e.1 * 256 / res.value⌋.toNat, e.2) ⟨by show ⌊e.1 * 256 / (res.value : ℚ)⌋.toNat < 2 ^ 54; omega, h4⟩
  refine ⟨hfile, ?_⟩
  refine ⟨events.map fun e => (timeIn res ⌊e.1 * 256 / res.value⌋.toNat, e.2), ?_, ?_⟩
  · rw [hfile]
    have := C03_modes_exact fw hfw legacy res true (events.map fun e => (⌊e.1 * 256 / res.value⌋.toNat, e.2)) (by
      intro r hr
      obtain ⟨e, he, rfl⟩ := List.mem_map.mp hr
      obtain ⟨h1, h2, h3, h4⟩ := h e he
      exact ⟨by show _ < 2 ^ 54; omega, h4⟩)
    rw [List.flatMap_map] at this
    rw [this, List.map_map, List.map_map]
    rfl
  · rw [List.forall₂_map_right_iff, List.forall₂_same]
    intro e he
    obtain ⟨h1, h2, h3, h4⟩ := h e he
    have hv : (0 : ℚ) < res.value := by cases res <;> norm_num [Tsres.value]
    have hn : ((⌊e.1 * 256 / (res.value : ℚ)⌋.toNat : ℕ) : ℚ) = ((⌊e.1 * 256 / (res.value : ℚ)⌋ : ℤ) : ℚ) := by
      have := Int.toNat_of_nonneg (Int.floor_nonneg.mpr (show 0 ≤ e.1 * 256 / (res.value : ℚ) by positivity))
      exact_mod_cast this
    have g1 := Int.floor_le (e.1 * 256 / (res.value : ℚ))
    have g2 := Int.lt_floor_add_one (e.1 * 256 / (res.value : ℚ))
    refine ⟨rfl, ?_, ?_⟩
    · simp only [timeIn]
      rw [hn]
      rw [le_div_iff₀ hv] at g1
      linarith
    · simp only [timeIn]
      rw [hn]
      rw [div_lt_iff₀ hv] at g2
      linarith

/-- Instance of C78: a third of a nanosecond (as a float) is stored as 85 units of 4 ps. -/
example : writeA1 64 true .ns1 [(.flt (fl 64 (1 / 3)), 8)] = a1Event true (85, 8) := by decide +kernel

/-! ## C77 -/

/-- **C77**: `detune` returns exactly the events of the given channel, in order; each time is that of the detuned clock up to
the precision of a double for the factor (2^-53) and four roundings to 64 bits. -/
theorem C77_detune (ratio offset : ℚ) (hr' : 0 ≤ 1 + ratio) (channel : Nat) (r0 : Nat × Nat) (raws : List (Nat × Nat))
    (hv : ∀ r ∈ r0 :: raws, Valid r) (hs : ∀ r ∈ raws, r0.1 ≤ r.1) :
    ∃ out : List (ℚ × Nat), detune ratio offset channel ((r0 :: raws).map fun r => (readValue .ns1 true r.1, r.2)) =
        .ok (out.map fun e => (.flt e.1, e.2)) ∧
      List.Forall₂ (fun (r : Nat × Nat) (e : ℚ × Nat) => e.2 = channel ∧ r.2 = channel ∧ fl 64 e.1 = e.1 ∧
        |e.1 - detunedClock ratio offset (timeIn .ns1 r0.1) (timeIn .ns1 r.1)| ≤
          (timeIn .ns1 r.1 - timeIn .ns1 r0.1) * (1 + ratio) / 2 ^ 53 +
          (timeIn .ns1 r0.1 + (timeIn .ns1 r.1 - timeIn .ns1 r0.1) * (1 + ratio) + |offset|) / 2 ^ 62)
        ((r0 :: raws).filter fun r => decide (r.2 = channel)) out := by
  refine ⟨((r0 :: raws).filter fun r => decide (r.2 = channel)).map fun r =>
    (fl 64 (fl 64 (fl 64 ((timeIn .ns1 r.1 - timeIn .ns1 r0.1) * fl 53 (1 + ratio)) + timeIn .ns1 r0.1) + offset), r.2), ?_, ?_⟩
  · rw [detune_raws ratio offset channel r0 raws hv, List.map_map]
    rfl
  · rw [List.forall₂_map_right_iff, List.forall₂_same]
    intro r hr
    obtain ⟨h1, h2⟩ := List.mem_filter.mp hr
    have h2' : r.2 = channel := by simpa using h2
    refine ⟨h2', h2', fl_idem 64 (by norm_num) _, ?_⟩
    have h3 : timeIn .ns1 r0.1 ≤ timeIn .ns1 r.1 := by
      rcases List.mem_cons.mp h1 with rfl | h1
      · exact le_rfl
      · have : (r0.1 : ℚ) ≤ r.1 := by exact_mod_cast hs r h1
        simp only [timeIn]
        gcongr
    have h4 := detune_error ratio offset (timeIn .ns1 r0.1) (timeIn .ns1 r.1 - timeIn .ns1 r0.1) (by linarith) hr'
    rw [abs_of_nonneg (a := timeIn .ns1 r0.1) (by simp only [timeIn]; positivity)] at h4
    exact h4

/-- **C77**: no detuning changes nothing. -/
theorem C77_identity (channel : Nat) (r0 : Nat × Nat) (raws : List (Nat × Nat)) (hv : ∀ r ∈ r0 :: raws, Valid r) :
    detune 0 0 channel ((r0 :: raws).map fun r => (readValue .ns1 true r.1, r.2)) =
      .ok (((r0 :: raws).filter fun r => decide (r.2 = channel)).map fun r => (readValue .ns1 true r.1, r.2)) := by
  rw [detune_raws 0 0 channel r0 raws hv]
  congr 1
  apply List.map_congr_left
  intro r hr
  have hr1 := (List.mem_filter.mp hr).1
  have h1 : fl 53 (1 + 0) = 1 := by
    have := fl_nat 53 1 (by norm_num)
    simpa using this
  have h2 : fl 64 (timeIn .ns1 r.1) = timeIn .ns1 r.1 := by
    have := diff_exact r.1 0 (hv r hr1).1 (by norm_num)
    simpa [timeIn] using this
  rw [h1, mul_one, diff_exact r.1 r0.1 (hv r hr1).1 (hv r0 (by simp)).1, sub_add_cancel, h2, add_zero, h2]
  rfl

/-- Instance of C77: with a clock that is faster by 2^-10, an event 2 s after the first is shown 2^-9 s later; the event of the
other channel is dropped. -/
example : detune (1 / 2 ^ 10) 0 8 ([(256, 1), (256 * 2000000001, 8)].map fun r => (readValue .ns1 true r.1, r.2)) =
    .ok [(.flt (1 + 2000000000 + 2000000000 / 2 ^ 10), 8)] := by
  decide +kernel

end Fp
