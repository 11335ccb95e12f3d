import Verif.Props.RawFilter

/-! # C70 for the report of `--inmemory` -/
namespace Fp

/-- **C70** with all events in memory: the report gives the time between the first and the last event in seconds, to within a relative
error of 2^-51, and the number of events divided by it, rounded down. -/
theorem C70_inmemory (w : Nat) (hw : 53 ≤ w) (events : List (Num × Nat)) (e0 el : Num × Nat) (h0 : events.head? = some e0)
    (hl : events.getLast? = some el) (hne : e0.1.val ≠ el.1.val) :
    ∃ r d, printStatistics events = .ok r ∧ printReport w r = .ok (some (d, ⌊(events.length : ℚ) / d⌋)) ∧ d ≠ 0 ∧
      |d - (el.1.val - e0.1.val) / 1000000000| ≤ |el.1.val - e0.1.val| / 1000000000 / 2 ^ 51 := by
  have hd : fl w (fl w (el.1.val - e0.1.val) * fl 53 (1 / 1000000000)) ≠ 0 := by
    apply fl_ne_zero w (by omega)
    apply mul_ne_zero
    · apply fl_ne_zero w (by omega)
      exact sub_ne_zero.mpr (Ne.symm hne)
    · apply fl_ne_zero 53 (by norm_num)
      norm_num
  have hlen : events.length ≠ 0 := by
    intro hc
    rw [List.length_eq_zero_iff] at hc
    rw [hc] at h0
    simp at h0
  obtain ⟨r, hr, r1, r2, r3⟩ : ∃ r, printStatistics events = .ok r ∧ r.numEvents = events.length ∧ r.start = some e0.1.val ∧
      r.stop = some el.1.val := by
    unfold printStatistics
    simp only [List.head?_map, List.getLast?_map, h0, hl, Option.map_some]
    exact ⟨_, rfl, by simp, rfl, rfl⟩
  refine ⟨r, _, hr, ?_, hd, scaled_err w hw _⟩
  unfold printReport
  rw [r1, if_neg hlen, r2, r3]
  simp only []
  rw [if_neg hd]

/-- Instance of C70_inmemory: three events within 2 seconds. -/
example : ∃ r d, printStatistics [(.u64 0, 1), (.u64 5, 2), (.u64 2000000000, 1)] = .ok r ∧
    printReport 53 r = .ok (some (d, ⌊((3 : ℕ) : ℚ) / d⌋)) ∧ |d - 2| ≤ 2 / 2 ^ 51 := by
  obtain ⟨r, d, h1, h2, -, h3⟩ := C70_inmemory 53 le_rfl [(.u64 0, 1), (.u64 5, 2), (.u64 2000000000, 1)] (.u64 0, 1) (.u64 2000000000, 1)
    rfl rfl (by simp [Num.val])
  refine ⟨r, d, h1, h2, ?_⟩
  norm_num [Num.val, abs_of_pos] at h3 ⊢
  exact h3

end Fp
