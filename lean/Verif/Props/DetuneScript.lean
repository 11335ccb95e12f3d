import Verif.Lemmas.DetuneScript

/-! # C77 for the whole script -/
namespace Fp
open Spec

/-- **C77** for the whole script: from a file of events in the legacy format, of at most 2^40 ns (18 minutes) and times below
2^45 ns, it writes the events of channel 1 unchanged as text, and for each detuning of 1e-10, …, 1e-3 a file that holds the
events of channel 4 with the times of the detuned clock, up to the resolution of 1/256 ns and 2^-11 ns. -/
theorem C77_script (r0 : Nat × Nat) (raws : List (Nat × Nat)) (hv : ∀ r ∈ r0 :: raws, Valid r)
    (hs : ∀ r ∈ raws, r0.1 ≤ r.1) (hd : ∀ r ∈ raws, timeIn .ns1 r.1 ≤ timeIn .ns1 r0.1 + 2 ^ 40)
    (hb : ∀ r ∈ r0 :: raws, timeIn .ns1 r.1 < 2 ^ 45) :
    ∃ files, detuneScript ((r0 :: raws).flatMap (a1Event true)) =
        .ok (((r0 :: raws).filter fun r => decide (r.2 = 1)).flatMap a2Event, files) ∧
      List.Forall₂ (fun (k : Nat) file => ∃ out : List (ℚ × Nat), readA1 64 true .ns1 true file =
          .ok (out.map fun e => (.flt e.1, e.2)) ∧
        List.Forall₂ (fun (r : Nat × Nat) (e : ℚ × Nat) => e.2 = 8 ∧
          |e.1 - detunedClock (1 / 10 ^ k) 0 (timeIn .ns1 r0.1) (timeIn .ns1 r.1)| ≤ 1 / 256 + 1 / 2 ^ 11)
          ((r0 :: raws).filter fun r => decide (r.2 = 8)) out) [10, 9, 8, 7, 6, 5, 4, 3] files := by
  have hread := C03_modes_exact 64 (by norm_num) true .ns1 true (r0 :: raws) hv
  have hk : ∀ k : Nat, ∃ d, 3 ≤ k → detune (fl 53 (1 / 10 ^ k)) 0 8
      ((r0 :: raws).map fun r => (readValue .ns1 true r.1, r.2)) = .ok d ∧
      ∃ out : List (ℚ × Nat), readA1 64 true .ns1 true (writeA1 64 true .ns1 d) = .ok (out.map fun e => (.flt e.1, e.2)) ∧
        List.Forall₂ (fun (r : Nat × Nat) (e : ℚ × Nat) => e.2 = 8 ∧
          |e.1 - detunedClock (1 / 10 ^ k) 0 (timeIn .ns1 r0.1) (timeIn .ns1 r.1)| ≤ 1 / 256 + 1 / 2 ^ 11)
          ((r0 :: raws).filter fun r => decide (r.2 = 8)) out := by
    intro k
    by_cases h3 : 3 ≤ k
    · obtain ⟨d, hd⟩ := script_file r0 raws hv hs hd hb k h3
      exact ⟨d, fun _ => hd⟩
    · exact ⟨[], fun h => absurd h h3⟩
  choose D hD using hk
  have hge : ∀ k ∈ [10, 9, 8, 7, 6, 5, 4, 3], 3 ≤ k := by decide
  refine ⟨[10, 9, 8, 7, 6, 5, 4, 3].map fun k => writeA1 64 true .ns1 (D k), ?_, ?_⟩
  · unfold detuneScript
    rw [hread]
    simp only [bind, Except.bind, pure, Except.pure]
    rw [mapM_ok _ (fun k => writeA1 64 true .ns1 (D k)) _ (by
      intro k hk
      rw [(hD k (hge k hk)).1])]
    simp only
    congr 2
    rw [C06_a2_file 64 (by norm_num) .ns1 _ ((r0 :: raws).filter fun r => decide (r.2 = 1))]
    rw [List.filter_map, List.forall₂_map_left_iff]
    change List.Forall₂ _ ((r0 :: raws).filter fun r => decide (r.2 = 1)) _
    rw [List.forall₂_same]
    intro r hr
    exact ⟨rfl, rfl, hv r (List.mem_filter.mp hr).1⟩
  · rw [List.forall₂_map_right_iff, List.forall₂_same]
    intro k hk
    exact (hD k (hge k hk)).2

/-- Instance of C77: the hypotheses hold for an event of each channel, 10 s apart. -/
example : ∃ files, detuneScript ([(256, 1), (256 * 10000000001, 8)].flatMap (a1Event true)) =
    .ok ([(256, 1)].flatMap a2Event, files) := by
  obtain ⟨files, h, -⟩ := C77_script (256, 1) [(256 * 10000000001, 8)] (by simp [Valid]) (by simp)
    (by intro r hr; simp only [List.mem_singleton] at hr; subst hr; norm_num [timeIn, Tsres.value])
    (by
      intro r hr
      simp only [List.mem_cons, List.not_mem_nil, or_false] at hr
      rcases hr with rfl | rfl <;> norm_num [timeIn, Tsres.value])
  exact ⟨files, h⟩

end Fp
