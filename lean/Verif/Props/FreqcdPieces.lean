import Verif.Props.FreqcdTwice
import Verif.Props.FreqcdRate

/-! # C122: recordings corrected in pieces -/
namespace Fp
open Spec

/-- **C122** (partial): correct a recording `a ++ b` in one run and its second piece `b` in a run of its own.  Every event of the second
piece comes out at two times whose difference is that of the ideal corrections of the first events of the pieces, up to 3/2 units for
every read: inside the piece both runs give the same distances. -/
theorem C122_pieces_partial (legacy : Bool) (n : ℤ) (rs1 rs2 : List Round) (a b out1 out2 : Bytes) (h1 : CorrectedBy legacy n rs1 (a ++ b) out1)
    (h2 : CorrectedBy legacy n rs2 b out2) (ha : 8 ∣ a.length) (hord : (times legacy (a ++ b)).Pairwise (· ≤ ·))
    (i o1 o2 ta tb : ℕ) (hi1 : (times legacy out1)[(times legacy a).length + i]? = some o1) (hi2 : (times legacy out2)[i]? = some o2)
    (hta : (times legacy (a ++ b)).head? = some ta) (htb : (times legacy b).head? = some tb) :
    ∃ c : ℤ, (o1 : ℤ) = (o2 + c) % 2 ^ 54 ∧ |(c : ℚ) - ((tb : ℚ) - ta) * n / 2 ^ 34| < (3 / 2 : ℚ) * (reads rs1 + reads rs2) := by
  obtain ⟨k, hk⟩ := ha
  have happ : times legacy (a ++ b) = times legacy a ++ times legacy b := by
    unfold times
    rw [events_append a b k hk, List.map_append]
  obtain ⟨s, s', f, fo, fsrc, stop, rfl, hf, hinit, hrun, hconst, hns, rfl⟩ := h1
  obtain ⟨z, z', g, go, gsrc, gstop, hgn, hg, ginit, grun, gconst, gns, rfl⟩ := h2
  have hpre := (C39_prefix legacy rs2 z z' g go b gsrc ginit gstop grun).length_le
  have hlen : (times legacy z'.out).length ≤ (times legacy b).length := by
    unfold flags at hpre
    unfold times
    rw [List.length_map, List.length_map] at hpre ⊢
    exact hpre
  have hib : i < (times legacy b).length := lt_of_lt_of_le (List.getElem?_eq_some_iff.mp hi2).1 hlen
  obtain ⟨t, ht⟩ : ∃ t, (times legacy b)[i]? = some t := ⟨_, List.getElem?_eq_getElem hib⟩
  have ht' : (times legacy (a ++ b))[(times legacy a).length + i]? = some t := by
    rw [happ, List.getElem?_append_right (by omega), Nat.add_sub_cancel_left]
    exact ht
  have hordb : (times legacy b).Pairwise (· ≤ ·) := by
    rw [happ] at hord
    exact (List.pairwise_append.1 hord).2.1
  obtain ⟨c1, e1, d1⟩ := C42_approximation_partial legacy rs1 s s' f fo (a ++ b) fsrc hinit stop hrun hf hconst hord hns _ o1 t ta hi1 ht' hta
  obtain ⟨c2, e2, d2⟩ := C42_approximation_partial legacy rs2 z z' g go b gsrc ginit gstop grun (by rw [hgn]; exact hf) gconst hordb gns i o2 t tb hi2 ht htb
  rw [hgn] at d2
  refine ⟨c1 - c2, ?_, ?_⟩
  · rw [e1, e2, Int.emod_add_emod]
    congr 1
    ring
  · have e : ((c1 - c2 : ℤ) : ℚ) - ((tb : ℚ) - ta) * f.toInt / 2 ^ 34 =
        ((c1 : ℚ) - ((t : ℚ) - ta) * f.toInt / 2 ^ 34) - ((c2 : ℚ) - ((t : ℚ) - tb) * f.toInt / 2 ^ 34) := by
      push_cast
      ring
    rw [e]
    calc _ ≤ _ := abs_sub _ _
      _ < _ := add_lt_add d1 d2
      _ = _ := by ring

/-- **C122 is violated**: as soon as the correction between the beginnings of the pieces is `3/2` units for every read or more (and less
than half of the range of times), no event of the second piece comes out at the time it has in the single run. -/
theorem C122_violated (legacy : Bool) (n : ℤ) (rs1 rs2 : List Round) (a b out1 out2 : Bytes) (h1 : CorrectedBy legacy n rs1 (a ++ b) out1)
    (h2 : CorrectedBy legacy n rs2 b out2) (ha : 8 ∣ a.length) (hord : (times legacy (a ++ b)).Pairwise (· ≤ ·))
    (i o1 o2 ta tb : ℕ) (hi1 : (times legacy out1)[(times legacy a).length + i]? = some o1) (hi2 : (times legacy out2)[i]? = some o2)
    (hta : (times legacy (a ++ b)).head? = some ta) (htb : (times legacy b).head? = some tb)
    (hbig : (3 / 2 : ℚ) * (reads rs1 + reads rs2) ≤ |((tb : ℚ) - ta) * n / 2 ^ 34|) (hreads : (3 / 2 : ℚ) * (reads rs1 + reads rs2) < 2 ^ 53)
    (htop : |((tb : ℚ) - ta) * n / 2 ^ 34| ≤ 2 ^ 53) : o1 ≠ o2 := by
  obtain ⟨c, hc, hd⟩ := C122_pieces_partial legacy n rs1 rs2 a b out1 out2 h1 h2 ha hord i o1 o2 ta tb hi1 hi2 hta htb
  rintro rfl
  have hz : c ≠ 0 := by
    rintro rfl
    rw [Int.cast_zero, zero_sub, abs_neg] at hd
    linarith
  have hlt : |c| < 2 ^ 54 := by
    have : |(c : ℚ)| < 2 ^ 54 := by
      have := abs_add_le ((c : ℚ) - ((tb : ℚ) - ta) * n / 2 ^ 34) (((tb : ℚ) - ta) * n / 2 ^ 34)
      rw [sub_add_cancel] at this
      linarith
    exact_mod_cast this
  have := abs_lt.1 hlt
  omega

/-- Three events 4 ms apart, corrected by 10^6 units (58 ppm) in one run, and the last two of them in a run of their own: both come out
58207 units (0.2 us) earlier in the second case. -/
example : ∃ a b out1 out2, CorrectedBy false 1000000 [rd 16, rd 8] (a ++ b) out1 ∧ CorrectedBy false 1000000 [rd 16] b out2 ∧ 8 ∣ a.length ∧
    times false (a ++ b) = [0, 1000000000, 2000000000] ∧ times false out1 = [0, 1000058207, 2000116414] ∧
    times false out2 = [1000000000, 2000058207] ∧
    (3 / 2 : ℚ) * (reads [rd 16, rd 8] + reads [rd 16]) ≤ |((1000000000 : ℚ) - 0) * (1000000 : ℤ) / 2 ^ 34| := by
  obtain ⟨s1, a1, a2, -⟩ := demo_run false [rd 16, rd 8] 0 1000000 false
    ([1, 0, 0, 0, 0, 0, 0, 0] ++ [1, 0, 40, 107, 238, 0, 0, 0, 1, 0, 80, 214, 220, 1, 0, 0]) [] _ _ _ none ⟨rfl, rfl, rfl, by decide +kernel⟩
  obtain ⟨s2, b1, b2, -⟩ := demo_run false [rd 16] 0 1000000 false
    [1, 0, 40, 107, 238, 0, 0, 0, 1, 0, 80, 214, 220, 1, 0, 0] [] _ _ _ none ⟨rfl, rfl, rfl, by decide +kernel⟩
  refine ⟨_, _, _, _, ⟨_, s1, 1000000, false, [], none, by decide +kernel, by norm_num, demo_initial 0 _ _ _ _, a1, closed_const (demo_initial _ _ _ _ _),
    demo_noStall (by decide +kernel), a2⟩, ⟨_, s2, 1000000, false, [], none, by decide +kernel, by norm_num, demo_initial 0 _ _ _ _, b1,
    closed_const (demo_initial _ _ _ _ _), demo_noStall (by decide +kernel), b2⟩, by decide, by decide +kernel, by decide +kernel, by decide +kernel, ?_⟩
  rw [show reads [rd 16, rd 8] = 2 by decide, show reads [rd 16] = 1 by decide, abs_of_pos] <;> norm_num

end Fp
