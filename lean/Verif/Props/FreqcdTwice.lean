import Verif.Props.Freqcd
import Verif.Lemmas.FreqcdRuns
import Verif.Spec.FreqcdTwice

/-! # C102: two corrections one after the other, and undoing a correction -/
namespace Fp
open Spec

/-- The ideal correction of C42 without wrapping around. -/
theorem run_no_wrap (legacy : Bool) (rs : List Round) (s s' : FState) (f : BitVec 32) (fo : Bool) (src fsrc : Bytes)
    (h : Initial s f fo src fsrc) (stop : Option Stop) (hrun : fRun legacy rs s = .ok (s', stop))
    (hf : |f.toInt| < 2 ^ 21) (hconst : Throughout legacy rs s fun s1 => s1.fcorr = f)
    (hord : (times legacy src).Pairwise (· ≤ ·)) (hns : NoStall legacy rs s) (hmax : ∀ t ∈ times legacy src, t ≤ 2 ^ 54 - 2 ^ 41) (t0 : ℕ)
    (ht0 : (times legacy src).head? = some t0) :
    ∃ m, List.Forall₂ (fun (o t : ℕ) => t0 ≤ o ∧ 2 ^ 13 * ((o : ℤ) - t) ≤ (t : ℤ) - t0 ∧
      |((o : ℚ) - t0) - ((t : ℚ) - t0) * (1 + f.toInt / 2 ^ 34)| < (3 / 2 : ℚ) * (reads rs : ℚ)) (times legacy s'.out) ((times legacy src).take m) := by
  obtain ⟨us, h1, -, m, h2⟩ := ideal_run h hrun (fun g => g = f) (fun g hg => by rw [hg]; exact hf)
    (fun k c t => (2 ^ 13 * c ≤ (t : ℤ) - t0 ∧ (t0 : ℤ) ≤ t + c) ∧ |(c : ℚ) - ((t : ℚ) - t0) * f.toInt / 2 ^ 34| ≤ (3 / 2 : ℚ) * (k : ℚ) ∧
      (0 < k → |(c : ℚ) - ((t : ℚ) - t0) * f.toInt / 2 ^ 34| < (3 / 2 : ℚ) * (k : ℚ))) t0
    (fun t ht => by rw [ht0, Option.some.injEq] at ht; exact ht.symm)
    (fun k => by
      simp only [Int.cast_zero, sub_self, zero_mul, zero_div, abs_zero]
      refine ⟨by simp, by positivity, fun hk => by positivity⟩)
    (by
      rintro g rfl k c r t hrt ⟨⟨i1, i2⟩, hg, -⟩
      have := corrOf_approx g.toInt ((t : ℤ) - r) hf
      have a1 := corrOf_le g.toInt ((t : ℤ) - r) (by omega) hf
      have a2 := corrOf_mono g.toInt 0 ((t : ℤ) - r) (by omega) hf
      rw [corrOf_zero] at a2
      have hsum : |((c + corrOf g.toInt ((t : ℤ) - r) : ℤ) : ℚ) - ((t : ℚ) - t0) * g.toInt / 2 ^ 34| < 3 / 2 * ((k + 1 : ℕ) : ℚ) := by
        have e : ((c + corrOf g.toInt ((t : ℤ) - r) : ℤ) : ℚ) - ((t : ℚ) - t0) * g.toInt / 2 ^ 34 =
            ((c : ℚ) - ((r : ℚ) - t0) * g.toInt / 2 ^ 34) + ((corrOf g.toInt ((t : ℤ) - r) : ℚ) - (((t : ℤ) - r : ℤ) : ℚ) * g.toInt / 2 ^ 34) := by
          push_cast
          ring
        rw [e]
        push_cast at this ⊢
        calc _ ≤ _ := abs_add_le _ _
          _ < 3 / 2 * (k : ℚ) + 3 / 2 := add_lt_add_of_le_of_lt hg this
          _ = _ := by ring
      exact ⟨⟨by linarith, by linarith⟩, hsum.le, fun _ => hsum⟩)
    (by
      rintro k c t ⟨hi, hg, -⟩
      have : |(c : ℚ) - ((t : ℚ) - t0) * f.toInt / 2 ^ 34| < 3 / 2 * ((k + 1 : ℕ) : ℚ) := by
        push_cast
        linarith
      exact ⟨hi, this.le, fun _ => this⟩) hord hconst hns
  refine ⟨m, ?_⟩
  obtain ⟨hl, hall⟩ := List.forall₂_iff_get.mp h2
  have hlen := congrArg List.length h1
  rw [List.length_map, List.length_map] at hlen
  rw [List.forall₂_iff_get]
  refine ⟨hlen.trans hl, ?_⟩
  intro i hi hi2
  have hg := hall i (by omega) hi2
  have hm := hmax _ (List.mem_of_mem_take (List.getElem_mem hi2))
  have hou : ((times legacy s'.out)[i] : ℤ) = us[i]'(by omega) % 2 ^ 54 := by
    have := congrArg (fun l => l[i]?) h1
    simp only [List.getElem?_map, List.getElem?_eq_getElem hi, List.getElem?_eq_getElem (show i < us.length by omega), Option.map_some,
      Option.some.injEq] at this
    exact this
  simp only [List.get_eq_getElem] at hg ⊢
  obtain ⟨hpos, ⟨g1, g2⟩, -, g3⟩ := hg
  have g3 := g3 hpos
  generalize ((times legacy src).take m)[i] = t at *
  generalize (times legacy s'.out)[i] = o at *
  generalize us[i]'(by omega) = u at *
  have hu : u % 2 ^ 54 = u := Int.emod_eq_of_lt (by omega) (by omega)
  rw [hu] at hou
  subst hou
  refine ⟨by omega, g1, ?_⟩
  have e : ((o : ℚ) - t0) - ((t : ℚ) - t0) * (1 + f.toInt / 2 ^ 34) = (((o : ℤ) - t : ℤ) : ℚ) - ((t : ℚ) - t0) * f.toInt / 2 ^ 34 := by
    push_cast
    ring
  rw [e]
  exact g3

/-- **C102**: two corrections one after the other are the composed linear correction, up to 3/2 units for every read. -/
theorem C102_composed (legacy : Bool) (n1 n2 : ℤ) (rs1 rs2 : List Round) (src mid out : Bytes) (h1 : CorrectedBy legacy n1 rs1 src mid)
    (h2 : CorrectedBy legacy n2 rs2 mid out) (hord : (times legacy src).Pairwise (· ≤ ·)) (hmax : ∀ t ∈ times legacy src, t ≤ 2 ^ 54 - 2 ^ 41)
    (i : ℕ) (o t t0 : ℕ) (hi : (times legacy out)[i]? = some o) (hti : (times legacy src)[i]? = some t)
    (ht0 : (times legacy src).head? = some t0) :
    ∃ c : ℤ, (o : ℤ) = (t + c) % 2 ^ 54 ∧
      |((t : ℚ) + c - t0) - ((t : ℚ) - t0) * (1 + n1 / 2 ^ 34) * (1 + n2 / 2 ^ 34)| < (3 / 2 : ℚ) * (reads rs1 * (1 + 1 / 2 ^ 13) + reads rs2) := by
  obtain ⟨s, s', f, fo, fsrc, stop, rfl, hf, hinit, hrun, hconst, hns, rfl⟩ := h1
  obtain ⟨z, z', g, go, gsrc, gstop, rfl, hg, ginit, grun, gconst, gns, rfl⟩ := h2
  obtain ⟨m, hm⟩ := run_no_wrap legacy rs1 s s' f fo src fsrc hinit stop hrun hf hconst hord hns hmax t0 ht0
  have hord2 := C43_order_partial legacy rs1 s s' f fo src fsrc hinit stop hrun
    (fun rs1 r s1 a b => by show |s1.fcorr.toInt| < 2 ^ 21; rw [hconst rs1 r s1 a b]; exact hf) hord hns hmax
  obtain ⟨hl, hall⟩ := List.forall₂_iff_get.mp hm
  have hpre := (C39_prefix legacy rs2 z z' g go s'.out gsrc ginit gstop grun).length_le
  have hlen : (times legacy z'.out).length ≤ (times legacy s'.out).length := by
    unfold flags at hpre
    unfold times
    rw [List.length_map, List.length_map] at hpre ⊢
    exact hpre
  have hil := (List.getElem?_eq_some_iff.mp hi).1
  have him : i < (times legacy s'.out).length := by omega
  have hit : i < ((times legacy src).take m).length := by omega
  have hel : ((times legacy src).take m)[i] = t := by
    have := (List.getElem?_eq_some_iff.mp hti).2
    rw [List.getElem_take, this]
  have hhead : (times legacy s'.out).head? = some t0 := by
    have h0 := hall 0 (by omega) (by omega)
    simp only [List.get_eq_getElem] at h0
    have hel0 : ((times legacy src).take m)[0]'(by omega) = t0 := by
      rw [List.getElem_take]
      rw [List.head?_eq_getElem?] at ht0
      exact (List.getElem?_eq_some_iff.mp ht0).2
    rw [hel0] at h0
    rw [List.head?_eq_getElem?, List.getElem?_eq_getElem (by omega)]
    congr 1
    omega
  have hi1 := hall i him hit
  simp only [List.get_eq_getElem] at hi1
  rw [hel] at hi1
  obtain ⟨-, -, hb⟩ := hi1
  obtain ⟨c2, e1, e2⟩ := C42_approximation_partial legacy rs2 z z' g go s'.out gsrc ginit gstop grun hg gconst hord2 gns i o
    ((times legacy s'.out)[i]) t0 hi (List.getElem?_eq_getElem him) hhead
  generalize (times legacy s'.out)[i] = u at *
  refine ⟨(u : ℤ) - t + c2, by rw [e1]; congr 1; ring, ?_⟩
  have hx2 : |1 + (g.toInt : ℚ) / 2 ^ 34| ≤ 1 + 1 / 2 ^ 13 := by
    have hq : |(g.toInt : ℚ)| < 2 ^ 21 := by exact_mod_cast hg
    rw [abs_lt] at hq
    rw [abs_le]
    constructor
    · have : -(2 : ℚ) ^ 21 / 2 ^ 34 < g.toInt / 2 ^ 34 := by
        apply div_lt_div_of_pos_right hq.1 (by norm_num)
      norm_num at this ⊢
      linarith
    · have : (g.toInt : ℚ) / 2 ^ 34 < 2 ^ 21 / 2 ^ 34 := by
        apply div_lt_div_of_pos_right hq.2 (by norm_num)
      norm_num at this ⊢
      linarith
  have e : ((t : ℚ) + (((u : ℤ) - t + c2 : ℤ) : ℚ) - t0) - ((t : ℚ) - t0) * (1 + f.toInt / 2 ^ 34) * (1 + g.toInt / 2 ^ 34) =
      (((u : ℚ) - t0) - ((t : ℚ) - t0) * (1 + f.toInt / 2 ^ 34)) * (1 + g.toInt / 2 ^ 34) + ((c2 : ℚ) - ((u : ℚ) - t0) * g.toInt / 2 ^ 34) := by
    push_cast
    ring
  rw [e]
  generalize ((u : ℚ) - t0) - ((t : ℚ) - t0) * (1 + f.toInt / 2 ^ 34) = d1 at *
  generalize (c2 : ℚ) - ((u : ℚ) - t0) * g.toInt / 2 ^ 34 = d2 at *
  generalize 1 + (g.toInt : ℚ) / 2 ^ 34 = x at *
  have h3 := abs_add_le (d1 * x) d2
  rw [abs_mul] at h3
  have h4 : |d1| * |x| ≤ 3 / 2 * (reads rs1 : ℚ) * (1 + 1 / 2 ^ 13) := by
    apply mul_le_mul hb.le hx2 (abs_nonneg _) (by positivity)
  linarith

/-- **C102**: the correction that inverts the first one, rounded to a whole number of units, undoes it: every time comes back
up to 3/2 units for every read and half a unit of the correction. -/
theorem C102_undo (legacy : Bool) (n1 n2 : ℤ) (rs1 rs2 : List Round) (src mid out : Bytes) (h1 : CorrectedBy legacy n1 rs1 src mid)
    (h2 : CorrectedBy legacy n2 rs2 mid out) (hord : (times legacy src).Pairwise (· ≤ ·)) (hmax : ∀ t ∈ times legacy src, t ≤ 2 ^ 54 - 2 ^ 41)
    (hinv : |(n2 : ℚ) - 2 ^ 34 * (1 / (1 + n1 / 2 ^ 34) - 1)| ≤ 1 / 2)
    (i : ℕ) (o t t0 : ℕ) (hi : (times legacy out)[i]? = some o) (hti : (times legacy src)[i]? = some t)
    (ht0 : (times legacy src).head? = some t0) :
    ∃ c : ℤ, (o : ℤ) = (t + c) % 2 ^ 54 ∧
      |(c : ℚ)| < (3 / 2 : ℚ) * (reads rs1 * (1 + 1 / 2 ^ 13) + reads rs2) + ((t : ℚ) - t0) * (1 + 1 / 2 ^ 13) / 2 ^ 35 := by
  obtain ⟨c, e1, e2⟩ := C102_composed legacy n1 n2 rs1 rs2 src mid out h1 h2 hord hmax i o t t0 hi hti ht0
  refine ⟨c, e1, ?_⟩
  have ht : t0 ≤ t := by
    rw [List.head?_eq_getElem?] at ht0
    obtain ⟨a1, a2⟩ := List.getElem?_eq_some_iff.mp ht0
    obtain ⟨b1, b2⟩ := List.getElem?_eq_some_iff.mp hti
    rw [List.pairwise_iff_getElem] at hord
    rcases Nat.eq_zero_or_pos i with rfl | hpos
    · rw [a2] at b2
      omega
    · have := hord 0 i a1 b1 hpos
      omega
  have htq : (0 : ℚ) ≤ (t : ℚ) - t0 := by
    have : (t0 : ℚ) ≤ t := by exact_mod_cast ht
    linarith
  have hn1 : |(n1 : ℚ)| < 2 ^ 21 := by
    obtain ⟨s, s', f, fo, fsrc, stop, rfl, hf, -⟩ := h1
    exact_mod_cast hf
  have hx : |(n1 : ℚ) / 2 ^ 34| < 1 / 2 ^ 13 := by
    rw [abs_div, abs_of_pos (by norm_num : (0 : ℚ) < 2 ^ 34), div_lt_div_iff₀ (by norm_num) (by norm_num)]
    norm_num at hn1 ⊢
    linarith
  generalize (n1 : ℚ) / 2 ^ 34 = x at *
  have hy : |(n2 : ℚ) / 2 ^ 34 - (1 / (1 + x) - 1)| ≤ 1 / 2 ^ 35 := by
    have e : (n2 : ℚ) / 2 ^ 34 - (1 / (1 + x) - 1) = ((n2 : ℚ) - 2 ^ 34 * (1 / (1 + x) - 1)) / 2 ^ 34 := by ring
    rw [e, abs_div, abs_of_pos (by norm_num : (0 : ℚ) < 2 ^ 34), div_le_div_iff₀ (by norm_num) (by norm_num)]
    norm_num at hinv ⊢
    linarith
  generalize (n2 : ℚ) / 2 ^ 34 = y at *
  rw [abs_lt] at hx
  have hxp : 0 < 1 + x := by
    have := hx.1
    norm_num at this
    linarith
  have e : (c : ℚ) = (((t : ℚ) + c - t0) - ((t : ℚ) - t0) * (1 + x) * (1 + y)) + ((t : ℚ) - t0) * ((1 + x) * (y - (1 / (1 + x) - 1))) := by
    field_simp
    ring
  rw [e]
  refine (abs_add_le _ _).trans_lt (add_lt_add_of_lt_of_le e2 ?_)
  rw [abs_mul, abs_of_nonneg htq, abs_mul, abs_of_pos hxp, mul_div_assoc]
  apply mul_le_mul_of_nonneg_left _ htq
  rw [show (1 + 1 / 2 ^ 13 : ℚ) / 2 ^ 35 = (1 + 1 / 2 ^ 13) * (1 / 2 ^ 35) by ring]
  exact mul_le_mul (by linarith [hx.2]) hy (abs_nonneg _) (by norm_num)

/-- Three events 4 ms apart, corrected by 10^6 units (58 ppm) and back by -999942 units, read in pieces: they come back up to two
units. -/
example : ∃ src mid out, CorrectedBy false 1000000 [rd 16, rd 8] src mid ∧ CorrectedBy false (-999942) [rd 20, rd 8] mid out ∧
    |((-999942 : ℤ) : ℚ) - 2 ^ 34 * (1 / (1 + ((1000000 : ℤ) : ℚ) / 2 ^ 34) - 1)| ≤ 1 / 2 ∧ times false src = [0, 1000000000, 2000000000] ∧
    times false mid = [0, 1000058207, 2000116414] ∧ times false out = [0, 999999999, 1999999998] := by
  obtain ⟨s1, a1, a2, -⟩ := demo_run false [rd 16, rd 8] 0 1000000 false
    [1, 0, 0, 0, 0, 0, 0, 0, 1, 0, 40, 107, 238, 0, 0, 0, 1, 0, 80, 214, 220, 1, 0, 0] [] _ _ _ none ⟨rfl, rfl, rfl, by decide +kernel⟩
  obtain ⟨s2, b1, b2, -⟩ := demo_run false [rd 20, rd 8] 0 (-999942) false
    (aRun false [rd 16, rd 8] (demoA 0 1000000 false [1, 0, 0, 0, 0, 0, 0, 0, 1, 0, 40, 107, 238, 0, 0, 0, 1, 0, 80, 214, 220, 1, 0, 0] [])).1.out []
    _ _ _ none ⟨rfl, rfl, rfl, by decide +kernel⟩
  refine ⟨_, _, _, ⟨_, s1, 1000000, false, [], none, by decide +kernel, by norm_num, demo_initial 0 _ _ _ _, a1, closed_const (demo_initial _ _ _ _ _),
    demo_noStall (by decide +kernel), a2⟩, ⟨_, s2, -999942, false, [], none, by decide +kernel, by norm_num, demo_initial 0 _ _ _ _, b1,
    closed_const (demo_initial _ _ _ _ _), demo_noStall (by decide +kernel), b2⟩, ?_, by decide +kernel, by decide +kernel, by decide +kernel⟩
  rw [abs_le]
  constructor <;> norm_num

end Fp
