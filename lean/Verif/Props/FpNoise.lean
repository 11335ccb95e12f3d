import Verif.Lemmas.FpNoise

/-! # C103: a correlation with noise, jitter and drift -/
namespace Fp
open Spec

/-- **C103** Among any other events, let pairs of events of both arrays be at the distance `D` up to `δ` (jitter and drift), and
let every bin away from `D` count fewer than a `w`-th of their number, where `w` is the number of bins they can spread over.  Then
the smaller candidate of `get_timing_delay_fft` is less than one bin and `δ` away from `D`, if `D` is within half a period.
(`generate_fft`, `get_xcorr` with exact Fourier transforms, `get_timing_delay_fft`.) -/
theorem C103_found (a b : List ℚ) (h : Nat) (hh : 0 < h) (res : ℚ) (hr : 0 < res) (D δ : ℚ) (w : Nat)
    (hs : StandsOut a b (2 * h) res D δ w) (hD : |D| + (res + δ) ≤ ((2 * h : Nat) : ℚ) * res / 2) :
    ∃ fa fb d1 d2, generateFft a (2 * h) res = .ok fa ∧ generateFft b (2 * h) res = .ok fb ∧
      getTimingDelayFft (getXcorr fa fb) (uniformBins (2 * h) res) = .ok (d1, d2) ∧ |d1 - D| < res + δ := by
  have hM := hs.2.1
  have ha : a ≠ [] := by rintro rfl; simp [pairsNear] at hM
  have hb : b ≠ [] := by rintro rfl; simp [pairsNear] at hM
  obtain ⟨fa, fb, ga, gb, hl, hget⟩ := C28_correlation a b ha hb h hh res
  have hne : getXcorr fa fb ≠ [] := by
    intro hc
    rw [hc] at hl
    simp at hl
    omega
  obtain ⟨p, d1, d2, e1, e2, e3, -, -, e4, -⟩ := C29_delay_candidates (getXcorr fa fb) hne res hr
  rw [hl] at e2 e3 e4
  refine ⟨fa, fb, d1, d2, ga, gb, e2, ?_⟩
  obtain ⟨p', f1, f2, f3, f4⟩ := standsOut_argmax a b (2 * h) (by omega) hr hs (getXcorr fa fb) hl (by
    intro k x hx
    have hk : k < 2 * h := by
      rw [← hl]
      exact (List.getElem?_eq_some_iff.mp hx).1
    rw [hget k hk] at hx
    injection hx with hx
    rw [hx, sub_self, abs_zero]
    norm_num)
  obtain rfl : p = p' := by
    obtain ⟨x, x1, x2, x3⟩ := e1
    obtain ⟨y, y1, y2, y3⟩ := f2
    rcases lt_trichotomy p p' with hc | hc | hc
    · exact absurd (x2 y (List.mem_of_getElem? y1)) (not_le.mpr (y3 p hc x x1))
    · exact hc
    · exact absurd (y2 x (List.mem_of_getElem? x1)) (not_le.mpr (x3 p' hc y y1))
  exact near_delay f4 hD e3 e4

/-- A correlation of windows that contain events. -/
theorem correlate_windows (P : TFParams) (hra : P.rndA = fl 64) (n : Nat) (hn64 : n < 2 ^ 64) (hN : P.numBins = n) (hn : 0 < n)
    (bts : List ℚ) (res start dur : ℚ) (hres : 0 < res)
    (qa : ∀ t ∈ inWindowR P.rndA start dur P.ats, |⌊t / res⌋| + 2 ≤ 2 ^ 59)
    (qb : ∀ t ∈ inWindowR P.rndA start dur bts, |⌊t / res⌋| + 2 ≤ 2 ^ 59)
    (ha : inWindowR P.rndA start dur P.ats ≠ []) (hb : inWindowR P.rndA start dur bts ≠ []) (ys : List ℚ)
    (hys : ys = P.xcorr (histogram (inWindowR P.rndA start dur P.ats) n res) (histogram (inWindowR P.rndA start dur bts) n res))
    (hl : ys.length = n) :
    ∃ v, getTimingDelayFft ys ((List.range n).map fun k : Nat => P.rnd ((k : ℚ) * res)) = .ok v ∧
      tfCorrelate P bts res start dur = .ok (ys, v.1) := by
  have hslice : ∀ ts : List ℚ, inWindowR P.rndA start dur ts ≠ [] →
      sliceTimestampsR P.rndA ts (some start) (some dur) = .ok (inWindowR P.rndA start dur ts) := by
    intro ts hne
    unfold sliceTimestampsR
    simp only [pure, Except.pure, bind, Except.bind]
    have e : inWindowR P.rndA start dur ts =
        ((ts.map fun t => P.rndA (t - start)).filter fun t => decide (0 ≤ t)).filter fun t => decide (t < dur) := by
      unfold inWindowR
      rw [List.filter_filter]
      congr 1
      funext t
      simp [and_comm]
    rw [if_neg (by
      intro hc
      rw [e, hc] at hne
      exact hne rfl), e]
  have hbin : ∀ w : List ℚ, w ≠ [] → (∀ t ∈ w, |⌊t / res⌋| + 2 ≤ 2 ^ 59) →
      generateBinsR (fl 64) w n res = .ok (histogram w n res) := by
    intro w hw hq
    rw [← generateBins_histogram w n hn res hw]
    unfold generateBinsR generateBins
    rw [List.map_congr_left (g := binOf n res)]
    intro t ht
    unfold binOfR binOf
    rw [C75_floor_divide 64 (by norm_num) t res hres (hq t ht), remainder_exact 64 _ n hn hn64, Int.floor_intCast]
  have hne : ys ≠ [] := by
    rintro rfl
    simp at hl
    omega
  obtain ⟨p, p1, p2⟩ := argmax_spec ys hne
  have p3 : p < n := by rw [← hl]; exact firstMax_lt _ _ p2
  have hd : ∃ v, getTimingDelayFft ys ((List.range n).map fun k : Nat => P.rnd ((k : ℚ) * res)) = .ok v := by
    unfold getTimingDelayFft
    rw [p1]
    simp only [hl]
    rw [List.getElem?_map, List.getElem?_map, List.getElem?_range p3, List.getElem?_range (by split_ifs <;> omega)]
    exact ⟨_, rfl⟩
  obtain ⟨v, hv⟩ := hd
  refine ⟨v, hv, ?_⟩
  unfold tfCorrelate
  rw [hslice _ ha, hslice _ hb]
  simp only [bind, Except.bind, pure, Except.pure, hN]
  rw [hra] at ha hb qa qb hys ⊢
  rw [hbin _ ha qa, hbin _ hb qb]
  simp only [← hys, hv]

theorem firstMax_unique {α : Type} [Field α] [LinearOrder α] [IsStrictOrderedRing α] {ys : List α} {p p' : Nat} (h : FirstMax ys p)
    (h' : FirstMax ys p') : p = p' := by
  obtain ⟨x, x1, x2, x3⟩ := h
  obtain ⟨y, y1, y2, y3⟩ := h'
  rcases lt_trichotomy p p' with hc | hc | hc
  · exact absurd (x2 y (List.mem_of_getElem? y1)) (not_le.mpr (y3 p hc x x1))
  · exact hc
  · exact absurd (y2 x (List.mem_of_getElem? x1)) (not_le.mpr (x3 p' hc y y1))

/-- **C103** in the arithmetic in use, for the correlations of `time_freq`: a numerical correlation that is off by less than half a
pair in every bin, and windows as they are computed. -/
theorem C103_rounded (P : TFParams) (hr : P.rnd = fl 53) (hra : P.rndA = fl 64) (n : Nat) (hn64 : n < 2 ^ 64)
    (hN : P.numBins = n) (hn : 0 < n) (bts : List ℚ) (res start dur : ℚ) (hres : 0 < res)
    (qa : ∀ t ∈ inWindowR P.rndA start dur P.ats, |⌊t / res⌋| + 2 ≤ 2 ^ 59)
    (qb : ∀ t ∈ inWindowR P.rndA start dur bts, |⌊t / res⌋| + 2 ≤ 2 ^ 59) (D δ : ℚ) (w : Nat)
    (hs : StandsOut (inWindowR P.rndA start dur P.ats) (inWindowR P.rndA start dur bts) n res D δ w)
    (hx : XcorrAccurate P.xcorr (inWindowR P.rndA start dur P.ats) (inWindowR P.rndA start dur bts) n res)
    (hD : |D| + (res + δ) ≤ (n : ℚ) * res / 2) :
    ∃ ys d, tfCorrelate P bts res start dur = .ok (ys, d) ∧ |d - D| < res + δ + (|D| + (res + δ)) / 2 ^ 53 := by
  have hM := hs.2.1
  set a := inWindowR P.rndA start dur P.ats with hadef
  set b := inWindowR P.rndA start dur bts with hbdef
  have ha : a ≠ [] := by intro hc; rw [hc] at hM; simp [pairsNear] at hM
  have hb : b ≠ [] := by intro hc; rw [hc] at hM; simp [pairsNear] at hM
  obtain ⟨hl, hy⟩ := hx
  obtain ⟨p, p1, p2, p3, p4⟩ := standsOut_argmax a b n hn hres hs _ hl hy
  obtain ⟨v, hv, hc⟩ := correlate_windows P hra n hn64 hN hn bts res start dur hres qa qb ha hb _ rfl hl
  refine ⟨_, v.1, hc, ?_⟩
  have hrel : RelErr P.rnd := by rw [hr]; exact C34_relErr.1
  have h0 : P.rnd 0 = 0 := by
    have := hrel 0
    simpa using this
  refine near_delay_rounded hrel _ hl hres (peakDelay_iff P.rnd h0 _ res v ?_) ?_ hD
  · rw [hl]; exact hv
  · intro p' hp'
    rw [firstMax_unique hp' p2]
    exact p4

/-- The number of true coincidences is at least that of the pairs of common events contained in both arrays. -/
theorem C103_count (common : List (ℚ × ℚ)) (a b : List ℚ) (D δ : ℚ) (ha : (common.map Prod.fst).Sublist a)
    (hb : (common.map Prod.snd).Sublist b) (h : ∀ c ∈ common, |c.2 - c.1 - D| ≤ δ) : common.length ≤ pairsNear a b D δ := by
  have hmono : ∀ a' b', a'.Sublist a → b'.Sublist b → pairsNear a' b' D δ ≤ pairsNear a b D δ := by
    intro a' b' h1 h2
    unfold pairsNear
    refine (List.Sublist.sum_le_sum (h1.map fun x => b'.countP fun y => decide (|y - x - D| ≤ δ)) (by simp)).trans ?_
    exact List.sum_le_sum fun x _ => h2.countP_le
  refine le_trans ?_ (hmono _ _ ha hb)
  clear hmono ha hb
  induction common with
  | nil => simp
  | cons c cs ih =>
    have e : pairsNear ((c :: cs).map Prod.fst) ((c :: cs).map Prod.snd) D δ ≥
        1 + pairsNear (cs.map Prod.fst) (cs.map Prod.snd) D δ := by
      unfold pairsNear
      simp only [List.map_cons, List.sum_cons, List.countP_cons]
      rw [if_pos (by simpa using h c (by simp))]
      have : (List.map (fun x => List.countP (fun y => decide (|y - x - D| ≤ δ)) (List.map Prod.snd cs)) (List.map Prod.fst cs)).sum ≤
          (List.map (fun x => List.countP (fun y => decide (|y - x - D| ≤ δ)) (List.map Prod.snd cs) +
            if decide (|c.2 - x - D| ≤ δ) = true then 1 else 0) (List.map Prod.fst cs)).sum :=
        List.sum_le_sum fun x _ => Nat.le_add_right _ _
      omega
    have := ih fun c hc => h c (List.mem_cons_of_mem _ hc)
    rw [List.length_cons]
    omega

/-- Instance of C103: seven common events with a delay of 5 ns and a jitter of 1/4 ns, and two others. -/
example : ∃ fa fb d1 d2, generateFft [7, 16, 105, 219, 247, 292, 295] (2 * 32) 1 = .ok fa ∧
    generateFft [12, 85 / 4, 439 / 4, 224, 236, 251, 1009 / 4, 297, 1199 / 4] (2 * 32) 1 = .ok fb ∧
    getTimingDelayFft (getXcorr fa fb) (uniformBins (2 * 32) 1) = .ok (d1, d2) ∧ |d1 - 5| < 1 + 1 / 4 := by
  refine C103_found _ _ 32 (by norm_num) 1 (by norm_num) 5 (1 / 4) 3 ⟨by norm_num, by decide +kernel, ?_⟩ (by norm_num [abs_of_pos])
  have h1 : ∀ k : Nat, k < 2 * 32 → (k = 4 ∨ k = 5 ∨ k = 6) ∨ 3 * pairsAt [7, 16, 105, 219, 247, 292, 295]
      [12, 85 / 4, 439 / 4, 224, 236, 251, 1009 / 4, 297, 1199 / 4] (2 * 32) 1 (k : ℤ) <
      pairsNear [7, 16, 105, 219, 247, 292, 295] [12, 85 / 4, 439 / 4, 224, 236, 251, 1009 / 4, 297, 1199 / 4] 5 (1 / 4) := by
    decide +kernel
  intro k hk hbad
  rcases h1 k hk with (rfl | rfl | rfl) | h
  · exact absurd ⟨0, by norm_num [abs_of_neg]⟩ hbad
  · exact absurd ⟨0, by norm_num⟩ hbad
  · exact absurd ⟨0, by norm_num [abs_of_pos]⟩ hbad
  · exact h

end Fp
