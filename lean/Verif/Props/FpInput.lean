import Verif.Lemmas.FpInput
import Verif.Props.FpPrinted

/-! # C120: conditions on the recordings -/
namespace Fp
open Spec

theorem coincidences_jitter {a b : List ℚ} {φ τ lo hi η : ℚ} (h : 0 < coincidences a b φ τ lo hi η) : 0 ≤ η := by
  by_contra hη
  push Not at hη
  have : coincidences a b φ τ lo hi η = 0 := by
    unfold coincidences
    rw [List.sum_eq_zero_iff]
    intro n hn
    obtain ⟨x, -, rfl⟩ := List.mem_map.mp hn
    rw [List.countP_eq_zero]
    intro y _
    have := abs_nonneg (referenceTime φ τ y - x)
    simp only [decide_eq_true_eq, not_and]
    intro _ _
    linarith
  omega

theorem bins_apart {r x y : ℚ} (hr : 0 < r) {k m : ℤ} (h : ⌊y / r⌋ - ⌊x / r⌋ = k + m) : |y - x - (k + m) * r| < r := by
  have hx := Int.floor_le (x / r)
  have hx' := Int.lt_floor_add_one (x / r)
  have hy := Int.floor_le (y / r)
  have hy' := Int.lt_floor_add_one (y / r)
  have hc : ((⌊y / r⌋ : ℤ) : ℚ) - (⌊x / r⌋ : ℤ) = k + m := by exact_mod_cast congrArg (Int.cast (R := ℚ)) h
  have e : y - x - (k + m) * r = (y / r - x / r - (k + m)) * r := by field_simp
  rw [e, abs_mul, abs_of_pos hr]
  have : |y / r - x / r - (k + m)| < 1 := abs_lt.mpr ⟨by linarith, by linarith⟩
  calc |y / r - x / r - (k + m)| * r < 1 * r := mul_lt_mul_of_pos_right this hr
    _ = r := one_mul r

/-- In windows whose target times are displaced by an almost affine correction, prominent coincidences stand out. -/
theorem prominent_stands {rnd : ℚ → ℚ} (hr : RelErr rnd) {A bts : List ℚ} {c : ℚ → ℚ} {φ τ : ℚ} {n : Nat}
    {r s d μ η δ D g e ρ sep : ℚ} {w : Nat} (hn : 0 < n) (hr0 : 0 < r) (hsep : 0 < sep) (hd : d ≤ sep) (he : 0 ≤ e) (hρ : 0 < ρ)
    (hdρ : d / 2 ^ 49 ≤ ρ) (hμ : μ = 4 * (e + 2 * ρ)) (hD : |D| ≤ 1002 / 1000 * e + ρ) (hg : |g| * sep ≤ 201 / 100 * (e + ρ))
    (hg2 : |g| ≤ 1 / 1000)
    (hc : ∀ y ∈ bts, |c y - s - D - (1 + g) * (referenceTime φ τ y - s)| ≤ 1001 / 1000 * ρ)
    (hδ : η + 201 / 100 * (e + ρ) * ((d + μ) / sep) + 3 * ρ ≤ δ) (h : Prominent A bts φ τ n r s d μ η δ w) :
    StandsOut (inWindowR rnd s d A) (inWindowR rnd s d (bts.map c)) n r D δ w := by
  have hη := coincidences_jitter h.some
  have hμ0 : 0 < μ := by rw [hμ]; linarith
  have hself : ∀ x : ℚ, |x - s - 0 - (1 + 0) * (x - s)| ≤ 1001 / 1000 * ρ := by
    intro x
    rw [show x - s - 0 - (1 + 0) * (x - s) = 0 by ring, abs_zero]
    positivity
  have h0 : |(0 : ℚ)| ≤ 1002 / 1000 * e + ρ := by rw [abs_zero]; positivity
  have h0' : |(0 : ℚ)| * sep ≤ 201 / 100 * (e + ρ) := by rw [abs_zero, zero_mul]; positivity
  have hwb : inWindowR rnd s d (bts.map c) = (bts.map fun y => rnd (c y - s)).filter fun t => decide (0 ≤ t ∧ t < d) := by
    unfold inWindowR
    rw [List.map_map]
    rfl
  have hM : coincidences A bts φ τ (s + μ + η) (s + d - μ - η) η ≤ pairsNear (inWindowR rnd s d A) (inWindowR rnd s d (bts.map c)) D δ := by
    rw [hwb]
    unfold pairsNear inWindowR coincidences
    rw [pairs_window A bts (fun x => rnd (x - s)) (fun y => rnd (c y - s)) (fun t => decide (0 ≤ t ∧ t < d))
      (fun x y => decide (|y - x - D| ≤ δ))]
    refine pairs_mono _ _ _ _ fun x _ y hy hxy => ?_
    simp only [decide_eq_true_eq] at hxy
    obtain ⟨x0, x1, hj⟩ := hxy
    have hj' := abs_le.mp hj
    have wx := window_of hr (hself x) h0 h0' hd he hρ hdρ hμ (by linarith) (by linarith)
    have wy := window_of hr (hc y hy) hD hg hd he hρ hdρ hμ (a := referenceTime φ τ y) (by linarith) (by linarith)
    obtain ⟨-, -, k1⟩ := window_in hr (hc y hy) hD hg hg2 hsep hd he hρ hdρ hμ wy.1 wy.2
    have k2 := (rel_window hr wx.1 wx.2 hdρ).2
    simp only [Bool.and_eq_true, decide_eq_true_eq]
    refine ⟨wx, wy, ?_⟩
    have e1 : rnd (c y - s) - rnd (x - s) - D = (rnd (c y - s) - (referenceTime φ τ y - s) - D) - (rnd (x - s) - (x - s)) +
        (referenceTime φ τ y - x) := by ring
    rw [e1]
    have k3 := abs_add_le ((rnd (c y - s) - (referenceTime φ τ y - s) - D) - (rnd (x - s) - (x - s))) (referenceTime φ τ y - x)
    have k4 := abs_sub (rnd (c y - s) - (referenceTime φ τ y - s) - D) (rnd (x - s) - (x - s))
    linarith
  refine ⟨h.width, lt_of_lt_of_le h.some hM, fun k _ hbad => ?_⟩
  have hdist : r + δ ≤ cyclicDist (n * r) (k * r - D) := by
    refine cyclicDist_ge _ _ _ fun m => ?_
    by_contra hc'
    push Not at hc'
    refine hbad ⟨-m, ?_⟩
    rw [show ((k : ℤ) + ((-m : ℤ) : ℚ) * n) * r - D = (k : ℚ) * r - D - n * r * m by push_cast; ring]
    exact hc'
  refine lt_of_le_of_lt ?_ ((h.others (k * r - D) hdist).trans_le hM)
  refine Nat.mul_le_mul_left w ?_
  rw [hwb]
  unfold pairsAt inWindowR pairsAround
  rw [pairs_window A bts (fun x => rnd (x - s)) (fun y => rnd (c y - s)) (fun t => decide (0 ≤ t ∧ t < d))
    (fun x y => decide (⌊y / r⌋ - ⌊x / r⌋ ≡ (k : ℤ) [ZMOD (n : ℤ)]))]
  refine pairs_mono _ _ _ _ fun x _ y hy hxy => ?_
  simp only [Bool.and_eq_true, decide_eq_true_eq] at hxy ⊢
  obtain ⟨wx, wy, hbin⟩ := hxy
  obtain ⟨x1, x2, -⟩ := window_in hr (hself x) h0 h0' (by rw [abs_zero]; norm_num) hsep hd he hρ hdρ hμ wx.1 wx.2
  obtain ⟨y1, y2, k1⟩ := window_in hr (hc y hy) hD hg hg2 hsep hd he hρ hdρ hμ wy.1 wy.2
  have k2 := (rel_window hr wx.1 wx.2 hdρ).2
  obtain ⟨m, hm⟩ := hbin.symm.dvd
  have k3 := bins_apart hr0 (x := rnd (x - s)) (y := rnd (c y - s)) (k := (k : ℤ)) (m := n * m) (by omega)
  push_cast at k3
  refine ⟨⟨⟨x1, x2⟩, ⟨y1, y2⟩, ?_⟩, lt_of_le_of_lt (cyclicDist_le _ _ m (by positivity)) ?_⟩
  · by_contra hco
    push Not at hco
    refine hbad ⟨m, ?_⟩
    have e1 : ((k : ℤ) + ((m : ℤ) : ℚ) * n) * r - D = (rnd (c y - s) - (referenceTime φ τ y - s) - D) - (rnd (x - s) - (x - s)) +
        (referenceTime φ τ y - x) - (rnd (c y - s) - rnd (x - s) - (k + n * m) * r) := by push_cast; ring
    have e2 := abs_sub ((rnd (c y - s) - (referenceTime φ τ y - s) - D) - (rnd (x - s) - (x - s)) +
        (referenceTime φ τ y - x)) (rnd (c y - s) - rnd (x - s) - (k + n * m) * r)
    have e3 := abs_add_le ((rnd (c y - s) - (referenceTime φ τ y - s) - D) - (rnd (x - s) - (x - s))) (referenceTime φ τ y - x)
    have e4 := abs_sub (rnd (c y - s) - (referenceTime φ τ y - s) - D) (rnd (x - s) - (x - s))
    have e5 : |((k : ℤ) + ((m : ℤ) : ℚ) * n) * r - D| < r + δ := by
      rw [e1]
      linarith
    simpa using e5
  have e1 : referenceTime φ τ y - x - (k * r - D) - n * r * m = (rnd (c y - s) - rnd (x - s) - (k + n * m) * r) -
      (rnd (c y - s) - (referenceTime φ τ y - s) - D) + (rnd (x - s) - (x - s)) := by ring
  rw [e1]
  have k4 := abs_add_le ((rnd (c y - s) - rnd (x - s) - (k + n * m) * r) - (rnd (c y - s) - (referenceTime φ τ y - s) - D))
    (rnd (x - s) - (x - s))
  have k5 := abs_sub (rnd (c y - s) - rnd (x - s) - (k + n * m) * r) (rnd (c y - s) - (referenceTime φ τ y - s) - D)
  linarith

/-- What is known after the iterations of a history: the corrections are affine up to rounding, and what is left of the two delays. -/
def NearInv (P : TFParams) (bts : List ℚ) (res : ℚ) (j : Nat) (φ τ : ℚ) (δ : Nat → ℚ) (pre : List TFEntry) : Prop :=
  ∃ f dt, RoundInv P bts f dt pre ∧ (pre ≠ [] →
    |composedR P.rnd P.rndA pre (targetClock φ τ 0)| ≤ 1002 / 1000 * errorAt P res j δ (pre.length - 1) ∧
    |composedR P.rnd P.rndA pre (targetClock φ τ P.sep) - P.sep| ≤ 1002 / 1000 * errorAt P res j δ (pre.length - 1) + P.sep / 2 ^ 49)

section
variable {P : TFParams} {bts : List ℚ} {res : ℚ} {j : Nat} {φ τ B E0 E1 η : ℚ} {δ : Nat → ℚ} {w : Nat → Nat} {L : Nat}

theorem base_sep (C : RunBase P bts res j φ τ B E0 E1 δ w L) : 0 < P.sep := by
  refine lt_of_lt_of_le ?_ C.separation
  have := C.duration
  unfold resRefineFactor
  positivity

theorem base_rounding (C : RunBase P bts res j φ τ B E0 E1 δ w L) : 0 < roundingOf B L ∧ P.sep / 2 ^ 49 ≤ roundingOf B L ∧
    roundingOf B L ≤ E1 / 100 := by
  have hsep := base_sep C
  have hB : P.sep ≤ B := C.times.2.2
  have key : B ≤ (L + 1) * (B + (L + 1) * (101 * 10 ^ 6)) := by
    have hL0 : (0 : ℚ) ≤ L := by positivity
    have t1 : 0 ≤ (L : ℚ) * B := by have : 0 ≤ B := by linarith
                                    positivity
    have t2 : 0 ≤ ((L : ℚ) + 1) * ((L + 1) * (101 * 10 ^ 6)) := by positivity
    nlinarith
  refine ⟨?_, ?_, C.rounding⟩
  · unfold roundingOf
    have : 0 < ((L : ℚ) + 1) * (B + (L + 1) * (101 * 10 ^ 6)) := by linarith
    positivity
  · unfold roundingOf
    exact div_le_div_of_nonneg_right (by linarith) (by norm_num)

/-- Rounding errors of the corrections of a history. -/
theorem base_round (C : RunBase P bts res j φ τ B E0 E1 δ w L) {f dt : ℚ} {pre : List TFEntry} (hR : RoundInv P bts f dt pre)
    (hl : pre.length ≤ L) (t : ℚ) (ht : |t| ≤ B) : |f * composedR P.rnd P.rndA pre t + dt - t| ≤ roundingOf B L / 2 := by
  have hfew := C.few
  have hB : 0 ≤ B := (abs_nonneg _).trans ht
  refine ((hR.2.1 (by omega)).2 t).trans ?_
  have hk : (pre.length : ℚ) ≤ L + 1 := by
    have : pre.length ≤ L + 1 := by omega
    exact_mod_cast this
  have h1 : (pre.length : ℚ) * (|t| + pre.length * (101 * 10 ^ 6)) ≤ (L + 1) * (B + (L + 1) * (101 * 10 ^ 6)) := by
    apply mul_le_mul hk _ (by positivity) (by positivity)
    have := mul_le_mul_of_nonneg_right hk (show (0 : ℚ) ≤ 101 * 10 ^ 6 by norm_num)
    linarith
  have h3 := div_le_div_of_nonneg_right h1 (show (0 : ℚ) ≤ 2 ^ 50 by norm_num)
  refine h3.trans (le_of_eq ?_)
  unfold roundingOf
  rw [div_div]
  norm_num

theorem errorAt_le (C : RunBase P bts res j φ τ B E0 E1 δ w L) {k : Nat} (hk : k ≤ L) : errorAt P res j δ k ≤ E0 := by
  rcases Nat.eq_zero_or_pos k with hz | hz
  · rw [hz]
    exact C.errorFirst
  · exact (C.errorLater _ hz hk).trans C.errors

/-- The true coincidences stand out in the iteration after a history. -/
theorem input_clear (C : ClearInput P bts res j φ τ B E0 E1 η δ w L) {pre : List TFEntry} (hh : History P bts res j pre) (hne : pre ≠ [])
    (hN : NearInv P bts res j φ τ δ pre) (start : ℚ) (hs : start = 0 ∨ start = P.sep) :
    ClearAt P (bts.map (composedR P.rnd P.rndA pre)) (resolutionAt P res j pre.length) start
      (composedR P.rnd P.rndA pre (targetClock φ τ start) - start) (δ pre.length) (w pre.length) := by
  have hkL := history_length hh C.last
  have hk0 : 0 < pre.length := List.length_pos_iff.mpr hne
  have hrelA : RelErr P.rndA := by rw [C.rndA]; exact C76_arithmetic.2
  have hsep := base_sep C.toRunBase
  obtain ⟨hρ, hsρ, hρE⟩ := base_rounding C.toRunBase
  obtain ⟨f, dt, hR, hres⟩ := hN
  obtain ⟨b0, b1⟩ := hres hne
  obtain ⟨d1, d2, d3⟩ := C.range _ hk0 hkL
  have hE := errorAt_le C.toRunBase (show pre.length - 1 ≤ L by omega)
  have hr0 := resolutionAt_pos C.rnd C.resolution C.target j pre.length
  have he : 0 ≤ errorAt P res j δ (pre.length - 1) := by linarith [abs_nonneg (composedR P.rnd P.rndA pre (targetClock φ τ 0))]
  have hφ1 : |φ| ≤ 1 / 2 ^ 13 := by
    have := C.frequency
    have h1 : 0 ≤ 3 * E0 / P.sep := div_nonneg (by linarith) hsep.le
    have h2 : (0 : ℚ) ≤ 1 / 2 ^ 40 := by norm_num
    linarith
  have hφ0 : 0 < 1 + φ := by
    have := (abs_le.mp hφ1).1
    norm_num at this
    linarith
  have hclock : ∀ y, targetClock φ τ (referenceTime φ τ y) = y := by
    intro y
    unfold targetClock referenceTime
    field_simp
    ring
  obtain ⟨c, hc⟩ : ∃ c, c = composedR P.rnd P.rndA pre := ⟨_, rfl⟩
  rw [← hc] at b0 b1 ⊢
  obtain ⟨e, hedef⟩ : ∃ e, e = errorAt P res j δ (pre.length - 1) := ⟨_, rfl⟩
  obtain ⟨ρ, hρdef⟩ : ∃ ρ, ρ = roundingOf B L := ⟨_, rfl⟩
  have hround : ∀ t, |t| ≤ B → |f * c t + dt - t| ≤ ρ / 2 := by
    intro t ht
    rw [hc, hρdef]
    exact base_round C.toRunBase hR hkL t ht
  have hspread := C.spread _ hk0 hkL
  have hprom := C.prominent _ hk0 hkL start hs
  obtain ⟨μ, hμ⟩ : ∃ μ, μ = marginAt P res j δ B L pre.length := ⟨_, rfl⟩
  rw [← hμ] at hspread hprom
  unfold marginAt at hμ
  rw [← hedef, ← hρdef] at hspread hμ
  rw [← hedef] at b0 b1 he d3 hE
  rw [← hρdef] at hρ hsρ hρE d3
  have hg : |(1 + φ) / f - 1| * P.sep ≤ 201 / 100 * (e + ρ) := by
    have h1 := affine_corrections (a := P.sep) (s := 0) hR.1 (hround _ C.times.2.1) (hround _ C.times.1)
    rw [show |(1 + φ) / f - 1| * P.sep = |((1 + φ) / f - 1) * P.sep| by rw [abs_mul, abs_of_pos hsep]]
    have e1 : ((1 + φ) / f - 1) * P.sep = (c (targetClock φ τ P.sep) - P.sep) - c (targetClock φ τ 0) -
        (c (targetClock φ τ P.sep) - 0 - (c (targetClock φ τ 0) - 0) - (1 + ((1 + φ) / f - 1)) * (P.sep - 0)) := by ring
    rw [e1]
    have k1 := abs_sub ((c (targetClock φ τ P.sep) - P.sep) - c (targetClock φ τ 0))
      (c (targetClock φ τ P.sep) - 0 - (c (targetClock φ τ 0) - 0) - (1 + ((1 + φ) / f - 1)) * (P.sep - 0))
    have k2 := abs_sub (c (targetClock φ τ P.sep) - P.sep) (c (targetClock φ τ 0))
    linarith
  have hg2 : |(1 + φ) / f - 1| ≤ 1 / 1000 := by
    have h1 : 3 * E0 ≤ P.sep / 2 ^ 13 := by
      have h2 : 3 * E0 / P.sep ≤ 1 / 2 ^ 13 := by
        have := C.frequency
        have h3 := abs_nonneg φ
        have : (0 : ℚ) ≤ 1 / 2 ^ 40 := by norm_num
        linarith
      rw [div_le_iff₀ hsep] at h2
      linarith
    have h2 := C.errors
    have h3 : |(1 + φ) / f - 1| * P.sep ≤ 1 / 1000 * P.sep := by
      have : P.sep / 2 ^ 13 ≤ P.sep / 1000 := div_le_div_of_nonneg_left hsep.le (by norm_num) (by norm_num)
      linarith
    exact le_of_mul_le_mul_right h3 hsep
  have hD : |c (targetClock φ τ start) - start| ≤ 1002 / 1000 * e + ρ := by
    rcases hs with rfl | rfl
    · rw [sub_zero]
      linarith
    · linarith
  have hBs : |targetClock φ τ start| ≤ B := by
    rcases hs with rfl | rfl
    · exact C.times.1
    · exact C.times.2.1
  have hdρ : lengthAt P res j pre.length / 2 ^ 49 ≤ ρ := (div_le_div_of_nonneg_right d1 (by norm_num)).trans hsρ
  have hst : StandsOut (inWindowR P.rndA start (lengthAt P res j pre.length) P.ats)
      (inWindowR P.rndA start (lengthAt P res j pre.length) (bts.map c)) P.numBins (resolutionAt P res j pre.length)
      (c (targetClock φ τ start) - start) (δ pre.length) (w pre.length) :=
    prominent_stands hrelA C.bins.1 hr0 hsep d1 he hρ hdρ hμ hD hg hg2 (fun y hy => by
      have h1 := hround y (C.bound y hy)
      have h2 := affine_corrections (a := referenceTime φ τ y) (s := start) (c := c y) hR.1 (by rw [hclock]; exact h1) (hround _ hBs)
      exact h2) hspread hprom
  refine ⟨d2, hst, ?_, by linarith⟩
  · have hpos := hst.2.1
    refine C.accurate _ hk0 hkL _ _ ?_ ?_ ?_ ?_
    · intro h0
      change inWindowR P.rndA start (lengthAt P res j pre.length) P.ats = [] at h0
      rw [h0] at hpos
      simp [pairsNear] at hpos
    · intro h0
      change inWindowR P.rndA start (lengthAt P res j pre.length) (bts.map c) = [] at h0
      rw [h0] at hpos
      simp [pairsNear] at hpos
    · unfold inWindowR
      exact (List.length_filter_le _ _).trans (by rw [List.length_map])
    · unfold inWindowR
      exact (List.length_filter_le _ _).trans (by rw [List.length_map, List.length_map])

/-- Another iteration of a history. -/
theorem near_step (C : RunBase P bts res j φ τ B E0 E1 δ w L) {pre : List TFEntry} {x : TFEntry} (hh : History P bts res j pre)
    (hN : NearInv P bts res j φ τ δ pre)
    (hclear : pre ≠ [] → ∀ start, start = 0 ∨ start = P.sep →
      ClearAt P (bts.map (composedR P.rnd P.rndA pre)) (resolutionAt P res j pre.length) start
        (composedR P.rnd P.rndA pre (targetClock φ τ start) - start) (δ pre.length) (w pre.length))
    (hx : x.bts = bts.map (composedR P.rnd P.rndA pre)) (hf : FoundAt P res j pre.length x) :
    NearInv P bts res j φ τ δ (pre ++ [x]) := by
  have hkL := history_length hh C.last
  have hrel : RelErr P.rnd := by rw [C.rnd]; exact C76_arithmetic.1
  have hrelA : RelErr P.rndA := by rw [C.rndA]; exact C76_arithmetic.2
  have hsep := base_sep C
  obtain ⟨hρ, hsρ, hρE⟩ := base_rounding C
  obtain ⟨f, dt, hR, hres⟩ := hN
  obtain ⟨r, hr⟩ : ∃ r, r = resolutionAt P res j pre.length := ⟨_, rfl⟩
  have hr0 : 0 < r := by rw [hr]; exact resolutionAt_pos C.rnd C.resolution C.target _ _
  obtain ⟨cur, dt1, df1⟩ := x
  dsimp only at hx
  obtain ⟨hearly, ys, dt2, hlate, hdf⟩ := hf
  dsimp only at hearly hlate hdf
  rw [hx] at hearly hlate
  obtain ⟨p2, p3⟩ := early_near C (fun h => hclear h 0 (Or.inl rfl)) hr hearly
  obtain ⟨⟨y2, d2, q1, q2⟩, q3⟩ := late_near C (fun h => hclear h P.sep (Or.inr rfl)) hr
  rw [← hr, q1] at hlate
  simp only [Except.ok.injEq, Prod.mk.injEq] at hlate
  rw [hlate.2] at q2
  obtain ⟨s1, s2, s3⟩ := delays_near hrel hsep (by positivity) p2 p3 q2 q3 hdf
  have e0 : targetClock φ τ 0 = τ := by unfold targetClock; ring
  have g0 := base_round C hR hkL _ C.times.1
  have g1 := base_round C hR hkL _ C.times.2.1
  rw [e0] at g0
  have herr : r + δ pre.length + P.numBins * r / 2 ^ 50 = errorAt P res j δ pre.length := by rw [hr]; rfl
  rw [herr] at s1 s2 s3
  have hacc := iteration_accepted (first := pre = []) hrel hrelA hsep hR.1 g0 (by
      unfold targetClock at g1 ⊢
      exact g1) (by rw [e0] at s1; exact s1) s2 s3 (errorAt_le C hkL)
    (fun hne => C.errorLater _ (List.length_pos_iff.mpr hne) hkL) C.errors (by linarith) (hsρ.trans hρE)
    (fun hnil => by rw [hnil]; rfl) (fun hne => by
      obtain ⟨b0, b1⟩ := hres hne
      have hE := errorAt_le C (show pre.length - 1 ≤ L by omega)
      have h1 := C.errors
      rw [e0] at b0
      exact ⟨by linarith, by linarith⟩) C.offset C.frequency C.guardDelay C.guardFrequency
  obtain ⟨t1, t2, -, -, -, t4, t5⟩ := hacc
  refine ⟨_, _, roundInv_step P hrel hrelA bts cur f dt dt1 df1 pre hR hx t1 t2, fun _ => ?_⟩
  rw [List.length_append, List.length_singleton, Nat.add_sub_cancel, composedR_append, composedR_append, e0]
  exact ⟨t4, t5⟩

theorem history_prefix {pre : List TFEntry} {x : TFEntry} (h : History P bts res j (pre ++ [x])) :
    History P bts res j pre ∧ x.bts = bts.map (composedR P.rnd P.rndA pre) ∧ FoundAt P res j pre.length x := by
  refine ⟨fun i e he => ?_, ?_⟩
  · have hi := (List.getElem?_eq_some_iff.mp he).1
    have := h i e (by rw [List.getElem?_append_left hi]; exact he)
    rwa [List.take_append_of_le_length hi.le] at this
  · have := h pre.length x (by simp)
    rw [List.take_left' rfl] at this
    exact ⟨this.1, this.2.1⟩

/-- Every history of a run with clear input brings the clocks together. -/
theorem input_near (C : ClearInput P bts res j φ τ B E0 E1 η δ w L) (pre : List TFEntry) (hh : History P bts res j pre) :
    NearInv P bts res j φ τ δ pre := by
  induction pre using List.reverseRecOn with
  | nil =>
    refine ⟨1, 0, ⟨by norm_num, ?_, by simp, by simp⟩, fun h => absurd rfl h⟩
    intro _
    simp [composedR]
  | append_singleton pre x ih =>
    obtain ⟨h1, h2, h3⟩ := history_prefix hh
    have hN := ih h1
    exact near_step C.toRunBase h1 hN (fun hne start hs => input_clear C h1 hne hN start hs) h2 h3

end

/-- **C120** Conditions on the recorded events and on the two clocks alone make the true coincidences stand out in every iteration,
whatever the iterations before have found. -/
theorem C120_clear (P : TFParams) (bts : List ℚ) (res : ℚ) (j : Nat) (φ τ B E0 E1 η : ℚ) (δ : Nat → ℚ) (w : Nat → Nat) (L : Nat)
    (C : ClearInput P bts res j φ τ B E0 E1 η δ w L) : ClearRun P bts res j φ τ B E0 E1 δ w L :=
  { C.toRunBase with clear := fun pre hne hh start hs => input_clear C hh hne (input_near C pre hh) start hs }

/-- **C120** Under these conditions `time_freq` returns the right correction. -/
theorem C120_converges (P : TFParams) (bts : List ℚ) (res : ℚ) (j : Nat) (φ τ B E0 E1 η : ℚ) (δ : Nat → ℚ) (w : Nat → Nat)
    (L : Nat) (C : ClearInput P bts res j φ τ B E0 E1 η δ w L) :
    ∃ dt df trace k, Returns (fun fuel => timeFreq P fuel bts res) (.ok (dt, df, trace)) ∧ k ≤ L ∧
      resolutionAt P res j k = P.target ∧
      ∀ ε, ε = P.target + δ k + P.numBins * P.target / 2 ^ 50 → ∀ a, 0 ≤ a → |targetClock φ τ a| ≤ B →
        |corrected dt df (targetClock φ τ a) - a| ≤
          (ε + roundingOf B L + 2 * (ε + roundingOf B L) * (a / P.sep)) * (1 + 1 / 2 ^ 10) + 3 * roundingOf B L := by
  obtain ⟨dt, df, trace, e, h1, h2, h3, -, h4⟩ := C105_converges_partial P bts res j φ τ B E0 E1 δ w L (C120_clear P bts res j φ τ B E0 E1 η δ w L C)
  refine ⟨dt, df, trace ++ [e], trace.length, h1, h2, h3, fun ε hε a ha hBa => (h4 ε _ hε rfl a ha hBa).trans ?_⟩
  have hsep := base_sep C.toRunBase
  have hB : 0 ≤ B := (abs_nonneg _).trans hBa
  have hk : (trace.length : ℚ) + 1 ≤ L + 1 := by
    have : (trace.length : ℚ) ≤ L := by exact_mod_cast h2
    linarith
  have hR : ((trace.length : ℚ) + 1) * (B + (trace.length + 1) * (101 * 10 ^ 6)) / 2 ^ 49 ≤ roundingOf B L := by
    unfold roundingOf
    apply div_le_div_of_nonneg_right _ (by norm_num)
    apply mul_le_mul hk _ (by positivity) (by positivity)
    have := mul_le_mul_of_nonneg_right hk (show (0 : ℚ) ≤ 101 * 10 ^ 6 by norm_num)
    linarith
  have ha' : 0 ≤ a / P.sep := div_nonneg ha hsep.le
  have h5 := mul_le_mul_of_nonneg_right hR ha'
  linarith

end Fp
