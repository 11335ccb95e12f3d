import Verif.Spec.FpAccuracy
import Verif.Props.UtilsFft
import Verif.Props.FpFind

/-! Helper lemmas for `Verif/Props/FpAccuracy.lean`. -/
namespace Fp
open Spec

theorem composed_affine (trace : List TFEntry) : ∃ u v : ℚ, ∀ t, composed trace t = u * t + v := by
  induction trace using List.reverseRecOn with
  | nil => exact ⟨1, 0, fun t => by simp [composed]⟩
  | append_singleton l e ih =>
    obtain ⟨u, v, h⟩ := ih
    refine ⟨u / (1 + e.df1), (v - e.dt1) / (1 + e.df1), fun t => ?_⟩
    rw [composed_append, h, corrected]
    ring

theorem residual_bound (u w dt1 df1 sep ε a : ℚ) (hsep : 0 < sep) (ha : 0 ≤ a) (hf : 0 < 1 + df1)
    (h1 : |dt1 - w| ≤ ε) (h2 : |dt1 + df1 * sep - (u * sep + w - sep)| ≤ ε) :
    |(u * a + w - dt1) / (1 + df1) - a| ≤ (ε + 2 * ε * (a / sep)) / (1 + df1) := by
  have e : (u * a + w - dt1) / (1 + df1) - a = ((u - 1 - df1) * a + (w - dt1)) / (1 + df1) := by
    field_simp
    ring
  rw [e, abs_div, abs_of_pos hf]
  apply div_le_div_of_nonneg_right _ hf.le
  have h3 : |(u - 1 - df1) * sep| ≤ 2 * ε := by
    rw [abs_le] at *
    constructor <;> linarith [h1.1, h1.2, h2.1, h2.2]
  have h4 : |(u - 1 - df1) * a| ≤ 2 * ε * (a / sep) := by
    have : (u - 1 - df1) * a = (u - 1 - df1) * sep * (a / sep) := by field_simp
    rw [this, abs_mul, abs_of_nonneg (div_nonneg ha hsep.le)]
    exact mul_le_mul_of_nonneg_right h3 (div_nonneg ha hsep.le)
  calc _ ≤ |(u - 1 - df1) * a| + |w - dt1| := abs_add_le _ _
    _ ≤ _ := by rw [abs_sub_comm w dt1]; linarith

theorem step_small (f df1 : ℚ) (h1 : |f - 1| < maxFcorr) (h2 : |f * (1 + df1) - 1| < maxFcorr) : |df1| < 1 / 2 ^ 11 := by
  unfold maxFcorr at *
  rw [abs_lt] at *
  obtain ⟨a1, a2⟩ := h1
  obtain ⟨b1, b2⟩ := h2
  norm_num at *
  constructor
  · by_contra hc
    push Not at hc
    nlinarith
  · by_contra hc
    push Not at hc
    nlinarith

theorem steps_small (P : TFParams) (hr : P.rnd = id) (bts : List ℚ) (res dt df : ℚ)
    (trace : List TFEntry) (h : Returns (fun fuel => timeFreq P fuel bts res) (.ok (dt, df, trace))) :
    ∀ e ∈ trace, |e.df1| < 1 / 2 ^ 11 := by
  obtain ⟨N, hN⟩ := h
  have h1 := hN N le_rfl
  have := runLoop_inv (tfStep P) (fun s => |s.f - 1| < maxFcorr ∧ ∀ e ∈ s.trace, |e.df1| < 1 / 2 ^ 11)
    (fun r => ∀ dt df trace, r = .ok (dt, df, trace) → ∀ e ∈ trace, |e.df1| < 1 / 2 ^ 11) ?_ ?_ N _ _ ?_ h1
  · exact this dt df trace rfl
  · intro s s' ⟨hs, hne⟩ hst
    rcases tfStep_inl P s s' hst with ⟨ph, rs, he⟩ | ⟨dt1, dur, hp, hl⟩
    · rw [he]
      exact ⟨hs, hne⟩
    · obtain ⟨df1, hd, hf, hres, he⟩ := tfLate_inl P s s' dt1 dur hl
      simp only [hr, id] at hf he
      rw [he]
      refine ⟨hf, ?_⟩
      intro e he
      rcases List.mem_append.mp he with he | he
      · exact hne e he
      · simp at he
        rw [he]; exact step_small _ _ hs hf
  · intro s r ⟨hs, hne⟩ hst dt df trace he
    rw [he] at hst
    obtain ⟨dt1, dur, hp, hl⟩ := tfStep_ok P s _ hst
    rcases tfLate_ok P s dt1 dur dt df trace hl with ⟨hi, e1, e2, e3⟩ | ⟨df1, hd, hdf, hres, e1, e2, e3⟩
    · rw [e3]
      exact hne
    · rw [e3]
      simp only [hr, id] at e2
      rw [e2] at hdf
      intro e he
      rcases List.mem_append.mp he with he | he
      · exact hne e he
      · simp at he
        rw [he]; exact step_small _ _ hs hdf
  · exact ⟨by norm_num [maxFcorr], by simp⟩

/-- A delay of less than half the period is determined by its residue. -/
theorem delay_exact (h : Nat) (hh : 0 < h) (res : ℚ) (hr : 0 < res) (k : ℤ) (hk : |k| < h) (d : ℚ)
    (h1 : SameDelay ((2 * h : Nat) * res) d (k * res)) (h2 : |d| ≤ (2 * h : Nat) * res / 2) : d = k * res := by
  obtain ⟨c, hc1⟩ := h1
  rw [hc1] at h2 ⊢
  have hdq : |(k : ℚ)| < h := by exact_mod_cast hk
  obtain ⟨hd1, hd2⟩ := abs_lt.mp hdq
  obtain ⟨hu1, hu2⟩ := abs_le.mp h2
  push_cast at hu1 hu2 ⊢
  have hu1' : -(h : ℚ) ≤ k + c * (2 * h) := by
    have : -(h : ℚ) * res ≤ (k + c * (2 * h)) * res := by linarith
    exact le_of_mul_le_mul_right this hr
  have hu2' : k + c * (2 * h) ≤ (h : ℚ) := by
    have : (k + c * (2 * h)) * res ≤ (h : ℚ) * res := by linarith
    exact le_of_mul_le_mul_right this hr
  have hc0 : c = 0 := by
    have hhq : (0 : ℚ) < h := by exact_mod_cast hh
    have l1 : (c : ℚ) < 1 := by
      by_contra hcon
      push Not at hcon
      nlinarith
    have l2 : (-1 : ℚ) < c := by
      by_contra hcon
      push Not at hcon
      nlinarith
    have l1' : c < 1 := by exact_mod_cast l1
    have l2' : -1 < c := by exact_mod_cast l2
    omega
  rw [hc0]
  simp

theorem exactXcorr_get (a b : List ℚ) (h : Nat) (hh : 0 < h) (res : ℚ) (A B : List Nat)
    (ha : generateBins a (2 * h) res = .ok A) (hb : generateBins b (2 * h) res = .ok B) :
    (exactXcorr A B).length = 2 * h ∧ ∀ k < 2 * h, (exactXcorr A B)[k]? = some ((pairsAt a b (2 * h) res k : Nat) : ℚ) := by
  have fa : generateFft a (2 * h) res = .ok (rfft (A.map fun n : Nat => (n : ℝ))) := by
    unfold generateFft; rw [ha]; rfl
  have fb : generateFft b (2 * h) res = .ok (rfft (B.map fun n : Nat => (n : ℝ))) := by
    unfold generateFft; rw [hb]; rfl
  obtain ⟨g1, g2⟩ := xcorr_core a b h hh res _ _ fa fb
  unfold exactXcorr
  refine ⟨by rw [List.length_map, g1], ?_⟩
  intro k hk
  rw [List.getElem?_map, g2 k hk]
  simp

theorem npFloorDivide_id (a b : ℚ) (hb : 0 < b) : npFloorDivide id a b = ⌊a / b⌋ := by
  have hf : ∀ x : ℚ, ¬ (x - (⌊x⌋ : ℤ) > 1 / 2) → (if x = 0 then (0 : ℚ) else
      if id (x - (⌊x⌋ : ℤ)) > 1 / 2 then id ((⌊x⌋ : ℤ) + 1 : ℚ) else (⌊x⌋ : ℤ)) = (⌊x⌋ : ℤ) := by
    intro x hx
    simp only [id, if_neg hx]
    split_ifs with h
    · rw [h, Int.floor_zero]; simp
    · rfl
  have hi : ∀ z : ℤ, (if (z : ℚ) = 0 then (0 : ℚ) else
      if id ((z : ℚ) - (⌊(z : ℚ)⌋ : ℤ)) > 1 / 2 then id ((⌊(z : ℚ)⌋ : ℤ) + 1 : ℚ) else (⌊(z : ℚ)⌋ : ℤ)) = (z : ℚ) := by
    intro z
    rw [hf _ (by rw [Int.floor_intCast]; norm_num), Int.floor_intCast]
  unfold npFloorDivide
  by_cases ha : 0 ≤ a / b
  · have hm : a - cFmod a b = b * ⌊a / b⌋ := by unfold cFmod; rw [if_pos ha]; ring
    have hmn : ¬ (cFmod a b < 0) := by
      unfold cFmod; rw [if_pos ha, not_lt, sub_nonneg, mul_comm, ← le_div_iff₀ hb]
      exact Int.floor_le _
    simp only [hm, hmn, not_lt.mpr hb.le, decide_false, ne_eq, not_true_eq_false, and_false, if_false]
    rw [show id (id (b * (⌊a / b⌋ : ℚ)) / b) = (⌊a / b⌋ : ℚ) by simp only [id]; field_simp]
    exact hi _
  · have hm : a - cFmod a b = b * ⌈a / b⌉ := by unfold cFmod; rw [if_neg ha]; ring
    have hd : id (id (b * (⌈a / b⌉ : ℚ)) / b) = (⌈a / b⌉ : ℚ) := by simp only [id]; field_simp
    by_cases hm0 : cFmod a b = 0
    · have heq : ⌈a / b⌉ = ⌊a / b⌋ := by
        have : a / b = (⌈a / b⌉ : ℤ) := by
          rw [hm0, sub_zero] at hm
          rw [div_eq_iff hb.ne', mul_comm]; exact hm
        rw [this, Int.floor_intCast, Int.ceil_intCast]
      have hdiv : id (id (a - cFmod a b) / b) = ((⌊a / b⌋ : ℤ) : ℚ) := by rw [hm, hd, heq]
      simp only [hdiv]
      rw [if_neg (show ¬ (cFmod a b ≠ 0 ∧ _) from fun h => h.1 hm0)]
      exact hi _
    · have hmn : cFmod a b < 0 := by
        refine lt_of_le_of_ne ?_ hm0
        unfold cFmod; rw [if_neg ha, sub_nonpos, mul_comm, ← div_le_iff₀ hb]
        exact Int.le_ceil _
      have heq : ⌈a / b⌉ = ⌊a / b⌋ + 1 := by
        rw [Int.ceil_eq_iff]
        push_cast
        refine ⟨?_, by linarith [Int.lt_floor_add_one (a / b)]⟩
        rw [add_sub_cancel_right]
        refine lt_of_le_of_ne (Int.floor_le _) ?_
        intro h
        apply hm0
        have : ⌈a / b⌉ = ⌊a / b⌋ := by rw [← h, Int.ceil_intCast, Int.floor_intCast]
        unfold cFmod
        rw [if_neg ha, this, h]
        field_simp
        ring
      have hdiv : id (id (a - cFmod a b) / b) = ((⌊a / b⌋ : ℤ) : ℚ) + 1 := by rw [hm, hd, heq]; push_cast; ring
      simp only [hdiv]
      rw [if_pos (show cFmod a b ≠ 0 ∧ decide (b < 0) ≠ decide (cFmod a b < 0) from ⟨hm0, by simp [hmn, not_lt.mpr hb.le]⟩), show id (((⌊a / b⌋ : ℤ) : ℚ) + 1 - 1) = ((⌊a / b⌋ : ℤ) : ℚ) by simp]
      exact hi _

theorem npRemainder_id (q : ℤ) (n : ℕ) (hn : 0 < n) : npRemainder id (q : ℚ) (n : ℚ) = ((q % (n : ℤ) : ℤ) : ℚ) := by
  have hn' : (0 : ℚ) < n := by exact_mod_cast hn
  have hf : ⌊(q : ℚ) / (n : ℚ)⌋ = q / (n : ℤ) := by
    have := Rat.floor_intCast_div_natCast q n
    exact_mod_cast this
  have hmod : ((q % (n : ℤ) : ℤ) : ℚ) = q - n * (q / (n : ℤ) : ℤ) := by
    rw [Int.emod_def]; push_cast; ring
  unfold npRemainder
  by_cases ha : 0 ≤ (q : ℚ) / n
  · have hm : cFmod q n = ((q % (n : ℤ) : ℤ) : ℚ) := by unfold cFmod; rw [if_pos ha, hf, hmod]
    have h0 : ¬ (cFmod q n < 0) := by
      rw [hm, not_lt]
      exact_mod_cast Int.emod_nonneg q (by omega)
    simp only [h0, not_lt.mpr hn'.le, decide_false, ne_eq, not_true_eq_false, and_false, if_false]
    exact hm
  · by_cases hdv : (n : ℤ) ∣ q
    · obtain ⟨c, rfl⟩ := hdv
      have hq : ((n * c : ℤ) : ℚ) / n = (c : ℤ) := by push_cast; field_simp
      have hm : cFmod ((n * c : ℤ) : ℚ) n = 0 := by
        unfold cFmod
        rw [hq]
        rw [hq] at ha
        rw [if_neg ha, Int.ceil_intCast]; push_cast; ring
      simp only [hm, ne_eq, not_true_eq_false, false_and, if_false, Int.mul_emod_right, Int.cast_zero]
    · have hpos : 0 < q % (n : ℤ) := by
        have := Int.emod_nonneg q (show (n : ℤ) ≠ 0 by omega)
        rcases this.lt_or_eq with h | h
        · exact h
        · exact absurd (Int.dvd_of_emod_eq_zero h.symm) hdv
      have hlt := Int.emod_lt_of_pos q (show (0 : ℤ) < n by omega)
      have hc : ⌈(q : ℚ) / n⌉ = q / (n : ℤ) + 1 := by
        have e : (q : ℚ) = n * (q / (n : ℤ) : ℤ) + ((q % (n : ℤ) : ℤ) : ℚ) := by rw [hmod]; ring
        rw [Int.ceil_eq_iff]
        push_cast
        constructor
        · rw [add_sub_cancel_right, lt_div_iff₀ hn']
          have : (0 : ℚ) < ((q % (n : ℤ) : ℤ) : ℚ) := by exact_mod_cast hpos
          nlinarith
        · rw [div_le_iff₀ hn']
          have : ((q % (n : ℤ) : ℤ) : ℚ) < n := by exact_mod_cast hlt
          nlinarith
      have hm : cFmod q n = ((q % (n : ℤ) : ℤ) : ℚ) - n := by
        unfold cFmod; rw [if_neg ha, hc, hmod]; push_cast; ring
      have hm' : cFmod q n < 0 := by
        rw [hm, sub_neg]
        exact_mod_cast hlt
      simp only [hm', hm'.ne, not_lt.mpr hn'.le, decide_false, decide_true, ne_eq, not_false_eq_true, Bool.false_eq_true,
        and_self, if_true, id]
      rw [hm]; ring

theorem slice_id (ts : List ℚ) (start duration : Option ℚ) : sliceTimestampsR id ts start duration = sliceTimestamps ts start duration := by
  rfl

theorem bins_id (arr : List ℚ) (numBins : Nat) (hn : 0 < numBins) (res : ℚ) (hr : 0 < res) :
    generateBinsR id arr numBins res = generateBins arr numBins res := by
  unfold generateBinsR generateBins
  rw [List.map_congr_left (g := binOf numBins res)]
  intro t _
  unfold binOfR binOf
  rw [npFloorDivide_id t res hr, npRemainder_id _ numBins hn, Int.floor_intCast]

theorem correlate_id (P : TFParams) (hra : P.rndA = id) (hn : 0 < P.numBins) (bts : List ℚ) (res start dur : ℚ) (hres : 0 < res) :
    tfCorrelate P bts res start dur = (do
      let a ← sliceTimestamps P.ats (some start) (some dur)
      let b ← sliceTimestamps bts (some start) (some dur)
      let abins ← generateBins a P.numBins res
      let bbins ← generateBins b P.numBins res
      let ys := P.xcorr abins bbins
      let xs := (List.range P.numBins).map fun k : Nat => P.rnd ((k : ℚ) * res)
      let d ← getTimingDelayFft ys xs
      return (ys, d.1)) := by
  unfold tfCorrelate
  rw [hra]
  simp only [bins_id _ _ hn _ hres, slice_id]

/-- What a correlation of the loop finds, if the histograms have a peak. -/
theorem correlate_peak (P : TFParams) (hr : P.rnd = id) (hra : P.rndA = id) (hx : P.xcorr = exactXcorr) (h : Nat) (hh : 0 < h)
    (hN : P.numBins = 2 * h) (bts : List ℚ) (res start dur : ℚ) (hres : 0 < res) (k : ℤ) (hk : |k| < h)
    (hp : Peak (inWindow start dur P.ats) (inWindow start dur bts) (2 * h) res k)
    (ys : List ℚ) (d : ℚ) (hc : tfCorrelate P bts res start dur = .ok (ys, d)) : d = k * res := by
  rw [correlate_id P hra (by omega) _ _ _ _ hres] at hc
  have hsl : ∀ ts w, sliceTimestamps ts (some start) (some dur) = .ok w → w = inWindow start dur ts := by
    intro ts w hw
    by_cases hex : ∃ t ∈ ts, start ≤ t
    · rw [(C26_slice_window ts start dur).1 hex] at hw
      injection hw with hw
      exact hw.symm
    · push Not at hex
      rw [(C26_slice_window ts start dur).2 hex] at hw
      cases hw
  cases ha : sliceTimestamps P.ats (some start) (some dur) with
  | error e => rw [ha] at hc; cases hc
  | ok a =>
  cases hb : sliceTimestamps bts (some start) (some dur) with
  | error e => rw [ha, hb] at hc; cases hc
  | ok b =>
  rw [ha, hb] at hc
  rw [← hsl _ _ ha, ← hsl _ _ hb] at hp
  simp only [bind, Except.bind, pure, Except.pure, hN] at hc
  cases hA : generateBins a (2 * h) res with
  | error e => rw [hA] at hc; cases hc
  | ok A =>
  cases hB : generateBins b (2 * h) res with
  | error e => rw [hA, hB] at hc; cases hc
  | ok B =>
  rw [hA, hB] at hc
  simp only [hr, id, hx] at hc
  obtain ⟨g1, g2⟩ := exactXcorr_get a b h hh res A B hA hB
  have hne : exactXcorr A B ≠ [] := by
    intro hn
    rw [hn] at g1
    simp at g1
    omega
  obtain ⟨p, d1, d2, hm, hd, hs, -, -, hle, -⟩ := C29_delay_candidates (exactXcorr A B) hne res hres
  rw [g1] at hd hs hle
  have hd' : getTimingDelayFft (exactXcorr A B) ((List.range (2 * h)).map fun k : Nat => (k : ℚ) * res) = .ok (d1, d2) := hd
  rw [hd'] at hc
  simp only [Except.ok.injEq, Prod.mk.injEq] at hc
  rw [← hc.2]
  have hplt : p < 2 * h := by rw [← g1]; exact firstMax_lt _ _ hm
  have hpk : (p : ℤ) ≡ k [ZMOD ((2 * h : Nat) : ℤ)] := by
    by_contra hcon
    have h1 := hp p hcon
    obtain ⟨j, hj⟩ : ∃ j : Nat, (j : ℤ) = k % ((2 * h : Nat) : ℤ) :=
      ⟨_, Int.toNat_of_nonneg (Int.emod_nonneg _ (by omega))⟩
    have hjlt : j < 2 * h := by
      have := Int.emod_lt_of_pos k (show (0 : ℤ) < ((2 * h : Nat) : ℤ) by omega)
      omega
    have hjk : pairsAt a b (2 * h) res j = pairsAt a b (2 * h) res k := by
      unfold pairsAt
      congr 2
      funext x
      congr 1
      funext y
      rw [decide_eq_decide]
      have : (j : ℤ) ≡ k [ZMOD ((2 * h : Nat) : ℤ)] := by rw [hj]; exact Int.mod_modEq _ _
      exact ⟨fun hh => hh.trans this, fun hh => hh.trans this.symm⟩
    obtain ⟨x, hx1, hx2, -⟩ := hm
    rw [g2 p hplt] at hx1
    have hx' : x = ((pairsAt a b (2 * h) res p : Nat) : ℚ) := by simpa using hx1.symm
    have := hx2 _ (List.mem_of_getElem? (g2 j hjlt))
    rw [hx', Nat.cast_le, hjk] at this
    omega
  refine delay_exact h hh res hres k hk d1 ?_ hle
  obtain ⟨c, hc1⟩ := hs
  obtain ⟨e, he⟩ := Int.modEq_iff_dvd.mp hpk.symm
  refine ⟨c + e, ?_⟩
  have : (p : ℚ) - k = ((2 * h : Nat) : ℚ) * e := by exact_mod_cast he
  rw [hc1]
  push_cast at this ⊢
  have hp' : (p : ℚ) = k + 2 * h * e := by linarith
  rw [hp']; ring

theorem pairs_self_le (n : Nat) [NeZero n] (a : List ℚ) (res : ℚ) (hr : 0 < res) (k : ℤ) :
    pairsAt a a n res k ≤ pairsAt a a n res 0 := by
  have e : a.map (· + ((0 : ℤ) : ℚ) * res) = a := by simp
  have h1 := pairs_shift n a res hr 0 k
  have h2 := pairs_shift n a res hr 0 0
  rw [e] at h1 h2
  have : ((pairsAt a a n res k : Nat) : ℤ) ≤ ((pairsAt a a n res 0 : Nat) : ℤ) := by
    rw [h1, h2]
    simp only [sub_zero, Int.cast_zero, add_zero]
    by_cases hd : ∃ j : ZMod n, ((a.countP fun t => decide (((⌊t / res⌋ : ℤ) : ZMod n) = j) : Nat) : ℤ) ≠
        ((a.countP fun t => decide (((⌊t / res⌋ : ℤ) : ZMod n) = j + ((k : ℤ) : ZMod n)) : Nat) : ℤ)
    · exact (autocorr_lt n (fun j => ((a.countP fun t => decide (((⌊t / res⌋ : ℤ) : ZMod n) = j) : Nat) : ℤ)) (k : ZMod n) hd).le
    · push Not at hd
      apply le_of_eq
      apply Finset.sum_congr rfl
      intro j _
      rw [hd j]
  exact_mod_cast this

/-- The correlation of an array with itself finds no delay. -/
theorem correlate_self (P : TFParams) (hr : P.rnd = id) (hra : P.rndA = id) (hx : P.xcorr = exactXcorr) (h : Nat) (hh : 0 < h)
    (hN : P.numBins = 2 * h) (res start dur : ℚ) (hres : 0 < res)
    (ys : List ℚ) (d : ℚ) (hc : tfCorrelate P P.ats res start dur = .ok (ys, d)) : d = 0 := by
  rw [correlate_id P hra (by omega) _ _ _ _ hres] at hc
  haveI : NeZero (2 * h) := ⟨by omega⟩
  cases ha : sliceTimestamps P.ats (some start) (some dur) with
  | error e => rw [ha] at hc; cases hc
  | ok a =>
  rw [ha] at hc
  simp only [bind, Except.bind, pure, Except.pure, hN] at hc
  cases hA : generateBins a (2 * h) res with
  | error e => rw [hA] at hc; cases hc
  | ok A =>
  rw [hA] at hc
  simp only [hr, id, hx] at hc
  obtain ⟨g1, g2⟩ := exactXcorr_get a a h hh res A A hA hA
  have hne : exactXcorr A A ≠ [] := by
    intro hn
    rw [hn] at g1
    simp at g1
    omega
  obtain ⟨p, d1, d2, hm, hd, hs, -, -, hle, -⟩ := C29_delay_candidates (exactXcorr A A) hne res hres
  rw [g1] at hd hs hle
  have hd' : getTimingDelayFft (exactXcorr A A) ((List.range (2 * h)).map fun k : Nat => (k : ℚ) * res) = .ok (d1, d2) := hd
  rw [hd'] at hc
  simp only [Except.ok.injEq, Prod.mk.injEq] at hc
  rw [← hc.2]
  have hplt : p < 2 * h := by rw [← g1]; exact firstMax_lt _ _ hm
  have hp0 : p = 0 := by
    by_contra hcon
    obtain ⟨x, hx1, hx2, hx3⟩ := hm
    have := hx3 0 (by omega) _ (g2 0 (by omega))
    rw [g2 p hplt] at hx1
    have hx' : x = ((pairsAt a a (2 * h) res p : Nat) : ℚ) := by simpa using hx1.symm
    rw [hx', Nat.cast_lt] at this
    have h3 := pairs_self_le (2 * h) a res hres p
    simp only [Nat.cast_zero] at this
    omega
  have := delay_exact h hh res hres 0 (by simpa using hh) d1 (by rw [hp0] at hs; simpa using hs) hle
  simpa using this

/-- The late part of an iteration that finds the delay of the early part again, without a frequency correction so far. -/
theorem late_same (P : TFParams) (h0 : P.rnd 0 = 0) (h1 : P.rnd 1 = 1) (s : TFState) (hf : s.f = 1) (dt1 dur : ℚ)
    (hc : ∀ ys d, tfCorrelate P s.bts s.res P.sep dur = .ok (ys, d) → d = dt1) :
    (∀ s', tfLate P s dt1 dur = .inl s' → s'.bts = s.bts.map (fun t => P.rndA (P.rndA (t - dt1) / 1)) ∧
      s'.res = max (P.rnd (s.res / P.rnd (P.rnd (P.sep / P.duration) / resRefineFactor))) P.target ∧
      s'.dt = P.rnd (s.dt + P.rnd dt1) ∧ s'.f = 1 ∧ s'.iter = s.iter + 1 ∧ s'.phase = .begin) ∧
    (∀ dt df tr, tfLate P s dt1 dur = .inr (.ok (dt, df, tr)) → df = 0 ∧
      ((s.iter ≠ 1 ∧ dt = s.dt) ∨ dt = P.rnd (s.dt + P.rnd dt1))) := by
  unfold tfLate
  cases hcc : tfCorrelate P s.bts s.res P.sep dur with
  | error e =>
    constructor
    · intro s' h
      simp only at h
      split at h <;> cases h
    · intro dt df tr h
      simp only at h
      split at h <;> simp at h
  | ok v =>
    obtain ⟨ys, dt2⟩ := v
    have h2 := hc ys dt2 hcc
    subst h2
    constructor
    · intro s' h
      simp only [hf, zero_div, add_zero, h1, one_mul, sub_self, h0] at h
      split at h
      · cases h
      split at h
      · cases h
      split at h
      · cases h
      split at h
      · cases h
      simp only [Sum.inl.injEq] at h
      subst h
      simp
    · intro dt df tr h
      simp only [hf, zero_div, add_zero, h1, one_mul, sub_self, h0] at h
      split at h
      · simp at h
      split at h
      · rename_i hi
        simp only [Sum.inr.injEq, Except.ok.injEq, Prod.mk.injEq] at h
        exact ⟨h.2.1.symm, Or.inl ⟨hi.1, h.1.symm⟩⟩
      split at h
      · simp at h
      split at h
      · simp only [Sum.inr.injEq, Except.ok.injEq, Prod.mk.injEq] at h
        exact ⟨h.2.1.symm, Or.inr h.1.symm⟩
      · simp at h

theorem correlate_ok (P : TFParams) (hr : P.rnd = id) (hra : P.rndA = id) (hx : P.xcorr = exactXcorr) (h : Nat) (hh : 0 < h)
    (hN : P.numBins = 2 * h) (bts : List ℚ) (res start dur : ℚ) (hres : 0 < res)
    (ha : inWindow start dur P.ats ≠ []) (hb : inWindow start dur bts ≠ []) :
    ∃ ys d, tfCorrelate P bts res start dur = .ok (ys, d) ∧ ys.length = 2 * h := by
  have hsl : ∀ ts, inWindow start dur ts ≠ [] → sliceTimestamps ts (some start) (some dur) = .ok (inWindow start dur ts) := by
    intro ts hne
    apply (C26_slice_window ts start dur).1
    by_contra hcon
    push Not at hcon
    apply hne
    unfold inWindow
    rw [List.map_eq_nil_iff, List.filter_eq_nil_iff]
    intro t ht
    have := hcon t ht
    simp only [decide_eq_true_eq, not_and]
    intro h1
    exact absurd h1 (not_le.mpr this)
  have hA : generateBins (inWindow start dur P.ats) (2 * h) res =
      .ok (bincount ((inWindow start dur P.ats).map (binOf (2 * h) res)) (2 * h)) := by
    unfold generateBins; rw [if_neg ha]
  have hB : generateBins (inWindow start dur bts) (2 * h) res =
      .ok (bincount ((inWindow start dur bts).map (binOf (2 * h) res)) (2 * h)) := by
    unfold generateBins; rw [if_neg hb]
  obtain ⟨g1, -⟩ := exactXcorr_get _ _ h hh res _ _ hA hB
  have hne : exactXcorr (bincount ((inWindow start dur P.ats).map (binOf (2 * h) res)) (2 * h))
      (bincount ((inWindow start dur bts).map (binOf (2 * h) res)) (2 * h)) ≠ [] := by
    intro hn
    rw [hn] at g1
    simp at g1
    omega
  obtain ⟨p, d1, d2, -, hd, -⟩ := C29_delay_candidates _ hne res hres
  rw [g1] at hd
  rw [correlate_id P hra (by omega) _ _ _ _ hres, hsl _ ha, hsl _ hb]
  simp only [bind, Except.bind, pure, Except.pure, hN, hA, hB, hr, hx, id]
  refine ⟨_, d1, ?_, g1⟩
  rw [show ((List.range (2 * h)).map fun k : Nat => (k : ℚ) * res) = uniformBins (2 * h) res from rfl, hd]

theorem late_returns (P : TFParams) (h0 : P.rnd 0 = 0) (h1 : P.rnd 1 = 1) (s : TFState) (dt1 dur : ℚ) (ys : List ℚ)
    (hc : tfCorrelate P s.bts s.res P.sep dur = .ok (ys, dt1)) (hd : |dt1| ≤ ntpMaxDelay) (hf : s.f = 1) (e : PyErr) :
    tfLate P s dt1 dur ≠ .inr (.error e) := by
  intro h
  unfold tfLate at h
  rw [if_neg (not_lt.mpr hd), hc] at h
  simp only [hf, zero_div, add_zero, h1, one_mul, sub_self, h0] at h
  split at h
  · simp at h
  rw [if_neg (by norm_num [maxFcorr])] at h
  split at h <;> simp at h

/-- The numbers that matter for a pure delay `d` are not changed by rounding. -/
structure DelayExact (P : TFParams) (d : ℚ) : Prop where
  rnd0 : P.rnd 0 = 0
  rnd1 : P.rnd 1 = 1
  rndd : P.rnd d = d
  back : ∀ t ∈ P.ats, P.rndA (P.rndA (t + d - d) / 1) = t

theorem DelayExact.bts {P : TFParams} {d : ℚ} (hd : DelayExact P d) :
    (P.ats.map (· + d)).map (fun t => P.rndA (P.rndA (t - d) / 1)) = P.ats := by
  rw [List.map_map]
  conv_rhs => rw [← List.map_id P.ats]
  apply List.map_congr_left
  intro t ht
  exact hd.back t ht

theorem DelayExact.ats {P : TFParams} {d : ℚ} (hd : DelayExact P d) :
    P.ats.map (fun t => P.rndA (P.rndA (t - 0) / 1)) = P.ats := by
  conv_rhs => rw [← List.map_id P.ats]
  apply List.map_congr_left
  intro t ht
  have := hd.back t ht
  rw [add_sub_cancel_right] at this
  rw [sub_zero, this]
  rfl

theorem DelayExact.sum1 {P : TFParams} {d : ℚ} (hd : DelayExact P d) : P.rnd (0 + P.rnd d) = d := by
  rw [hd.rndd, zero_add, hd.rndd]

theorem DelayExact.sum2 {P : TFParams} {d : ℚ} (hd : DelayExact P d) : P.rnd (d + P.rnd 0) = d := by
  rw [hd.rnd0, add_zero, hd.rndd]

/-- The next resolution. -/
def nextRes (P : TFParams) (r : ℚ) : ℚ :=
  max (P.rnd (r / P.rnd (P.rnd (P.sep / P.duration) / resRefineFactor))) P.target

/-- Partial correctness for a pure delay `d`, if the correlations find it (and no delay afterwards); `R` holds for all
resolutions used. -/
theorem delay_core (P : TFParams) (d res : ℚ) (hd : DelayExact P d) (R : ℚ → Prop) (hR0 : R res) (hR : ∀ r, R r → R (nextRes P r))
    (hfirst : ∀ start, start = 0 ∨ start = P.sep → ∀ ys d',
      tfCorrelate P (P.ats.map (· + d)) res start (tfDuration P res) = .ok (ys, d') → d' = d)
    (hself : ∀ r start, R r → start = 0 ∨ start = P.sep → ∀ ys d',
      tfCorrelate P P.ats r start (tfDuration P r) = .ok (ys, d') → d' = 0)
    (hsig : ∀ ys sig, P.signif ys res = .ok sig → sig ≠ 0 ∧ P.threshold ≤ sig) (dt df : ℚ) (trace : List TFEntry)
    (hret : Returns (fun fuel => timeFreq P fuel (P.ats.map (· + d)) res) (.ok (dt, df, trace))) :
    dt = d ∧ df = 0 := by
  obtain ⟨N, hN'⟩ := hret
  have h1 := hN' N le_rfl
  have := runLoop_inv (tfStep P)
    (fun s => (s.iter = 1 ∧ s.bts = P.ats.map (· + d) ∧ s.res = res ∧ s.dt = 0 ∧ s.f = 1 ∧
        (s.phase = .begin ∨ (∃ ys sig, s.phase = .search ys d sig (tfDuration P res) ∧ sig ≠ 0 ∧ P.threshold ≤ sig) ∨
          s.phase = .late d (tfDuration P res))) ∨
      (1 < s.iter ∧ s.bts = P.ats ∧ R s.res ∧ s.dt = d ∧ s.f = 1 ∧
        (s.phase = .begin ∨ s.phase = .late 0 (tfDuration P s.res))))
    (fun r => ∀ dt df trace, r = .ok (dt, df, trace) → dt = d ∧ df = 0) ?_ ?_ N _ _ ?_ h1
  · exact this dt df trace rfl
  · rintro s s' (⟨e1, e2, e3, e4, e5, hp | ⟨ys, sig, hp, hs1, hs2⟩ | hp⟩ | ⟨e1, e2, e3, e4, e5, hp | hp⟩) hst
    · left
      unfold tfStep at hst
      rw [hp] at hst
      simp only at hst
      cases hb : tfBegin P s with
      | error e => rw [hb] at hst; simp at hst
      | ok t =>
        rw [hb] at hst
        simp only [Sum.inl.injEq] at hst
        subst hst
        unfold tfBegin at hb
        simp only [bind, Except.bind, pure, Except.pure, e1, e2, e3, if_true] at hb
        split at hb
        · cases hb
        · rename_i v hv
          obtain ⟨ys, d'⟩ := v
          have hd' := hfirst 0 (Or.inl rfl) ys d' hv
          simp only at hb
          split at hb
          · cases hb
          · rename_i sig hsg
            simp only [Except.ok.injEq] at hb
            obtain ⟨hs1, hs2⟩ := hsig ys sig hsg
            subst hb
            exact ⟨rfl, rfl, rfl, e4, e5, Or.inr (Or.inl ⟨ys, sig, by rw [hd'], hs1, hs2⟩)⟩
    · left
      unfold tfStep at hst
      rw [hp] at hst
      simp only [tfSearch, if_neg hs1, if_pos hs2, Sum.inl.injEq] at hst
      subst hst
      exact ⟨e1, e2, e3, e4, e5, Or.inr (Or.inr rfl)⟩
    · right
      unfold tfStep at hst
      rw [hp] at hst
      simp only at hst
      obtain ⟨g1, g2, g3, g4, g5, g6⟩ := (late_same P hd.rnd0 hd.rnd1 s e5 d _ (by
        intro ys d' hc
        rw [e2, e3] at hc
        exact hfirst P.sep (Or.inr rfl) ys d' hc)).1 s' hst
      refine ⟨by omega, ?_, ?_, ?_, g4, Or.inl g6⟩
      · rw [g1, e2, hd.bts]
      · rw [g2, e3]; exact hR res hR0
      · rw [g3, e4, hd.sum1]
    · right
      unfold tfStep at hst
      rw [hp] at hst
      simp only at hst
      cases hb : tfBegin P s with
      | error e => rw [hb] at hst; simp at hst
      | ok t =>
        rw [hb] at hst
        simp only [Sum.inl.injEq] at hst
        subst hst
        unfold tfBegin at hb
        simp only [bind, Except.bind, pure, Except.pure, e2, if_neg (show ¬ s.iter = 1 by omega)] at hb
        split at hb
        · cases hb
        · rename_i v hv
          obtain ⟨ys, d'⟩ := v
          have hd' := hself s.res 0 e3 (Or.inl rfl) ys d' hv
          simp only at hb
          split at hb
          · cases hb
          · simp only [Except.ok.injEq] at hb
            subst hb
            exact ⟨e1, rfl, e3, e4, e5, Or.inr (by rw [hd'])⟩
    · right
      unfold tfStep at hst
      rw [hp] at hst
      simp only at hst
      obtain ⟨g1, g2, g3, g4, g5, g6⟩ := (late_same P hd.rnd0 hd.rnd1 s e5 0 _ (by
        intro ys d' hc
        rw [e2] at hc
        exact hself s.res P.sep e3 (Or.inr rfl) ys d' hc)).1 s' hst
      refine ⟨by omega, ?_, ?_, ?_, g4, Or.inl g6⟩
      · rw [g1, e2, hd.ats]
      · rw [g2]; exact hR s.res e3
      · rw [g3, e4, hd.sum2]
  · rintro s r hs hst dt df tr rfl
    obtain ⟨dt1, dur, hp', hl⟩ := tfStep_ok P s _ hst
    rcases hs with ⟨e1, e2, e3, e4, e5, hp | ⟨ys, sig, hp, hs1, hs2⟩ | hp⟩ | ⟨e1, e2, e3, e4, e5, hp | hp⟩
    · rw [hp] at hp'; cases hp'
    · rw [hp] at hp'; cases hp'
    · rw [hp] at hp'
      injection hp' with q1 q2
      subst q1 q2
      obtain ⟨f1, f2⟩ := (late_same P hd.rnd0 hd.rnd1 s e5 d _ (by
        intro ys d' hc
        rw [e2, e3] at hc
        exact hfirst P.sep (Or.inr rfl) ys d' hc)).2 dt df tr hl
      rcases f2 with ⟨f2, -⟩ | f2
      · exact absurd e1 f2
      · exact ⟨by rw [f2, e4, hd.sum1], f1⟩
    · rw [hp] at hp'; cases hp'
    · rw [hp] at hp'
      injection hp' with q1 q2
      subst q1 q2
      obtain ⟨f1, f2⟩ := (late_same P hd.rnd0 hd.rnd1 s e5 0 _ (by
        intro ys d' hc
        rw [e2] at hc
        exact hself s.res P.sep e3 (Or.inr rfl) ys d' hc)).2 dt df tr hl
      refine ⟨?_, f1⟩
      rcases f2 with ⟨-, f2⟩ | f2
      · rw [f2, e4]
      · rw [f2, e4, hd.sum2]
  · left
    exact ⟨rfl, rfl, rfl, rfl, rfl, Or.inl rfl⟩

/-- A run for a pure delay does not end in an exception, if the correlations find it and the significances exist. -/
theorem delay_no_error (P : TFParams) (d res : ℚ) (hd : DelayExact P d) (hdel : |d| ≤ ntpMaxDelay) (L : Nat) (R : ℚ → Prop) (hR0 : R res)
    (hR : ∀ r, R r → R (nextRes P r))
    (hfirst : ∀ start, start = 0 ∨ start = P.sep → ∃ ys,
      tfCorrelate P (P.ats.map (· + d)) res start (tfDuration P res) = .ok (ys, d) ∧ ys.length = L)
    (hself : ∀ r start, R r → start = 0 ∨ start = P.sep → ∃ ys,
      tfCorrelate P P.ats r start (tfDuration P r) = .ok (ys, 0) ∧ ys.length = L)
    (hsigt : ∀ ys r, ys.length = L → R r → ∃ sig, P.signif ys r = .ok sig)
    (hsig : ∀ ys sig, P.signif ys res = .ok sig → sig ≠ 0 ∧ P.threshold ≤ sig) (r : TFResult)
    (hret : Returns (fun fuel => timeFreq P fuel (P.ats.map (· + d)) res) r) : ∃ v, r = .ok v := by
  obtain ⟨N, hN'⟩ := hret
  have h1 := hN' N le_rfl
  refine runLoop_inv (tfStep P)
    (fun s => (s.iter = 1 ∧ s.bts = P.ats.map (· + d) ∧ s.res = res ∧ s.f = 1 ∧
        (s.phase = .begin ∨ (∃ ys sig, s.phase = .search ys d sig (tfDuration P res) ∧ sig ≠ 0 ∧ P.threshold ≤ sig) ∨
          s.phase = .late d (tfDuration P res))) ∨
      (1 < s.iter ∧ s.bts = P.ats ∧ R s.res ∧ s.f = 1 ∧
        (s.phase = .begin ∨ s.phase = .late 0 (tfDuration P s.res))))
    (fun r => ∃ v, r = .ok v) ?_ ?_ N _ _ ?_ h1
  · rintro s s' (⟨e1, e2, e3, e5, hp | ⟨ys, sig, hp, hs1, hs2⟩ | hp⟩ | ⟨e1, e2, e3, e5, hp | hp⟩) hst
    · left
      obtain ⟨ys, hc, hl⟩ := hfirst 0 (Or.inl rfl)
      obtain ⟨sig, hsg⟩ := hsigt ys res hl hR0
      obtain ⟨hs1, hs2⟩ := hsig ys sig hsg
      unfold tfStep at hst
      rw [hp] at hst
      simp only [tfBegin, bind, Except.bind, pure, Except.pure, e1, e2, e3, hc, hsg, if_true, Sum.inl.injEq] at hst
      subst hst
      exact ⟨rfl, rfl, rfl, e5, Or.inr (Or.inl ⟨ys, sig, rfl, hs1, hs2⟩)⟩
    · left
      unfold tfStep at hst
      rw [hp] at hst
      simp only [tfSearch, if_neg hs1, if_pos hs2, Sum.inl.injEq] at hst
      subst hst
      exact ⟨e1, e2, e3, e5, Or.inr (Or.inr rfl)⟩
    · right
      unfold tfStep at hst
      rw [hp] at hst
      simp only at hst
      obtain ⟨ys, hc, -⟩ := hfirst P.sep (Or.inr rfl)
      obtain ⟨g1, g2, g3, g4, g5, g6⟩ := (late_same P hd.rnd0 hd.rnd1 s e5 d _ (by
        intro ys' d' hc'
        rw [e2, e3, hc] at hc'
        simp only [Except.ok.injEq, Prod.mk.injEq] at hc'
        exact hc'.2.symm)).1 s' hst
      refine ⟨by omega, ?_, ?_, g4, Or.inl g6⟩
      · rw [g1, e2, hd.bts]
      · rw [g2, e3]; exact hR res hR0
    · right
      obtain ⟨ys, hc, hl⟩ := hself s.res 0 e3 (Or.inl rfl)
      obtain ⟨sig, hsg⟩ := hsigt ys s.res hl e3
      unfold tfStep at hst
      rw [hp] at hst
      simp only [tfBegin, bind, Except.bind, pure, Except.pure, e2, hc, hsg, if_neg (show ¬ s.iter = 1 by omega),
        Sum.inl.injEq] at hst
      subst hst
      exact ⟨e1, rfl, e3, e5, Or.inr rfl⟩
    · right
      unfold tfStep at hst
      rw [hp] at hst
      simp only at hst
      obtain ⟨ys, hc, -⟩ := hself s.res P.sep e3 (Or.inr rfl)
      obtain ⟨g1, g2, g3, g4, g5, g6⟩ := (late_same P hd.rnd0 hd.rnd1 s e5 0 _ (by
        intro ys' d' hc'
        rw [e2, hc] at hc'
        simp only [Except.ok.injEq, Prod.mk.injEq] at hc'
        exact hc'.2.symm)).1 s' hst
      refine ⟨by omega, ?_, ?_, g4, Or.inl g6⟩
      · rw [g1, e2, hd.ats]
      · rw [g2]; exact hR s.res e3
  · rintro s r hs hst
    cases r with
    | ok v => exact ⟨v, rfl⟩
    | error e =>
      exfalso
      rcases hs with ⟨e1, e2, e3, e5, hp | ⟨ys, sig, hp, hs1, hs2⟩ | hp⟩ | ⟨e1, e2, e3, e5, hp | hp⟩
      · obtain ⟨ys, hc, hl⟩ := hfirst 0 (Or.inl rfl)
        obtain ⟨sig, hsg⟩ := hsigt ys res hl hR0
        unfold tfStep at hst
        rw [hp] at hst
        simp [tfBegin, bind, Except.bind, pure, Except.pure, e1, e2, e3, hc, hsg] at hst
      · unfold tfStep at hst
        rw [hp] at hst
        simp [tfSearch, if_neg hs1, if_pos hs2] at hst
      · unfold tfStep at hst
        rw [hp] at hst
        obtain ⟨ys, hc, -⟩ := hfirst P.sep (Or.inr rfl)
        exact late_returns P hd.rnd0 hd.rnd1 s _ _ ys (by rw [e2, e3]; exact hc) hdel e5 e hst
      · obtain ⟨ys, hc, hl⟩ := hself s.res 0 e3 (Or.inl rfl)
        obtain ⟨sig, hsg⟩ := hsigt ys s.res hl e3
        unfold tfStep at hst
        rw [hp] at hst
        simp [tfBegin, bind, Except.bind, pure, Except.pure, e2, hc, hsg] at hst
      · unfold tfStep at hst
        rw [hp] at hst
        obtain ⟨ys, hc, -⟩ := hself s.res P.sep e3 (Or.inr rfl)
        exact late_returns P hd.rnd0 hd.rnd1 s _ _ ys (by rw [e2]; exact hc) (by norm_num [ntpMaxDelay]) e5 e hst
  · left
    exact ⟨rfl, rfl, rfl, rfl, Or.inl rfl⟩

/-! ## Exact arithmetic -/

theorem duration_id (P : TFParams) (hr : P.rnd = id) (hra : P.rndA = id) (res : ℚ) :
    tfDuration P res = acqDuration P.numBins res P.duration P.endTime := by
  unfold tfDuration acqDuration
  simp only [hr, hra, id]
  split
  · rename_i h
    rw [min_eq_right h.le, mul_assoc]
  · rename_i h
    rw [min_eq_left (not_lt.mp h), mul_assoc]

theorem delayExact_id (P : TFParams) (hr : P.rnd = id) (hra : P.rndA = id) (d : ℚ) : DelayExact P d :=
  ⟨by simp [hr], by simp [hr], by simp [hr], by simp [hra]⟩

theorem peak_of_range (a b : List ℚ) (n : Nat) (hn : 0 < n) (res : ℚ) (k : Nat)
    (h : ∀ j < n, j ≠ k → pairsAt a b n res j < pairsAt a b n res k) (hk : k < n) : Peak a b n res k := by
  intro j hj
  obtain ⟨i, hi⟩ : ∃ i : Nat, (i : ℤ) = j % (n : ℤ) := ⟨_, Int.toNat_of_nonneg (Int.emod_nonneg _ (by omega))⟩
  have hij : (i : ℤ) ≡ j [ZMOD (n : ℤ)] := by rw [hi]; exact Int.mod_modEq _ _
  have hlt : i < n := by
    have := Int.emod_lt_of_pos j (show (0 : ℤ) < (n : ℤ) by omega)
    omega
  have e : pairsAt a b n res j = pairsAt a b n res i := by
    unfold pairsAt
    congr 2
    funext x
    congr 1
    funext y
    rw [decide_eq_decide]
    exact ⟨fun hh => hh.trans hij.symm, fun hh => hh.trans hij⟩
  rw [e]
  apply h i hlt
  rintro rfl
  exact hj hij.symm

/-- Parameters for the example below: 4 bins of 1 ns, final resolution 1/2 ns. -/
noncomputable def delayParams : TFParams :=
  { ats := [0, 1, 1, 10, 11, 11, 14], numBins := 4, target := 1 / 2, threshold := 6, sep := 10, duration := 4,
    endTime := 14, rnd := id, rndA := id, xcorr := exactXcorr, signif := fun _ _ => .ok 10 }

theorem delayParams_dur : acqDuration 4 1 4 14 = 4 := by
  unfold acqDuration
  have h1 : rne ((4 : ℚ) / (1 * ((4 : Nat) : ℚ))) = 1 := by
    rw [show (4 : ℚ) / (1 * ((4 : Nat) : ℚ)) = ((1 : ℤ) : ℚ) by norm_num]
    exact rne_int 1
  have h2 : ⌊(14 : ℚ) / (1 * ((4 : Nat) : ℚ))⌋ = 3 := by
    rw [Int.floor_eq_iff]
    norm_num
  rw [h1, h2]
  norm_num

theorem delayParams_window (r start : ℚ) (h1 : 1 / 2 ≤ r) (h2 : r ≤ 1) (hs : start = 0 ∨ start = 10) :
    inWindow start (acqDuration 4 r 4 14) [0, 1, 1, 10, 11, 11, 14] ≠ [] := by
  have hr : 0 < r := by linarith
  have hd : 0 < acqDuration 4 r 4 14 := by
    unfold acqDuration
    have e1 : (1 : ℤ) ≤ rne (4 / (r * ((4 : Nat) : ℚ))) := by
      apply le_rne_int
      rw [le_div_iff₀ (by positivity)]
      push_cast
      linarith
    have e2 : (1 : ℤ) ≤ ⌊(14 : ℚ) / (r * ((4 : Nat) : ℚ))⌋ := by
      rw [Int.le_floor, le_div_iff₀ (by positivity)]
      push_cast
      linarith
    have e3 : (1 : ℚ) ≤ min (rne (4 / (r * ((4 : Nat) : ℚ))) : ℚ) ⌊(14 : ℚ) / (r * ((4 : Nat) : ℚ))⌋ :=
      le_min (by exact_mod_cast e1) (by exact_mod_cast e2)
    exact mul_pos (by linarith) (by positivity)
  intro hn
  unfold inWindow at hn
  rw [List.map_eq_nil_iff, List.filter_eq_nil_iff] at hn
  have := hn start (by rcases hs with rfl | rfl <;> simp)
  simp only [decide_eq_true_eq, not_and, not_lt] at this
  have := this le_rfl
  linarith

end Fp
