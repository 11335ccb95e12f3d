import Verif.Spec.FpThreshold
import Verif.Props.Utils
import Verif.Props.FpFind

/-! # C93: the threshold for the first peak -/
namespace Fp
open Spec

theorem mergeTimes_merged (j : Nat) (ys zs : List ℚ) (h : mergeTimes j ys = .ok zs) :
    ys.length = zs.length * 2 ^ j ∧ zs = merged ys j := by
  have hlen : ys.length = zs.length * 2 ^ j := by
    induction j generalizing zs with
    | zero => simp only [mergeTimes, Except.ok.injEq] at h; subst h; simp
    | succ j ih =>
      unfold mergeTimes at h
      cases hm : mergeTimes j ys with
      | error e => rw [hm] at h; cases h
      | ok xs =>
        rw [hm] at h
        have h2 := mergePairs_length xs zs h
        have h1 := ih xs hm
        rw [h1, ← h2, pow_succ]
        ring
  refine ⟨hlen, ?_⟩
  obtain ⟨zs', h1, h2, -, h4⟩ := C60_merging j zs.length ys hlen
  rw [h] at h1
  obtain rfl : zs = zs' := by injection h1
  have hd : ys.length / 2 ^ j = zs.length := by
    rw [hlen]
    exact Nat.mul_div_cancel _ (by positivity)
  unfold merged
  rw [hd]
  apply List.ext_getElem?
  intro i
  by_cases hi : i < zs.length
  · rw [h4 i hi, List.getElem?_map, List.getElem?_range hi]
    rfl
  · rw [List.getElem?_eq_none (by omega), List.getElem?_eq_none (by simpa using hi)]

theorem merged_ok (j : Nat) (ys : List ℚ) (h : 2 ^ j ∣ ys.length) : mergeTimes j ys = .ok (merged ys j) := by
  obtain ⟨m, hm⟩ := h
  obtain ⟨zs, h1, -⟩ := C60_merging j m ys (by rw [hm]; ring)
  rw [h1, (mergeTimes_merged j ys zs h1).2]

theorem peakDelay_iff (rnd : ℚ → ℚ) (h0 : rnd 0 = 0) (zs : List ℚ) (r : ℚ) (v : ℚ × ℚ)
    (h : getTimingDelayFft zs ((List.range zs.length).map fun k : Nat => rnd ((k : ℚ) * r)) = .ok v) : PeakDelay rnd zs r v.1 := by
  have hne : zs ≠ [] := by
    rintro rfl
    simp [getTimingDelayFft, argmax] at h
  obtain ⟨p, hp, hmax⟩ := argmax_spec zs hne
  have hlt := firstMax_lt zs p hmax
  unfold getTimingDelayFft at h
  rw [hp] at h
  simp only at h
  have hget : ∀ k, k < zs.length → ((List.range zs.length).map fun k : Nat => rnd ((k : ℚ) * r))[k]? = some (rnd (k * r)) := by
    intro k hk
    rw [List.getElem?_map, List.getElem?_range hk]
    rfl
  rw [hget p hlt, hget _ (by split_ifs <;> omega)] at h
  simp only [Except.ok.injEq] at h
  refine ⟨p, hmax, ?_⟩
  by_cases hp0 : p = 0
  · subst hp0
    left
    refine ⟨by omega, ?_⟩
    simp [h0] at h
    rw [← h]
    simp [h0]
  · rw [if_neg hp0] at h
    by_cases hc : p < zs.length - p
    · left
      rw [if_pos hc] at h
      exact ⟨by omega, by rw [← h]⟩
    · right
      rw [if_neg hc] at h
      exact ⟨by omega, by rw [← h]⟩

/-- The invariant of a run: where the first delay comes from. -/
def PeakInv (P : TFParams) (bts : List ℚ) (res : ℚ) (s : TFState) : Prop :=
  (s.iter = 1 ∧ s.trace = [] ∧ s.bts = bts ∧ s.res = res ∧ s.phase = .begin) ∨
  ∃ ys d0, tfCorrelate P bts res 0 (tfDuration P res) = .ok (ys, d0) ∧
    ((s.iter = 1 ∧ s.trace = [] ∧ s.bts = bts ∧ ∃ j zs d sig dur, s.phase = .search zs d sig dur ∧ mergeTimes j ys = .ok zs ∧
        s.res = 2 ^ j * res ∧ P.rnd s.res = s.res ∧ P.signif zs s.res = .ok sig ∧ PeakDelay P.rnd zs s.res d ∧
        (j = 0 ∨ 2 ^ j * res ≤ 10 ^ 4) ∧ ∀ i < j, Rejected P ys res i) ∨
     ∃ j d, FirstPeak P ys res j d ∧ ((s.iter = 1 ∧ s.trace = [] ∧ s.bts = bts ∧ ∃ dur, s.phase = .late d dur) ∨
        (1 < s.iter ∧ ∃ e rest, s.trace = e :: rest ∧ e.bts = bts ∧ e.dt1 = d)))

theorem tfCorrelate_delay (P : TFParams) (h0 : P.rnd 0 = 0) (bts : List ℚ) (res start dur : ℚ) (ys : List ℚ) (d : ℚ)
    (hl : ∀ a b, (P.xcorr a b).length = P.numBins) (h : tfCorrelate P bts res start dur = .ok (ys, d)) :
    PeakDelay P.rnd ys res d ∧ ys.length = P.numBins := by
  unfold tfCorrelate at h
  simp only [bind, Except.bind, pure, Except.pure] at h
  split at h
  · cases h
  split at h
  · cases h
  split at h
  · cases h
  split at h
  · cases h
  split at h
  · cases h
  rename_i v hv
  simp only [Except.ok.injEq, Prod.mk.injEq] at h
  obtain ⟨rfl, rfl⟩ := h
  refine ⟨?_, hl _ _⟩
  apply peakDelay_iff P.rnd h0
  rw [hl]
  exact hv

/-- **C93** If `time_freq` returns a result, its first delay is that of the first peak, among the early correlation and its
successive mergings of neighbouring bins up to a resolution of 10^4 ns, whose significance reaches the threshold; all finer ones
were below it (and none was exactly zero). -/
theorem C93_result (P : TFParams) (h0 : P.rnd 0 = 0) (h2 : ∀ x, P.rnd x = x → P.rnd (x * 2) = x * 2)
    (hl : ∀ a b, (P.xcorr a b).length = P.numBins) (bts : List ℚ) (res : ℚ) (hres : P.rnd res = res) (dt df : ℚ)
    (trace : List TFEntry) (h : Returns (fun fuel => timeFreq P fuel bts res) (.ok (dt, df, trace))) :
    ∃ ys d0 j e rest, tfCorrelate P bts res 0 (tfDuration P res) = .ok (ys, d0) ∧ trace = e :: rest ∧ e.bts = bts ∧
      FirstPeak P ys res j e.dt1 := by
  obtain ⟨N, hN⟩ := h
  have h1 := hN N le_rfl
  have := runLoop_inv (tfStep P) (PeakInv P bts res)
    (fun r => ∀ dt df trace, r = .ok (dt, df, trace) → ∃ ys d0 j e rest, tfCorrelate P bts res 0 (tfDuration P res) = .ok (ys, d0) ∧
      trace = e :: rest ∧ e.bts = bts ∧ FirstPeak P ys res j e.dt1)
    ?_ ?_ N _ _ ?_ h1
  · exact this dt df trace rfl
  · -- a step
    intro s s' hs hst
    rcases hs with ⟨hi, ht, hb, hr, hp⟩ | ⟨ys, d0, hc, hs⟩
    · unfold tfStep at hst
      rw [hp] at hst
      simp only at hst
      cases hbeg : tfBegin P s with
      | error e => rw [hbeg] at hst; simp at hst
      | ok t =>
        rw [hbeg] at hst
        simp only [Sum.inl.injEq] at hst
        subst hst
        unfold tfBegin at hbeg
        rw [hb, hr] at hbeg
        cases hc : tfCorrelate P bts res 0 (tfDuration P res) with
        | error e => simp only [hc, bind, Except.bind] at hbeg; cases hbeg
        | ok v =>
          obtain ⟨ys, d⟩ := v
          simp only [hc, bind, Except.bind, pure, Except.pure] at hbeg
          split at hbeg
          · cases hbeg
          rename_i sig hsig
          simp only [Except.ok.injEq] at hbeg
          rw [if_pos hi] at hbeg
          subst hbeg
          right
          exact ⟨ys, d, hc, Or.inl ⟨hi, ht, rfl, 0, ys, d, sig, _, rfl, rfl, by simp, hres, hsig,
            (tfCorrelate_delay P h0 bts res 0 _ ys d hl hc).1, Or.inl rfl, by simp⟩⟩
    · right
      refine ⟨ys, d0, hc, ?_⟩
      rcases hs with ⟨hi, ht, hb, j, zs, d, sig, dur, hp, hm, hr, hrr, hsig, hd, hj, hrej⟩ | ⟨j, d, hfp, hs⟩
      · obtain ⟨hlen, hzs⟩ := mergeTimes_merged j ys zs hm
        unfold tfStep at hst
        rw [hp] at hst
        simp only at hst
        cases hse : tfSearch P s zs d sig dur with
        | error e => rw [hse] at hst; simp at hst
        | ok t =>
          rw [hse] at hst
          simp only [Sum.inl.injEq] at hst
          subst hst
          unfold tfSearch at hse
          split_ifs at hse with hz hthr
          · right
            simp only [Except.ok.injEq] at hse
            subst hse
            refine ⟨j, d, ⟨⟨sig, ?_, hz, hthr⟩, hrej, hj, ⟨zs.length, by rw [hlen]; ring⟩, ?_⟩, Or.inl ⟨hi, ht, hb, dur, rfl⟩⟩
            · rw [← hzs, ← hr]; exact hsig
            · rw [← hzs, ← hr]; exact hd
          · left
            cases hmp : mergePairs zs with
            | error e => rw [hmp] at hse; cases hse
            | ok ws =>
              rw [hmp] at hse
              simp only [bind, Except.bind, pure, Except.pure] at hse
              split_ifs at hse with hbig
              split at hse
              · cases hse
              rename_i v hv
              split at hse
              · cases hse
              rename_i sig' hsig'
              simp only [Except.ok.injEq] at hse
              subst hse
              have hr2 : P.rnd (s.res * 2) = s.res * 2 := h2 _ hrr
              have hr3 : s.res * 2 = 2 ^ (j + 1) * res := by rw [hr]; ring
              refine ⟨hi, ht, hb, j + 1, ws, v.1, sig', dur, rfl, ?_, by simp only; rw [hr2, hr3], ?_, hsig', ?_, Or.inr ?_, ?_⟩
              · unfold mergeTimes; rw [hm]; exact hmp
              · simp only; rw [hr2]; exact hr2
              · exact peakDelay_iff P.rnd h0 ws _ v hv
              · rw [← hr3, ← hr2]; exact not_lt.mp hbig
              · intro i hij
                rcases Nat.lt_succ_iff_lt_or_eq.mp hij with hij | rfl
                · exact hrej i hij
                · exact ⟨sig, by rw [← hzs, ← hr]; exact hsig, hz, not_le.mp hthr⟩
      · right
        refine ⟨j, d, hfp, Or.inr ?_⟩
        rcases hs with ⟨hi, ht, hb, dur, hp⟩ | ⟨hi, e, rest, ht, hb, hd⟩
        · unfold tfStep at hst
          rw [hp] at hst
          simp only at hst
          obtain ⟨df1, -, -, -, rfl⟩ := tfLate_inl P s s' d dur hst
          refine ⟨by simp only; omega, { bts := s.bts, dt1 := d, df1 := df1 }, [], ?_, hb, rfl⟩
          simp [ht]
        · rcases tfStep_inl P s s' hst with ⟨ph, rs, rfl⟩ | ⟨dt1, dur, hp, hlate⟩
          · exact ⟨hi, e, rest, ht, hb, hd⟩
          · obtain ⟨df1, -, -, -, rfl⟩ := tfLate_inl P s s' dt1 dur hlate
            refine ⟨?_, e, rest ++ [{ bts := s.bts, dt1 := dt1, df1 := df1 }], by simp [ht], hb, hd⟩
            simp only
            omega
  · intro s r hs hst dt df trace hr
    subst hr
    obtain ⟨dt1, dur, hp, hlate⟩ := tfStep_ok P s _ hst
    rcases hs with ⟨-, -, -, -, hp'⟩ | ⟨ys, d0, hc, hs⟩
    · rw [hp'] at hp; cases hp
    rcases hs with ⟨-, -, -, j, zs, d, sig, dur', hp', -⟩ | ⟨j, d, hfp, hs⟩
    · rw [hp'] at hp; cases hp
    rcases hs with ⟨hi, ht, hb, dur', hp'⟩ | ⟨hi, e, rest, ht, hb, hd⟩
    · rw [hp'] at hp
      obtain ⟨rfl, rfl⟩ : d = dt1 ∧ dur' = dur := by injection hp with h1 h2; exact ⟨h1, h2⟩
      rcases tfLate_ok P s d dur' dt df trace hlate with ⟨hi', -⟩ | ⟨df1, -, -, -, -, -, rfl⟩
      · exact absurd hi hi'
      · exact ⟨ys, d0, j, { bts := s.bts, dt1 := d, df1 := df1 }, [], hc, by simp [ht], hb, hfp⟩
    · rcases tfLate_ok P s dt1 dur dt df trace hlate with ⟨-, -, -, rfl⟩ | ⟨df1, -, -, -, -, -, rfl⟩
      · exact ⟨ys, d0, j, e, rest, hc, ht, hb, hd ▸ hfp⟩
      · exact ⟨ys, d0, j, e, rest ++ [{ bts := s.bts, dt1 := dt1, df1 := df1 }], hc, by simp [ht], hb, hd ▸ hfp⟩
  · exact Or.inl ⟨rfl, rfl, rfl, rfl, rfl⟩

theorem start_begin (P : TFParams) (bts : List ℚ) (res : ℚ) (ys : List ℚ) (d0 sig : ℚ)
    (hc : tfCorrelate P bts res 0 (tfDuration P res) = .ok (ys, d0)) (hs : P.signif ys res = .ok sig) :
    tfStep P { bts := bts, res := res, dt := 0, f := 1, iter := 1, phase := .begin, trace := [] } =
      .inl { bts := bts, res := res, dt := 0, f := 1, iter := 1, phase := .search ys d0 sig (tfDuration P res), trace := [] } := by
  unfold tfStep tfBegin
  simp only [hc, hs, bind, Except.bind, pure, Except.pure, if_true]

/-- The search reaches the j-th merging if all finer ones are rejected. -/
theorem reach_search (P : TFParams) (h2 : ∀ x, P.rnd x = x → P.rnd (x * 2) = x * 2) (bts : List ℚ) (res : ℚ) (hres : P.rnd res = res)
    (ys : List ℚ) (d0 : ℚ) (hne : ys ≠ []) (hc : tfCorrelate P bts res 0 (tfDuration P res) = .ok (ys, d0)) (j : Nat) (sig : ℚ)
    (hj : j = 0 ∨ 2 ^ j * res ≤ 10 ^ 4) (hdvd : 2 ^ j ∣ ys.length) (hpos : 0 ≤ res) (hrej : ∀ i < j, Rejected P ys res i)
    (hs : P.signif (merged ys j) (2 ^ j * res) = .ok sig) :
    P.rnd (2 ^ j * res) = 2 ^ j * res ∧ ∃ d, (j = 0 ∧ d = d0 ∨ ∃ v, getTimingDelayFft (merged ys j)
        ((List.range (merged ys j).length).map fun k : Nat => P.rnd ((k : ℚ) * (2 ^ j * res))) = .ok v ∧ d = v.1) ∧
      ∀ fuel, timeFreq P (fuel + (j + 1)) bts res = runLoop (tfStep P) fuel
      { bts := bts, res := 2 ^ j * res, dt := 0, f := 1, iter := 1, phase := .search (merged ys j) d sig (tfDuration P res), trace := [] } := by
  induction j generalizing sig with
  | zero =>
    have hm : merged ys 0 = ys := ((mergeTimes_merged 0 ys ys rfl).2).symm
    rw [hm] at hs ⊢
    simp only [pow_zero, one_mul] at hs ⊢
    refine ⟨hres, d0, by simp, fun fuel => ?_⟩
    unfold timeFreq
    rw [runLoop_step _ _ _ (start_begin P bts res ys d0 sig hc hs)]
  | succ j ih =>
    have hle : 2 ^ (j + 1) * res ≤ 10 ^ 4 := by
      rcases hj with h | h
      · omega
      · exact h
    have hdvd' : 2 ^ j ∣ ys.length := dvd_trans (pow_dvd_pow 2 (by omega)) hdvd
    obtain ⟨sj, hsj, hz, hlt⟩ := hrej j (by omega)
    have hlej : 2 ^ j * res ≤ 10 ^ 4 := by
      rw [pow_succ] at hle
      have : 0 ≤ 2 ^ j * res := by positivity
      linarith
    obtain ⟨hr, d, -, hd⟩ := ih sj (Or.inr hlej) hdvd' (fun i hi => hrej i (by omega)) hsj
    have e1 : 2 ^ j * res * 2 = 2 ^ (j + 1) * res := by ring
    have hr' : P.rnd (2 ^ j * res * 2) = 2 ^ (j + 1) * res := by rw [h2 _ hr, e1]
    have hmp : mergePairs (merged ys j) = .ok (merged ys (j + 1)) := by
      have h3 := merged_ok (j + 1) ys hdvd
      unfold mergeTimes at h3
      rw [merged_ok j ys hdvd'] at h3
      exact h3
    have hlen : 0 < (merged ys (j + 1)).length := by
      have h3 := (mergeTimes_merged (j + 1) ys _ (merged_ok (j + 1) ys hdvd)).1
      have := List.length_pos_of_ne_nil hne
      by_contra hcon
      have h0 : (merged ys (j + 1)).length = 0 := by omega
      rw [h0] at h3
      omega
    have hne' : merged ys (j + 1) ≠ [] := List.ne_nil_of_length_pos hlen
    obtain ⟨p, hp, hmax⟩ := argmax_spec _ hne'
    have hplt := firstMax_lt _ p hmax
    obtain ⟨v, hv⟩ : ∃ v, getTimingDelayFft (merged ys (j + 1))
        ((List.range (merged ys (j + 1)).length).map fun k : Nat => P.rnd ((k : ℚ) * (2 ^ (j + 1) * res))) = .ok v := by
      have hget : ∀ k, k < (merged ys (j + 1)).length →
          ((List.range (merged ys (j + 1)).length).map fun k : Nat => P.rnd ((k : ℚ) * (2 ^ (j + 1) * res)))[k]? =
            some (P.rnd (k * (2 ^ (j + 1) * res))) := by
        intro k hk
        rw [List.getElem?_map, List.getElem?_range hk]
        rfl
      unfold getTimingDelayFft
      rw [hp]
      simp only
      rw [hget p hplt, hget _ (by split_ifs <;> omega)]
      exact ⟨_, rfl⟩
    refine ⟨by rw [← e1]; exact h2 _ hr, v.1, Or.inr ⟨v, hv, rfl⟩, fun fuel => ?_⟩
    rw [show fuel + (j + 1 + 1) = (fuel + 1) + (j + 1) by omega, hd, runLoop_step]
    unfold tfStep tfSearch
    simp only
    rw [if_neg hz, if_neg (not_le.mpr hlt), hmp]
    simp only [bind, Except.bind, pure, Except.pure, hr']
    rw [if_neg (not_lt.mpr hle), hv]
    simp only [hs]

/-- **C93** If no peak of the early correlation or its mergings up to 10^4 ns is acceptable, the search fails with a `ValueError`
(`PeakFindingFailed`, or of `reshape` if the number of bins is odd): so the next precompensation is tried. -/
theorem C93_fail (P : TFParams) (h2 : ∀ x, P.rnd x = x → P.rnd (x * 2) = x * 2) (bts : List ℚ) (res : ℚ) (hres : P.rnd res = res)
    (hpos : 0 ≤ res) (ys : List ℚ) (d0 : ℚ) (hne : ys ≠ []) (hc : tfCorrelate P bts res 0 (tfDuration P res) = .ok (ys, d0))
    (hsig : ∀ j, 2 ^ j ∣ ys.length → (j = 0 ∨ 2 ^ j * res ≤ 10 ^ 4) → ∃ s, P.signif (merged ys j) (2 ^ j * res) = .ok s)
    (hno : ∀ j, 2 ^ j ∣ ys.length → (j = 0 ∨ 2 ^ j * res ≤ 10 ^ 4) → ¬ Accepted P ys res j) :
    Returns (fun fuel => timeFreq P fuel bts res) (.error .valueError) := by
  classical
  have hlen := List.length_pos_of_ne_nil hne
  have hex : ∃ j, ¬ (Rejected P ys res j ∧ 2 ^ (j + 1) ∣ ys.length ∧ 2 ^ (j + 1) * res ≤ 10 ^ 4) := by
    refine ⟨ys.length, ?_⟩
    rintro ⟨-, h, -⟩
    have := Nat.le_of_dvd hlen h
    have h3 : ys.length + 1 < 2 ^ (ys.length + 1) := Nat.lt_two_pow_self
    omega
  obtain ⟨j, hj, hmin⟩ : ∃ j, ¬ (Rejected P ys res j ∧ 2 ^ (j + 1) ∣ ys.length ∧ 2 ^ (j + 1) * res ≤ 10 ^ 4) ∧
      ∀ i < j, Rejected P ys res i ∧ 2 ^ (i + 1) ∣ ys.length ∧ 2 ^ (i + 1) * res ≤ 10 ^ 4 :=
    ⟨Nat.find hex, Nat.find_spec hex, fun i hi => not_not.mp (Nat.find_min hex hi)⟩
  have hdvd : 2 ^ j ∣ ys.length := by
    rcases j with _ | j
    · simp
    · exact (hmin j (by omega)).2.1
  have hle : j = 0 ∨ 2 ^ j * res ≤ 10 ^ 4 := by
    rcases j with _ | j
    · left; rfl
    · right; exact (hmin j (by omega)).2.2
  obtain ⟨sig, hs⟩ := hsig j hdvd hle
  obtain ⟨hr, d, -, hd⟩ := reach_search P h2 bts res hres ys d0 hne hc j sig hle hdvd hpos (fun i hi => (hmin i hi).1) hs
  refine ⟨j + 2, fun fuel hf => ?_⟩
  dsimp only
  rw [show fuel = (fuel - (j + 1) - 1 + 1) + (j + 1) by omega, hd, runLoop_stop _ _ (.error .valueError)]
  unfold tfStep tfSearch
  simp only
  by_cases hz : sig = 0
  · rw [if_pos hz]
  rw [if_neg hz]
  have hlt : sig < P.threshold := by
    by_contra hcon
    exact hno j hdvd hle ⟨sig, hs, hz, not_lt.mp hcon⟩
  rw [if_neg (not_le.mpr hlt)]
  have hrej : Rejected P ys res j := ⟨sig, hs, hz, hlt⟩
  by_cases hdv : 2 ^ (j + 1) ∣ ys.length
  · have hmp : mergePairs (merged ys j) = .ok (merged ys (j + 1)) := by
      have h3 := merged_ok (j + 1) ys hdv
      unfold mergeTimes at h3
      rw [merged_ok j ys hdvd] at h3
      exact h3
    have hbig : 10 ^ 4 < 2 ^ (j + 1) * res := by
      by_contra hcon
      exact hj ⟨hrej, hdv, not_lt.mp hcon⟩
    have e1 : 2 ^ j * res * 2 = 2 ^ (j + 1) * res := by ring
    rw [hmp]
    simp only [bind, Except.bind]
    rw [h2 _ hr, e1, if_pos hbig]
  · have hodd : ∃ m, (merged ys j).length = 2 * m + 1 := by
      have h3 := (mergeTimes_merged j ys _ (merged_ok j ys hdvd)).1
      rcases Nat.even_or_odd' (merged ys j).length with ⟨m, hm | hm⟩
      · exfalso
        apply hdv
        rw [h3, hm]
        exact ⟨m, by rw [pow_succ]; ring⟩
      · exact ⟨m, hm⟩
    obtain ⟨m, hm⟩ := hodd
    rw [C60_odd m _ hm]
    rfl

/-- **C93** The threshold only decides about the first iteration: all thresholds that the first peak reaches give the same result,
whatever the significance of the later peaks. -/
theorem C93_only_first (P : TFParams) (t t' : ℚ) (bts : List ℚ) (res : ℚ) (ys : List ℚ) (d0 sig : ℚ)
    (hc : tfCorrelate P bts res 0 (tfDuration P res) = .ok (ys, d0)) (hs : P.signif ys res = .ok sig) (ht : t ≤ sig) (ht' : t' ≤ sig)
    (fuel : Nat) :
    timeFreq { P with threshold := t } fuel bts res = timeFreq { P with threshold := t' } fuel bts res := by
  have hstep : ∀ s : TFState, 1 ≤ s.iter → ((∃ d dur, s.phase = .late d dur) ∨ s.phase = .begin ∧ s.iter ≠ 1) →
      tfStep { P with threshold := t } s = tfStep { P with threshold := t' } s ∧
      ∀ s', tfStep { P with threshold := t } s = .inl s' →
        1 ≤ s'.iter ∧ ((∃ d dur, s'.phase = .late d dur) ∨ s'.phase = .begin ∧ s'.iter ≠ 1) := by
    rintro s h1 (⟨d, dur, hp⟩ | ⟨hp, hi⟩)
    · refine ⟨by unfold tfStep; rw [hp]; rfl, ?_⟩
      intro s' hst
      unfold tfStep at hst
      rw [hp] at hst
      simp only at hst
      obtain ⟨df1, -, -, -, rfl⟩ := tfLate_inl _ s s' d dur hst
      exact ⟨by simp only; omega, Or.inr ⟨rfl, by simp only; omega⟩⟩
    · refine ⟨by unfold tfStep; rw [hp]; rfl, ?_⟩
      intro s' hst
      unfold tfStep at hst
      rw [hp] at hst
      simp only at hst
      cases hb : tfBegin { P with threshold := t } s with
      | error e => rw [hb] at hst; simp at hst
      | ok u =>
        rw [hb] at hst
        simp only [Sum.inl.injEq] at hst
        subst hst
        obtain ⟨ys, dt1, sig, dur, rfl⟩ := tfBegin_ok _ s u hb
        refine ⟨h1, Or.inl ⟨dt1, dur, ?_⟩⟩
        simp only
        rw [if_neg hi]
  have hrun : ∀ fuel (s : TFState), 1 ≤ s.iter → ((∃ d dur, s.phase = .late d dur) ∨ s.phase = .begin ∧ s.iter ≠ 1) →
      runLoop (tfStep { P with threshold := t }) fuel s = runLoop (tfStep { P with threshold := t' }) fuel s := by
    intro fuel
    induction fuel with
    | zero => intros; rfl
    | succ n ih =>
      intro s h1 h2
      obtain ⟨e1, e2⟩ := hstep s h1 h2
      rw [runLoop, runLoop, ← e1]
      cases hst : tfStep { P with threshold := t } s with
      | inr r => rfl
      | inl s' => exact ih s' (e2 s' hst).1 (e2 s' hst).2
  have hfirst : ∀ u, u ≤ sig → tfStep { P with threshold := u }
      { bts := bts, res := res, dt := 0, f := 1, iter := 1, phase := .search ys d0 sig (tfDuration P res), trace := [] } =
      if sig = 0 then .inr (.error .valueError) else
        .inl { bts := bts, res := res, dt := 0, f := 1, iter := 1, phase := .late d0 (tfDuration P res), trace := [] } := by
    intro u hu
    unfold tfStep tfSearch
    simp only
    split_ifs <;> rfl
  unfold timeFreq
  match fuel with
  | 0 => rfl
  | 1 =>
    rw [runLoop_step _ _ _ (start_begin { P with threshold := t } bts res ys d0 sig hc hs),
      runLoop_step _ _ _ (start_begin { P with threshold := t' } bts res ys d0 sig hc hs)]
    rfl
  | n + 2 =>
    rw [runLoop_step _ _ _ (start_begin { P with threshold := t } bts res ys d0 sig hc hs),
      runLoop_step _ _ _ (start_begin { P with threshold := t' } bts res ys d0 sig hc hs)]
    have e1 := hfirst t ht
    have e2 := hfirst t' ht'
    by_cases hz : sig = 0
    · rw [if_pos hz] at e1 e2
      exact (runLoop_stop _ _ _ e1 n).trans (runLoop_stop _ _ _ e2 n).symm
    · rw [if_neg hz] at e1 e2
      exact (runLoop_step _ _ _ e1 n).trans ((hrun n _ le_rfl (Or.inl ⟨_, _, rfl⟩)).trans (runLoop_step _ _ _ e2 n).symm)

/-- The exactness assumptions of C93 hold for doubles and for exact arithmetic. -/
theorem C93_doubles : fl 53 0 = 0 ∧ (∀ x, fl 53 x = x → fl 53 (x * 2) = x * 2) ∧ fl 53 1 = 1 := by
  refine ⟨by decide +kernel, fun x hx => ?_, by decide +kernel⟩
  have := fl_mul_zpow 53 x 1
  rw [hx] at this
  simpa using this

/-- A run with a rejected peak: the early correlation has significance 1, its merging 2, the threshold is 2. -/
def thresholdParams : TFParams :=
  { ats := [0, 1000000, 2000000], numBins := 4, target := 2, threshold := 2, sep := 1000000, duration := 8,
    endTime := 2000000, rnd := id, rndA := id, xcorr := fun _ _ => [0, 0, 1, 3],
    signif := fun ys _ => .ok (if ys.length = 4 then 1 else 2) }

/-- Instance of C93: the peak in the last bin is rejected, the merged one accepted, one merged bin of 2 ns away. -/
example : Returns (fun fuel => timeFreq thresholdParams fuel [0, 1000000, 2000000] 1)
      (.ok (-2, 0, [{ bts := [0, 1000000, 2000000], dt1 := -2, df1 := 0 }])) ∧
    tfCorrelate thresholdParams [0, 1000000, 2000000] 1 0 (tfDuration thresholdParams 1) = .ok ([0, 0, 1, 3], -1) ∧
    merged [0, 0, 1, 3] 1 = [0, 4] := by
  have h : timeFreq thresholdParams 20 [0, 1000000, 2000000] 1 =
      some (.ok (-2, 0, [{ bts := [0, 1000000, 2000000], dt1 := -2, df1 := 0 }])) := by decide +kernel
  exact ⟨⟨20, fun fuel hf => runLoop_more _ 20 fuel hf _ _ h⟩, by decide +kernel, by decide +kernel⟩

/-- Instance of C93_fail: with the threshold 3 no merging of the four bins is accepted. -/
example : ∀ j, 2 ^ j ∣ [0, 0, 1, (3 : ℚ)].length → (j = 0 ∨ 2 ^ j * (1 : ℚ) ≤ 10 ^ 4) →
    ¬ Accepted { thresholdParams with threshold := 3 } [0, 0, 1, 3] 1 j := by
  rintro j - - ⟨s, hs, -, ht⟩
  have : s = 1 ∨ s = 2 := by
    have h : (Except.ok (if (merged [0, 0, 1, 3] j).length = 4 then 1 else 2) : Except PyErr ℚ) = .ok s := hs
    injection h with h
    split_ifs at h
    · exact Or.inl h.symm
    · exact Or.inr h.symm
  have ht' : (3 : ℚ) ≤ s := ht
  rcases this with rfl | rfl <;> norm_num at ht'

end Fp
