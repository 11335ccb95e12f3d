import Verif.Spec.Rounded
import Verif.Lemmas.Float
import Verif.Lemmas.Utils

/-! Helper lemmas for `Verif/Props/Rounded.lean`. -/
namespace Fp
open Spec

theorem snap (p : ℕ) (hp : 5 ≤ p) (d : ℚ) (K : ℤ) (hK : |K| < 2 ^ p) (h : |d - K| ≤ 1 / 4) :
    (if d = 0 then (0 : ℚ) else
      if fl p (d - ((⌊d⌋ : ℤ) : ℚ)) > 1 / 2 then fl p (((⌊d⌋ : ℤ) : ℚ) + 1) else ((⌊d⌋ : ℤ) : ℚ)) = K := by
  rw [abs_le] at h
  have hhalf : fl p (1 / 2) = 1 / 2 := by
    have := fl_exact p 1 (-1) (by norm_num; exact one_lt_pow₀ (by norm_num) (by omega))
    norm_num at this
    exact this
  have h34 : fl p (3 / 4) = 3 / 4 := by
    have := fl_exact p 3 (-2) (by
      calc |(3 : ℤ)| < 2 ^ 5 := by norm_num
        _ ≤ 2 ^ p := pow_le_pow_right₀ (by norm_num) hp)
    norm_num at this
    exact this
  split
  · rename_i h0
    subst h0
    have h1 : (K : ℚ) < 1 := by linarith [h.1]
    have h2 : (-1 : ℚ) < K := by linarith [h.2]
    have h3 : K < 1 := by exact_mod_cast h1
    have h4 : -1 < K := by exact_mod_cast h2
    have : K = 0 := by omega
    subst this; simp
  rcases le_or_gt (K : ℚ) d with hge | hlt
  · have hf : ⌊d⌋ = K := by
      rw [Int.floor_eq_iff]; exact ⟨hge, by linarith [h.2]⟩
    rw [hf, if_neg]
    have := fl_mono_nonneg p (by omega) (x := d - K) (y := 1 / 2) (by linarith) (by linarith [h.2])
    rw [hhalf] at this
    exact not_lt.mpr this
  · have hf : ⌊d⌋ = K - 1 := by
      rw [Int.floor_eq_iff]; push_cast; exact ⟨by linarith [h.1], by linarith⟩
    rw [hf, if_pos]
    · push_cast
      rw [show (K : ℚ) - 1 + 1 = K by ring]
      exact fl_int p K hK
    · push_cast
      have := fl_mono_nonneg p (by omega) (x := 3 / 4) (y := d - (K - 1)) (by norm_num) (by linarith [h.1])
      rw [h34] at this
      linarith

theorem div_near (p : ℕ) (hp : 5 ≤ p) (b : ℚ) (hb : 0 < b) (T : ℤ) (hT : |T| + 1 ≤ 2 ^ (p - 5)) :
    |fl p (fl p (b * T) / b) - T| ≤ 1 / 16 ∧ |fl p (fl p (fl p (b * T) / b) - 1) - ((T - 1 : ℤ) : ℚ)| ≤ 1 / 4 := by
  have hu : ((|T| : ℤ) : ℚ) * 2 ^ (-(p : ℤ)) + 2 ^ (-(p : ℤ)) ≤ 1 / 32 := by
    have h1 : ((|T| : ℤ) : ℚ) + 1 ≤ 2 ^ (p - 5) := by exact_mod_cast hT
    have h2 : (2 : ℚ) ^ (p - 5) * 2 ^ (-(p : ℤ)) = 1 / 32 := by
      rw [← zpow_natCast, ← zpow_add₀ (by norm_num)]
      have : ((p - 5 : ℕ) : ℤ) + -(p : ℤ) = -5 := by omega
      rw [this]; norm_num
    have h3 : (0 : ℚ) < 2 ^ (-(p : ℤ)) := by positivity
    nlinarith
  have hupos : (0 : ℚ) < 2 ^ (-(p : ℤ)) := by positivity
  have e1 := fl_err p (b * T)
  set x1 := fl p (b * T)
  have e2 := fl_err p (x1 / b)
  set y := fl p (x1 / b)
  have e3 := fl_err p (y - 1)
  set z := fl p (y - 1)
  generalize (2 : ℚ) ^ (-(p : ℤ)) = u at *
  have hA : ((|T| : ℤ) : ℚ) = |(T : ℚ)| := by push_cast; rfl
  rw [hA] at hu
  have hTn : 0 ≤ |(T : ℚ)| := abs_nonneg _
  have hu1 : u ≤ 1 / 32 := by nlinarith
  have d1 : |x1 / b - T| ≤ |(T : ℚ)| * u := by
    have : x1 / b - T = (x1 - b * T) / b := by field_simp
    rw [this, abs_div, abs_of_pos hb, div_le_iff₀ hb]
    rw [abs_mul, abs_of_pos hb] at e1
    linarith
  have d2 : |x1 / b| ≤ |(T : ℚ)| + 1 / 32 := by
    have : |x1 / b| ≤ |x1 / b - T| + |(T : ℚ)| := by
      have := abs_add_le (x1 / b - T) (T : ℚ)
      rwa [sub_add_cancel] at this
    nlinarith
  have d3 : |y - T| ≤ |(T : ℚ)| * u + (|(T : ℚ)| + 1 / 32) * u := by
    have : |y - T| ≤ |y - x1 / b| + |x1 / b - T| := by
      have := abs_add_le (y - x1 / b) (x1 / b - T)
      rwa [sub_add_sub_cancel] at this
    have : |x1 / b| * u ≤ (|(T : ℚ)| + 1 / 32) * u := by nlinarith
    linarith
  have d4 : |y - T| ≤ 1 / 16 := by nlinarith
  refine ⟨d4, ?_⟩
  have d5 : |y - 1| ≤ |(T : ℚ)| + 17 / 16 := by
    have : |y - 1| ≤ |y - T| + |(T : ℚ) - 1| := by
      have := abs_add_le (y - T) (T - 1)
      rwa [sub_add_sub_cancel] at this
    have h2 : |(T : ℚ) - 1| ≤ |(T : ℚ)| + 1 := by
      have := abs_sub (T : ℚ) 1
      simpa using this
    linarith
  have d6 : |z - (T - 1)| ≤ |z - (y - 1)| + |y - T| := by
    have := abs_add_le (z - (y - 1)) (y - T)
    rwa [show z - (y - 1) + (y - T) = z - (T - 1) by ring] at this
  push_cast
  nlinarith

theorem remainder_exact (p : ℕ) (q : ℤ) (n : ℕ) (hn : 0 < n) (hp : n < 2 ^ p) :
    npRemainder (fl p) (q : ℚ) (n : ℚ) = ((q % (n : ℤ) : ℤ) : ℚ) := by
  have hn' : (0 : ℚ) < n := by exact_mod_cast hn
  have hnz : (0 : ℤ) < n := by exact_mod_cast hn
  have hf : ⌊(q : ℚ) / (n : ℚ)⌋ = q / (n : ℤ) := by
    have := Rat.floor_intCast_div_natCast q n
    exact_mod_cast this
  have hdm := Int.emod_add_mul_ediv q n
  have hr0 := Int.emod_nonneg q hnz.ne'
  have hr1 := Int.emod_lt_of_pos q hnz
  have hdmq : ((q % (n : ℤ) : ℤ) : ℚ) = q - n * ((q / (n : ℤ) : ℤ) : ℚ) := by
    have : ((q % (n : ℤ) + n * (q / (n : ℤ)) : ℤ) : ℚ) = q := by rw [hdm]
    push_cast at this ⊢
    linarith
  unfold npRemainder
  have hnn : ¬ ((n : ℚ) < 0) := not_lt.mpr hn'.le
  by_cases hq : 0 ≤ (q : ℚ) / (n : ℚ)
  · have hm : cFmod (q : ℚ) (n : ℚ) = ((q % (n : ℤ) : ℤ) : ℚ) := by
      unfold cFmod; rw [if_pos hq, hf, hdmq]
    have hmn : ¬ (((q % (n : ℤ) : ℤ) : ℚ) < 0) := not_lt.mpr (by exact_mod_cast hr0)
    simp only [hm, hmn, hnn, decide_false, ne_eq, not_true_eq_false, and_false, if_false]
  · by_cases hz : q % (n : ℤ) = 0
    · have hc : ⌈(q : ℚ) / (n : ℚ)⌉ = q / (n : ℤ) := by
        have : (q : ℚ) / n = ((q / (n : ℤ) : ℤ) : ℚ) := by
          rw [div_eq_iff hn'.ne']
          rw [hz] at hdmq
          push_cast at hdmq ⊢
          linarith
        rw [this, Int.ceil_intCast]
      have hm : cFmod (q : ℚ) (n : ℚ) = 0 := by
        unfold cFmod; rw [if_neg hq, hc, ← hdmq, hz, Int.cast_zero]
      simp only [hm, hz, ne_eq, not_true_eq_false, false_and, if_false, Int.cast_zero]
    · have hc : ⌈(q : ℚ) / (n : ℚ)⌉ = q / (n : ℤ) + 1 := by
        have hzq : (0 : ℚ) < ((q % (n : ℤ) : ℤ) : ℚ) := by
          exact_mod_cast lt_of_le_of_ne hr0 (Ne.symm hz)
        have hlt : ((q % (n : ℤ) : ℤ) : ℚ) < n := by exact_mod_cast hr1
        rw [Int.ceil_eq_iff]
        push_cast
        constructor
        · rw [lt_div_iff₀ hn', add_sub_cancel_right]
          push_cast at hdmq hzq
          linarith
        · rw [div_le_iff₀ hn']
          push_cast at hdmq hlt
          linarith
      have hm : cFmod (q : ℚ) (n : ℚ) = ((q % (n : ℤ) - n : ℤ) : ℚ) := by
        unfold cFmod; rw [if_neg hq, hc]
        push_cast at hdmq ⊢
        linarith
      have hmn : ((q % (n : ℤ) - n : ℤ) : ℚ) < 0 := by
        have : q % (n : ℤ) - n < 0 := by omega
        exact_mod_cast this
      simp only [hm, hmn, hnn, hmn.ne, decide_false, decide_true, ne_eq, not_false_eq_true, Bool.false_eq_true,
        and_self, if_true]
      have : ((q % (n : ℤ) - n : ℤ) : ℚ) + n = ((q % (n : ℤ) : ℤ) : ℚ) := by push_cast; ring
      rw [this]
      apply fl_int
      rw [abs_of_nonneg hr0]
      have : (n : ℤ) < 2 ^ p := by exact_mod_cast hp
      omega

theorem grid_sub {t s : ℚ} (ht : OnGrid t) (hs : OnGrid s) (p : ℕ) (hp : 62 ≤ p) : fl p (t - s) = t - s := by
  obtain ⟨m, rfl, hm⟩ := ht
  obtain ⟨k, rfl, hk⟩ := hs
  have h := fl_exact p (m - k) (-8) (by
    calc |m - k| ≤ |m| + |k| := abs_sub m k
      _ < 2 ^ 62 := by omega
      _ ≤ 2 ^ p := pow_le_pow_right₀ (by norm_num) hp)
  have e : ((m - k : ℤ) : ℚ) * 2 ^ (-8 : ℤ) = (m : ℚ) / 256 - k / 256 := by
    push_cast; norm_num; ring
  rwa [e] at h

theorem slice_exact (p : ℕ) (hp : 62 ≤ p) (ts : List ℚ) (h : ∀ t ∈ ts, OnGrid t) (start duration : Option ℚ)
    (hs : ∀ s, start = some s → OnGrid s) : sliceTimestampsR (fl p) ts start duration = sliceTimestamps ts start duration := by
  unfold sliceTimestampsR sliceTimestamps
  cases start with
  | some s =>
    simp only
    rw [List.map_congr_left (fun t ht => grid_sub (h t ht) (hs s rfl) p hp)]
    rfl
  | none =>
    cases ts with
    | nil => rfl
    | cons t0 ts =>
      simp only
      rw [List.map_congr_left (fun t ht => grid_sub (h t ht) (h t0 (List.mem_cons_self)) p hp)]
      rfl

theorem heads_max (T : List (List ℚ)) (hT : T ≠ []) (hne : ∀ ts ∈ T, ts ≠ []) (m : ℚ)
    (hm : IsGreatest {x | ∃ ts ∈ T, ts.head? = some x} m) :
    ((T.map (fun ts => ts.headD 0)).tail).foldl max ((T.map (fun ts => ts.headD 0)).headD 0) = m := by
  obtain ⟨ts, T', rfl⟩ := List.exists_cons_of_ne_nil hT
  simp only [List.map_cons, List.tail_cons, List.headD_cons]
  obtain ⟨g1, g2⟩ := foldl_max_spec (T'.map (fun ts => ts.headD 0)) (ts.headD 0)
  rw [← List.map_cons (f := fun ts : List ℚ => ts.headD 0)] at g1 g2
  apply le_antisymm
  · obtain ⟨us, hus, he⟩ := List.mem_map.mp g1
    rw [← he]
    apply hm.2
    obtain ⟨u, us, rfl⟩ := List.exists_cons_of_ne_nil (hne us hus)
    exact ⟨_, hus, rfl⟩
  · obtain ⟨us, hus, he⟩ := hm.1
    apply g2
    refine List.mem_map.mpr ⟨us, hus, ?_⟩
    cases us with
    | nil => simp at he
    | cons u us => simpa using he

end Fp
