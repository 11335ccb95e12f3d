import Verif.Spec.Freqcd
import Verif.Lemmas.FreqcdStep
import Mathlib.Algebra.Order.Floor.Ring
import Mathlib.Data.Rat.Floor
import Mathlib.Algebra.Order.Ring.Abs
import Mathlib.Tactic.Linarith
import Mathlib.Tactic.NormNum
import Mathlib.Tactic.Positivity
import Mathlib.Data.List.Induction

/-! Helper lemmas for `Verif/Props/Freqcd.lean`. -/
namespace Fp
open Spec

theorem initial_wf {s : FState} {fcorr : BitVec 32} {fo : Bool} {src fsrc : Bytes} (h : Initial s fcorr fo src fsrc) :
    WF s ∧ s.outevents = 0 ∧ Pos src (abst s) 0 ∧ s.out = [] ∧ s.fcorr = fcorr ∧ s.src = src ∧ s.isset = false ∧ s.ovf = 0 := by
  obtain ⟨ib, ob, fb, tm, tc, h1, h2, h3, rfl⟩ := h
  refine ⟨⟨h1, h2, h3, by simp [fInit], by simp [fInit], rfl⟩, rfl, ⟨by simp, by simp [abst, fInit], by simp [abst, fInit]⟩, rfl, rfl, rfl, rfl, rfl⟩

/-- The run of the program is that of the machine without buffers. -/
theorem run_abst {legacy : Bool} {rs : List Round} {s s' : FState} {stop : Option Stop} (hw : WF s) (ho : s.outevents = 0)
    (h : fRun legacy rs s = .ok (s', stop)) : aRun legacy rs (abst s) = (abst s', stop) := by
  obtain ⟨s1, h1, h2⟩ := run_ok legacy rs hw ho
  rw [h, Except.ok.injEq, Prod.mk.injEq] at h1
  rw [← h1.1] at h2
  rw [h2, h1.2]

theorem run_of_abst {legacy : Bool} {rs : List Round} {s : FState} {a : AState} {stop : Option Stop} (hw : WF s) (ho : s.outevents = 0)
    (h : aRun legacy rs (abst s) = (a, stop)) : ∃ s', fRun legacy rs s = .ok (s', stop) ∧ abst s' = a := by
  obtain ⟨s1, h1, h2⟩ := run_ok legacy rs hw ho
  rw [h] at h1 h2
  exact ⟨s1, h1, h2⟩

theorem aRun_concat (legacy : Bool) (rs : List Round) (r : Round) (a a' : AState) (h : aRun legacy (rs ++ [r]) a = (a', none)) :
    ∃ a1, aRun legacy rs a = (a1, none) ∧ aStep legacy r a1 = (a', none) := by
  cases hr : aRun legacy rs a with
  | mk a1 st =>
    cases st with
    | none =>
      rw [aRun_append _ _ _ _ _ hr] at h
      refine ⟨a1, rfl, ?_⟩
      unfold aRun at h
      by_cases hst : (aStep legacy r a1).2 = none
      · rw [if_neg (by simp [hst])] at h
        simp only [aRun, Prod.mk.injEq, and_true] at h
        rw [← h, ← hst]
      · rw [if_pos hst] at h; exact h
    | some st =>
      exfalso
      have key : ∀ (rs : List Round) (a : AState), (aRun legacy rs a).2 ≠ none → aRun legacy (rs ++ [r]) a = aRun legacy rs a := by
        intro rs
        induction rs with
        | nil => intro a h; simp [aRun] at h
        | cons x rs ih =>
          intro a hne
          rw [List.cons_append, aRun, aRun]
          unfold aRun at hne
          by_cases hst : (aStep legacy x a).2 = none
          · rw [if_neg (by simp [hst])] at hne ⊢
            rw [if_neg (by simp [hst])]
            exact ih _ hne
          · rw [if_pos hst, if_pos hst]
      have := key rs a (by rw [hr]; simp)
      rw [this, hr] at h
      simp at h

/-- Induction over the steps of a run that goes on. -/
theorem clean_ind {legacy : Bool} {src : Bytes} {rs : List Round} {a0 : AState} (Inv : List Round → AState → Nat → Prop)
    (hp : Pos src a0 0) (h0 : Inv [] a0 0)
    (hstep : ∀ rs1 r a a' n, rs1 ++ [r] <+: rs → aRun legacy rs1 a0 = (a, none) → aRun legacy (rs1 ++ [r]) a0 = (a', none) →
      Pos src a n → Inv rs1 a n → aStep legacy r a = (a', none) → ∃ n', Pos src a' n' ∧ Inv (rs1 ++ [r]) a' n')
    (a' : AState) (h : aRun legacy rs a0 = (a', none)) : ∃ n, Pos src a' n ∧ Inv rs a' n := by
  suffices hs : ∀ rs1, rs1 <+: rs → ∀ a', aRun legacy rs1 a0 = (a', none) → ∃ n, Pos src a' n ∧ Inv rs1 a' n from
    hs rs (List.prefix_refl _) a' h
  intro rs1
  induction rs1 using List.reverseRecOn with
  | nil =>
    intro _ a' ha
    simp only [aRun, Prod.mk.injEq, and_true] at ha
    subst ha
    exact ⟨0, hp, h0⟩
  | append_singleton rs1 r ih =>
    intro hpre a' ha
    obtain ⟨a1, h1, h2⟩ := aRun_concat _ _ _ _ _ ha
    obtain ⟨n, hn1, hn2⟩ := ih ((List.prefix_append _ _).trans hpre) a1 h1
    exact hstep rs1 r a1 a' n hpre h1 ha hn1 hn2 h2

theorem between_mem {src : Bytes} {n n' : Nat} {ev : Bytes} (h : ev ∈ between src n n') : ev.length = 8 :=
  mem_events (List.mem_of_mem_take (List.mem_of_mem_drop h))

theorem events_block (legacy : Bool) (fc : BitVec 32) (evs : List Bytes) (e : EState) :
    events (eBlock legacy fc evs e) = evs.map (evCorrect legacy fc (eRef legacy evs e) e.ovf) :=
  events_flatMap _ _ (fun _ _ => evCorrect_length _ _ _ _ _)

theorem block_flags (legacy : Bool) (fc : BitVec 32) (src : Bytes) (n n' : Nat) (e : EState) :
    (events (eBlock legacy fc (between src n n') e)).map (evFlags legacy) = (between src n n').map (evFlags legacy) := by
  rw [events_block, List.map_map]
  apply List.map_congr_left
  intro ev hev
  exact evFlags_evCorrect _ _ _ _ _ (between_mem hev)

theorem block_length (legacy : Bool) (fc : BitVec 32) (evs : List Bytes) (e : EState) :
    (eBlock legacy fc evs e).length = 8 * evs.length := flatMap_length_fixed _ _ _ (fun _ => evCorrect_length _ _ _ _ _)

theorem take_between (src : Bytes) (n n' : Nat) (h : n ≤ n') :
    (events src).take (n / 8) ++ between src n n' = (events src).take (n' / 8) := by
  unfold between
  conv_rhs => rw [← List.take_append_drop (n / 8) ((events src).take (n' / 8))]
  rw [List.take_take, min_eq_left (Nat.div_le_div_right h)]

theorem between_length (src : Bytes) (n n' : Nat) (h : n' ≤ src.length) : (between src n n').length = n' / 8 - n / 8 := by
  unfold between
  rw [List.length_drop, List.length_take, events_length]
  omega

theorem flags_inv (legacy : Bool) (src : Bytes) (rs : List Round) (a0 : AState) (hp : Pos src a0 0) (hout : a0.out = [])
    (a' : AState) (h : aRun legacy rs a0 = (a', none)) :
    ∃ n, Pos src a' n ∧ a'.out.length = 8 * (n / 8) ∧ (events a'.out).map (evFlags legacy) = ((events src).take (n / 8)).map (evFlags legacy) := by
  refine clean_ind (fun _ a n => a.out.length = 8 * (n / 8) ∧
    (events a.out).map (evFlags legacy) = ((events src).take (n / 8)).map (evFlags legacy)) hp (by simp [hout, events]) ?_ a' h
  rintro rs1 r a a' n - - - hpos ⟨h1, h2⟩ hst
  obtain ⟨-, -, -, -, -, ⟨g1, -, g2⟩ | ⟨n', g1, -, g2, -, g3⟩⟩ := aStep_clean legacy r src a a' n hpos hst
  · exact ⟨n, g1, by rw [g2]; exact h1, by rw [g2]; exact h2⟩
  · refine ⟨n', g2, ?_, ?_⟩
    · rw [g3, List.length_append, block_length, between_length _ _ _ g2.le, h1]
      have := Nat.div_le_div_right (c := 8) g1.le
      omega
    · rw [g3, events_append _ _ _ h1, List.map_append, h2, block_flags, ← take_between src n n' g1.le, List.map_append]

theorem leNat_inj {a b : Bytes} (hl : a.length = b.length) (h : leNat a = leNat b) : a = b := by
  rw [← leBytes_leNat a, ← leBytes_leNat b, hl, h]

theorem word_inj (legacy : Bool) {a b : Bytes} (ha : a.length = 8) (hb : b.length = 8) (h : word legacy a = word legacy b) : a = b := by
  have e1 := leNat_halves a ha
  have e2 := leNat_halves b hb
  have b1 := leNat_lt (a.take 4)
  have b2 := leNat_lt (a.drop 4)
  have b3 := leNat_lt (b.take 4)
  have b4 := leNat_lt (b.drop 4)
  simp only [List.length_take, List.length_drop, ha, hb] at b1 b2 b3 b4
  norm_num at b1 b2 b3 b4
  unfold word at h
  cases legacy
  · exact leNat_inj (by omega) h
  · simp only [if_true] at h
    have : leNat a = leNat b := by
      generalize leNat a = x at *
      generalize leNat b = y at *
      generalize leNat (a.take 4) = x1 at *
      generalize leNat (a.drop 4) = x2 at *
      generalize leNat (b.take 4) = x3 at *
      generalize leNat (b.drop 4) = x4 at *
      omega
    exact leNat_inj (by omega) this

theorem tsCorr_zero (r m : BitVec 64) : tsCorr 0 r m = 0 := by
  unfold tsCorr
  simp

theorem evCorrect_zero (legacy : Bool) (r : BitVec 64) (ev : Bytes) (h : ev.length = 8) : evCorrect legacy 0 r 0 ev = ev := by
  apply word_inj legacy (evCorrect_length _ _ _ _ _) h
  rw [word_evCorrect _ _ _ _ _ h, tsCorr_zero, show ∀ x : BitVec 64, x + 0 + 0 = x by simp, evMeas_toNat _ _ h,
    Nat.mod_eq_of_lt (evTime_lt _ _ h)]
  unfold evTime evFlags
  omega

theorem flatMap_events (b : Bytes) (k : Nat) (h : b.length = 8 * k) : (events b).flatMap id = b := by
  induction k generalizing b with
  | zero => rw [List.length_eq_zero_iff.mp (by omega : b.length = 0)]; simp [events]
  | succ k ih =>
    have h1 := events_append (b.take 8) (b.drop 8) 1 (by rw [List.length_take]; omega)
    rw [List.take_append_drop] at h1
    rw [h1, List.flatMap_append, events_single _ (by rw [List.length_take]; omega), ih _ (by rw [List.length_drop]; omega)]
    simp

theorem between_bytes (src : Bytes) (n n' : Nat) (h : n ≤ n') (h' : n' ≤ src.length) :
    (between src n n').flatMap id = (src.take (8 * (n' / 8))).drop (8 * (n / 8)) := by
  have hd := Nat.div_le_div_right (c := 8) h
  have h1 : between src n n' = events ((src.take (8 * (n' / 8))).drop (8 * (n / 8))) := by
    rw [events_drop, events_take _ _ (by omega), show 8 * (n' / 8) / 8 = n' / 8 by omega]
    rfl
  rw [h1]
  apply flatMap_events _ (n' / 8 - n / 8)
  rw [List.length_drop, List.length_take]
  omega

/-- The correction as a function of the time since the reference. -/
def corrOf (f d : ℤ) : ℤ := d / 2 ^ 12 * f / 2 ^ 22

theorem floor_div (a : ℤ) (n : ℕ) : ⌊(a : ℚ) / n⌋ = a / n := Rat.floor_intCast_div_natCast a n

theorem corrected_time (legacy : Bool) (fcorr : BitVec 32) (tsref ovf : BitVec 64) (ev : Bytes) (h : ev.length = 8)
    (hle : tsref.toNat ≤ evTime legacy ev) (hf : |fcorr.toInt| < 2 ^ 21) (c : ℤ) (hc : ovf = BitVec.ofInt 64 c) :
    (evTime legacy (evCorrect legacy fcorr tsref ovf ev) : ℤ) =
      ((evTime legacy ev : ℤ) + (c + corrOf fcorr.toInt ((evTime legacy ev : ℤ) - tsref.toNat))) % 2 ^ 54 := by
  have hm := evMeas_toNat legacy ev h
  have hlt := evTime_lt legacy ev h
  have ht := tsCorr_toInt fcorr tsref (evMeas legacy ev) (by omega) (by omega) hf
  rw [evTime_evCorrect _ _ _ _ _ h]
  rw [hm] at ht
  have h1 : ((evMeas legacy ev + tsCorr fcorr tsref (evMeas legacy ev) + ovf).toNat : ℤ) % 2 ^ 64 =
      ((evTime legacy ev : ℤ) + (c + corrOf fcorr.toInt ((evTime legacy ev : ℤ) - tsref.toNat))) % 2 ^ 64 := by
    have e1 : evMeas legacy ev = BitVec.ofInt 64 (evTime legacy ev) := by
      rw [BitVec.ofInt_natCast, ← hm]; simp
    have e2 : tsCorr fcorr tsref (evMeas legacy ev) = BitVec.ofInt 64 (corrOf fcorr.toInt ((evTime legacy ev : ℤ) - tsref.toNat)) := by
      unfold corrOf
      rw [← ht, BitVec.ofInt_toInt]
    rw [e2, hc]
    rw [e1]
    rw [← BitVec.ofInt_add, ← BitVec.ofInt_add, BitVec.toNat_ofInt]
    push_cast
    rw [Int.toNat_of_nonneg (Int.emod_nonneg _ (by norm_num)), Int.emod_emod_of_dvd _ (dvd_refl _)]
    congr 1
    ring
  generalize (evMeas legacy ev + tsCorr fcorr tsref (evMeas legacy ev) + ovf).toNat = x at *
  generalize ((evTime legacy ev : ℤ) + (c + corrOf fcorr.toInt ((evTime legacy ev : ℤ) - tsref.toNat))) = y at *
  omega

theorem corrOf_zero (f : ℤ) : corrOf f 0 = 0 := by simp [corrOf]

theorem corrOf_mono (f d d' : ℤ) (h : d ≤ d') (hf : |f| < 2 ^ 21) : d + corrOf f d ≤ d' + corrOf f d' := by
  unfold corrOf
  have hq : d / 2 ^ 12 ≤ d' / 2 ^ 12 := Int.ediv_le_ediv (by norm_num) h
  rw [abs_lt] at hf
  have hp : d' / 2 ^ 12 * f - d / 2 ^ 12 * f ≥ - ((d' / 2 ^ 12 - d / 2 ^ 12) * 2 ^ 21) := by
    have := mul_nonneg (sub_nonneg.mpr hq) (by linarith [hf.1] : (0 : ℤ) ≤ f + 2 ^ 21)
    nlinarith
  have e1 : d = 2 ^ 12 * (d / 2 ^ 12) + d % 2 ^ 12 := by omega
  have e2 : d' = 2 ^ 12 * (d' / 2 ^ 12) + d' % 2 ^ 12 := by omega
  generalize d / 2 ^ 12 = q at *
  generalize d' / 2 ^ 12 = q' at *
  generalize q * f = p at *
  generalize q' * f = p' at *
  by_cases heq : q = q'
  · subst heq
    have : d - d' ≤ 0 := by omega
    have hpp : p = p' ∨ p ≠ p' := em _
    omega
  · omega

theorem corrOf_le (f d : ℤ) (h : 0 ≤ d) (hf : |f| < 2 ^ 21) : 2 ^ 13 * corrOf f d ≤ d := by
  unfold corrOf
  rw [abs_lt] at hf
  have hq : 0 ≤ d / 2 ^ 12 := by omega
  have hp : d / 2 ^ 12 * f ≤ d / 2 ^ 12 * 2 ^ 21 := mul_le_mul_of_nonneg_left (by linarith [hf.2]) hq
  have e1 : d = 2 ^ 12 * (d / 2 ^ 12) + d % 2 ^ 12 := by omega
  generalize d / 2 ^ 12 = q at *
  generalize q * f = p at *
  omega

theorem corrOf_approx (f d : ℤ) (hf : |f| < 2 ^ 21) : |(corrOf f d : ℚ) - (d : ℚ) * f / 2 ^ 34| < 3 / 2 := by
  unfold corrOf
  have e1 : d = 2 ^ 12 * (d / 2 ^ 12) + d % 2 ^ 12 := by omega
  have e2 : d / 2 ^ 12 * f = 2 ^ 22 * (d / 2 ^ 12 * f / 2 ^ 22) + d / 2 ^ 12 * f % 2 ^ 22 := by omega
  have b1 : 0 ≤ d % 2 ^ 12 := by omega
  have b2 : d % 2 ^ 12 < 2 ^ 12 := by omega
  have b3 : 0 ≤ d / 2 ^ 12 * f % 2 ^ 22 := by omega
  have b4 : d / 2 ^ 12 * f % 2 ^ 22 < 2 ^ 22 := by omega
  generalize d / 2 ^ 12 * f % 2 ^ 22 = r2 at *
  generalize d / 2 ^ 12 * f / 2 ^ 22 = x at *
  generalize d % 2 ^ 12 = r1 at *
  generalize d / 2 ^ 12 = q at *
  have q1 : (d : ℚ) = 2 ^ 12 * q + r1 := by exact_mod_cast e1
  have q2 : (q : ℚ) * f = 2 ^ 22 * x + r2 := by exact_mod_cast e2
  have c1 : (0 : ℚ) ≤ r1 := by exact_mod_cast b1
  have c2 : (r1 : ℚ) < 2 ^ 12 := by exact_mod_cast b2
  have c3 : (0 : ℚ) ≤ r2 := by exact_mod_cast b3
  have c4 : (r2 : ℚ) < 2 ^ 22 := by exact_mod_cast b4
  have hfq : |(f : ℚ)| < 2 ^ 21 := by exact_mod_cast hf
  have h3 : |(r1 : ℚ) * f| ≤ 2 ^ 12 * 2 ^ 21 := by
    rw [abs_mul, abs_of_nonneg c1]
    exact mul_le_mul c2.le hfq.le (abs_nonneg _) (by norm_num)
  have h4 : (x : ℚ) - (d : ℚ) * f / 2 ^ 34 = -(r2 / 2 ^ 22) - r1 * f / 2 ^ 34 := by
    rw [q1]
    have : (x : ℚ) = (q * f - r2) / 2 ^ 22 := by rw [q2]; field_simp; ring
    rw [this]
    field_simp
    ring
  rw [h4]
  rw [abs_le] at h3
  rw [abs_lt]
  constructor
  · have : (r2 : ℚ) / 2 ^ 22 < 1 := by rw [div_lt_one (by norm_num)]; exact c4
    have : (r1 : ℚ) * f / 2 ^ 34 ≤ 1 / 2 := by rw [div_le_iff₀ (by norm_num)]; linarith [h3.2]
    linarith
  · have : (0 : ℚ) ≤ r2 / 2 ^ 22 := by positivity
    have : -(1 / 2) ≤ (r1 : ℚ) * f / 2 ^ 34 := by rw [le_div_iff₀ (by norm_num)]; linarith [h3.1]
    linarith

/-- What is known about the corrections during a run on ordered events. -/
structure Ideal (legacy : Bool) (src : Bytes) (G : Nat → ℤ → ℕ → Prop) (k : Nat) (a : AState) (n : Nat) (us : List ℤ) : Prop where
  out : (times legacy a.out : List ℕ).map (fun x : ℕ => (x : ℤ)) = us.map (fun u : ℤ => u % 2 ^ 54)
  len : a.out.length = 8 * (n / 8)
  sorted : us.Pairwise (· ≤ ·)
  good : List.Forall₂ (fun (u : ℤ) (t : ℕ) => 0 < k ∧ G k (u - t) t) us ((times legacy src).take (n / 8))
  off : (a.isset = false ∧ a.ovf = 0 ∧ n / 8 = 0) ∨
    (a.isset = true ∧ ∃ c : ℤ, a.ovf = BitVec.ofInt 64 c ∧ G k c a.tsref.toNat ∧
      (∀ t ∈ (times legacy src).drop (n / 8), a.tsref.toNat ≤ t) ∧ ∀ u ∈ us, u ≤ (a.tsref.toNat : ℤ) + c)

theorem times_between (legacy : Bool) (src : Bytes) (n n' : Nat) :
    (between src n n').map (evTime legacy) = ((times legacy src).take (n' / 8)).drop (n / 8) := by
  unfold between times
  rw [List.map_drop, List.map_take]

theorem ideal_read {legacy : Bool} {src : Bytes} {G : Nat → ℤ → ℕ → Prop} {k : Nat} {a a' : AState} {n n' : Nat} {us : List ℤ}
    (t0 : ℕ) (ht0 : ∀ t, (times legacy src).head? = some t → t = t0) (hG0 : ∀ k, G k 0 t0)
    (hGs : ∀ c (r t : ℕ), r ≤ t → G k c r → G (k + 1) (c + corrOf a.fcorr.toInt ((t : ℤ) - r)) t)
    (hGm : ∀ c t, G k c t → G (k + 1) c t)
    (hord : (times legacy src).Pairwise (· ≤ ·)) (hf : |a.fcorr.toInt| < 2 ^ 21)
    (hpos : Pos src a n) (hi : Ideal legacy src G k a n us) (hlt : n < n') (hpos' : Pos src a' n')
    (hne : between src n n' ≠ [])
    (he : a'.e = eRead legacy a.fcorr (between src n n') a.e)
    (ho : a'.out = a.out ++ eBlock legacy a.fcorr (between src n n') a.e) :
    ∃ us', Ideal legacy src G (k + 1) a' n' us' := by
  have hle := hpos'.le
  have hd := Nat.div_le_div_right (c := 8) hlt.le
  have hbl := between_length src n n' hle
  -- the reference time
  have href : ∃ c : ℤ, a.ovf = BitVec.ofInt 64 c ∧ G k c (eRef legacy (between src n n') a.e).toNat ∧
      (∀ t ∈ (times legacy src).drop (n / 8), (eRef legacy (between src n n') a.e).toNat ≤ t) ∧
      ∀ u ∈ us, u ≤ ((eRef legacy (between src n n') a.e).toNat : ℤ) + c := by
    rcases hi.off with ⟨i1, i2, i3⟩ | ⟨i1, c, i2, i3, i4, i5⟩
    · have hus : us = [] := by
        have := hi.good.length_eq
        rw [i3] at this
        simpa using this
      have hh : ∃ x xs, between src n n' = x :: xs := List.exists_cons_of_ne_nil hne
      obtain ⟨x, xs, hx⟩ := hh
      have href : (eRef legacy (between src n n') a.e).toNat = evTime legacy x := by
        unfold eRef
        rw [show a.e.isset = false from i1, hx]
        simp only [Bool.false_eq_true, if_false, List.head?_cons, Option.map_some, Option.getD_some]
        exact evMeas_toNat _ _ (between_mem (by rw [hx]; simp))
      have hhead : (times legacy src).head? = some (evTime legacy x) := by
        have := times_between legacy src n n'
        rw [hx, i3, List.drop_zero, List.map_cons] at this
        have h2 := congrArg List.head? this
        rw [List.head?_cons, List.head?_take] at h2
        split at h2
        · simp at h2
        · exact h2.symm
      have h0 := ht0 _ hhead
      refine ⟨0, by rw [i2]; rfl, ?_, ?_, ?_⟩
      · rw [href, h0]; exact hG0 k
      · rw [href, i3, List.drop_zero]
        intro t ht
        obtain ⟨y, ys, hy⟩ : ∃ y ys, times legacy src = y :: ys := by
          cases hc : times legacy src with
          | nil => rw [hc] at hhead; simp at hhead
          | cons y ys => exact ⟨y, ys, rfl⟩
        rw [hy, List.head?_cons, Option.some.injEq] at hhead
        rw [hy] at ht hord
        rw [List.pairwise_cons] at hord
        rcases List.mem_cons.mp ht with h | h
        · rw [h, hhead]
        · rw [← hhead]; exact hord.1 _ h
      · rw [hus]; simp
    · have : eRef legacy (between src n n') a.e = a.tsref := by
        unfold eRef
        rw [show a.e.isset = true from i1]
        rfl
      rw [this]
      exact ⟨c, i2, i3, i4, i5⟩
  obtain ⟨c, r1, r2, r3, r4⟩ := href
  -- the last event
  obtain ⟨z, hz⟩ : ∃ z, (between src n n').getLast? = some z := by
    cases hc : (between src n n').getLast? with
    | none => rw [List.getLast?_eq_none_iff] at hc; exact absurd hc hne
    | some z => exact ⟨z, rfl⟩
  have hzm : z ∈ between src n n' := List.mem_of_getLast? hz
  have hz8 := between_mem hzm
  have hmem : ∀ x ∈ between src n n', evTime legacy x ∈ (times legacy src).drop (n / 8) := by
    intro x hx
    have h1 : evTime legacy x ∈ (between src n n').map (evTime legacy) := List.mem_map_of_mem hx
    rw [times_between, List.drop_take] at h1
    exact List.mem_of_mem_take h1
  have hbord : ((between src n n').map (evTime legacy)).Pairwise (· ≤ ·) := by
    rw [times_between]
    exact (hord.sublist (List.take_sublist _ _)).sublist (List.drop_sublist _ _)
  have hlast : ∀ x ∈ between src n n', evTime legacy x ≤ evTime legacy z := by
    intro x hx
    obtain ⟨l, hl⟩ := List.getLast?_eq_some_iff.mp hz
    rw [hl] at hx hbord
    rw [List.map_append, List.pairwise_append] at hbord
    rcases List.mem_append.mp hx with h | h
    · exact hbord.2.2 _ (List.mem_map_of_mem h) _ (by simp)
    · simp at h; rw [h]
  generalize hR : eRef legacy (between src n n') a.e = R at *
  have hRz : R.toNat ≤ evTime legacy z := r3 _ (hmem z hzm)
  have hcorrz : tsCorr a.fcorr R (evMeas legacy z) = BitVec.ofInt 64 (corrOf a.fcorr.toInt ((evTime legacy z : ℤ) - R.toNat)) := by
    have hm := evMeas_toNat legacy z hz8
    have hzlt := evTime_lt legacy z hz8
    have ht := tsCorr_toInt a.fcorr R (evMeas legacy z) (by omega) (by omega) hf
    rw [hm] at ht
    unfold corrOf
    rw [← ht, BitVec.ofInt_toInt]
  refine ⟨us ++ (between src n n').map (fun ev : Bytes => (evTime legacy ev : ℤ) + (c + corrOf a.fcorr.toInt ((evTime legacy ev : ℤ) - R.toNat))), ?_⟩
  constructor
  · have hb : (times legacy (eBlock legacy a.fcorr (between src n n') a.e)).map (fun x : ℕ => (x : ℤ)) =
        ((between src n n').map (fun ev : Bytes => (evTime legacy ev : ℤ) + (c + corrOf a.fcorr.toInt ((evTime legacy ev : ℤ) - R.toNat)))).map
          (fun u : ℤ => u % 2 ^ 54) := by
      unfold times
      rw [events_block, hR, List.map_map, List.map_map, List.map_map]
      apply List.map_congr_left
      intro ev hev
      exact corrected_time legacy a.fcorr R a.ovf ev (between_mem hev) (r3 _ (hmem _ hev)) hf c r1
    have hsplit : times legacy a'.out = times legacy a.out ++ times legacy (eBlock legacy a.fcorr (between src n n') a.e) := by
      unfold times
      rw [ho, events_append _ _ _ hi.len, List.map_append]
    rw [hsplit, List.map_append, List.map_append, hi.out, hb]
  · rw [ho, List.length_append, block_length, hbl, hi.len]
    omega
  · rw [List.pairwise_append]
    refine ⟨hi.sorted, ?_, ?_⟩
    · rw [List.pairwise_map]
      rw [List.pairwise_map] at hbord
      apply hbord.imp
      intro x y hxy
      have := corrOf_mono a.fcorr.toInt ((evTime legacy x : ℤ) - R.toNat) ((evTime legacy y : ℤ) - R.toNat) (by omega) hf
      linarith
    · intro u hu v hv
      rw [List.mem_map] at hv
      obtain ⟨ev, hev, rfl⟩ := hv
      have h1 := r4 u hu
      have h2 := r3 _ (hmem _ hev)
      have := corrOf_mono a.fcorr.toInt 0 ((evTime legacy ev : ℤ) - R.toNat) (by omega) hf
      rw [corrOf_zero] at this
      linarith
  · have hsplit : (times legacy src).take (n' / 8) = (times legacy src).take (n / 8) ++ (between src n n').map (evTime legacy) := by
      rw [times_between]
      conv_lhs => rw [← List.take_append_drop (n / 8) ((times legacy src).take (n' / 8))]
      rw [List.take_take, min_eq_left hd]
    rw [hsplit]
    apply List.rel_append
    · exact hi.good.imp (fun u t h => ⟨by omega, hGm _ _ h.2⟩)
    · rw [List.forall₂_map_left_iff, List.forall₂_map_right_iff, List.forall₂_same]
      intro ev hev
      have := hGs c R.toNat (evTime legacy ev) (r3 _ (hmem _ hev)) r2
      rw [show (evTime legacy ev : ℤ) + (c + corrOf a.fcorr.toInt ((evTime legacy ev : ℤ) - R.toNat)) - (evTime legacy ev : ℤ) =
        c + corrOf a.fcorr.toInt ((evTime legacy ev : ℤ) - R.toNat) by ring]
      exact ⟨by omega, this⟩
  · right
    have f1 : a'.isset = (eRead legacy a.fcorr (between src n n') a.e).isset := congrArg EState.isset he
    have f2 : a'.ovf = (eRead legacy a.fcorr (between src n n') a.e).ovf := congrArg EState.ovf he
    have f3 : a'.tsref = (eRead legacy a.fcorr (between src n n') a.e).tsref := congrArg EState.tsref he
    have f4 : a'.tsref.toNat = evTime legacy z := by
      rw [f3]
      unfold eRead
      simp only [hz, Option.map_some, Option.getD_some]
      exact evMeas_toNat _ _ hz8
    refine ⟨?_, c + corrOf a.fcorr.toInt ((evTime legacy z : ℤ) - R.toNat), ?_, ?_, ?_, ?_⟩
    · rw [f1]
      unfold eRead
      cases hc : between src n n' with
      | nil => exact absurd hc hne
      | cons x xs => simp
    · rw [f2]
      unfold eRead
      simp only [hz, Option.map_some, Option.getD_some, hR]
      rw [hcorrz, show a.e.ovf = BitVec.ofInt 64 c from r1, ← BitVec.ofInt_add]
    · rw [f4]
      exact hGs c R.toNat (evTime legacy z) hRz r2
    · rw [f4]
      intro t ht
      have hsplit : times legacy src = (times legacy src).take (n' / 8) ++ (times legacy src).drop (n' / 8) := (List.take_append_drop _ _).symm
      rw [hsplit, List.pairwise_append] at hord
      apply hord.2.2 _ _ _ ht
      have h1 : evTime legacy z ∈ (between src n n').map (evTime legacy) := List.mem_map_of_mem hzm
      rw [times_between] at h1
      exact List.mem_of_mem_drop h1
    · rw [f4]
      intro u hu
      rcases List.mem_append.mp hu with h | h
      · have h1 := r4 u h
        have := corrOf_mono a.fcorr.toInt 0 ((evTime legacy z : ℤ) - R.toNat) (by omega) hf
        rw [corrOf_zero] at this
        linarith
      · rw [List.mem_map] at h
        obtain ⟨ev, hev, rfl⟩ := h
        have h1 := hlast ev hev
        have := corrOf_mono a.fcorr.toInt ((evTime legacy ev : ℤ) - R.toNat) ((evTime legacy z : ℤ) - R.toNat) (by omega) hf
        linarith

theorem Ideal.mono {legacy : Bool} {src : Bytes} {G : Nat → ℤ → ℕ → Prop} {k k' : Nat} {a : AState} {n : Nat} {us : List ℤ}
    (h : Ideal legacy src G k a n us) (hk : k ≤ k') (hm : ∀ c t, G k c t → G k' c t) : Ideal legacy src G k' a n us := by
  refine ⟨h.out, h.len, h.sorted, h.good.imp (fun _ _ hh => ⟨by omega, hm _ _ hh.2⟩), ?_⟩
  rcases h.off with h | ⟨h1, c, h2, h3, h4⟩
  · exact Or.inl h
  · exact Or.inr ⟨h1, c, h2, hm _ _ h3, h4⟩

theorem times_take (legacy : Bool) (b : Bytes) (n : Nat) (h : n ≤ b.length) : times legacy (b.take n) = (times legacy b).take (n / 8) := by
  unfold times
  rw [events_take _ _ h, List.map_take]

theorem ideal_run {legacy : Bool} {rs : List Round} {s s' : FState} {fcorr : BitVec 32} {fo : Bool} {src fsrc : Bytes}
    (h : Initial s fcorr fo src fsrc) {stop : Option Stop} (hrun : fRun legacy rs s = .ok (s', stop))
    (F : BitVec 32 → Prop) (hF : ∀ f, F f → |f.toInt| < 2 ^ 21)
    (G : Nat → ℤ → ℕ → Prop) (t0 : ℕ) (ht0 : ∀ t, (times legacy src).head? = some t → t = t0) (hG0 : ∀ k, G k 0 t0)
    (hGs : ∀ f, F f → ∀ k c (r t : ℕ), r ≤ t → G k c r → G (k + 1) (c + corrOf f.toInt ((t : ℤ) - r)) t)
    (hGm : ∀ k c t, G k c t → G (k + 1) c t)
    (hord : (times legacy src).Pairwise (· ≤ ·)) (hfc : Throughout legacy rs s fun s1 => F s1.fcorr) (hns : NoStall legacy rs s) :
    ∃ us : List ℤ, (times legacy s'.out : List ℕ).map (fun x : ℕ => (x : ℤ)) = us.map (fun u : ℤ => u % 2 ^ 54) ∧ us.Pairwise (· ≤ ·) ∧
      ∃ m, List.Forall₂ (fun (u : ℤ) (t : ℕ) => 0 < reads rs ∧ G (reads rs) (u - t) t) us ((times legacy src).take m) := by
  obtain ⟨hw, ho, hp, hout, -, -, hset, hovf⟩ := initial_wf h
  have hGk : ∀ k k' c t, k ≤ k' → G k c t → G k' c t := by
    intro k k' c t hk
    induction hk with
    | refl => exact id
    | step _ ih => exact fun hh => hGm _ _ _ (ih hh)
  have hreads : ∀ rs1 r, reads (rs1 ++ [r]) = reads rs1 + if r.inRead.isSome then 1 else 0 := by
    intro rs1 r
    simp [reads, List.countP_append, List.countP_cons]
  have hreadsle : ∀ rs1, rs1 <+: rs → reads rs1 ≤ reads rs := by
    rintro rs1 ⟨rs2, rfl⟩
    simp [reads, List.countP_append]
  have key : ∀ rs1, rs1 <+: rs → ∀ a', aRun legacy rs1 (abst s) = (a', none) →
      ∃ n, Pos src a' n ∧ ∃ us, Ideal legacy src G (reads rs1) a' n us := by
    intro rs1 hpre a' ha
    refine clean_ind (legacy := legacy) (rs := rs1) (a0 := abst s) (src := src)
      (fun rs2 a n => ∃ us, Ideal legacy src G (reads rs2) a n us) hp ?_ ?_ a' ha
    · refine ⟨[], ?_, ?_, List.Pairwise.nil, ?_, Or.inl ⟨hset, hovf, rfl⟩⟩
      · rw [show (abst s).out = [] from hout]; rfl
      · rw [show (abst s).out = [] from hout]; rfl
      · simp
    · rintro rs2 r a a1 n hpre2 hr1 hr2 hpos ⟨us, hi⟩ hst
      obtain ⟨s1, hs1, hs1'⟩ := run_of_abst hw ho hr1
      obtain ⟨s2, hs2, hs2'⟩ := run_of_abst hw ho hr2
      have hf : F a.fcorr := by
        rw [← hs1']
        exact hfc rs2 r s1 (hpre2.trans hpre) hs1
      obtain ⟨-, -, -, -, -, ⟨g1, ge, g2⟩ | ⟨n', g1, gr, g2, ge, g3⟩⟩ := aStep_clean legacy r src a a1 n hpos hst
      · refine ⟨n, g1, us, ?_⟩
        have e1 : a1.isset = a.isset := congrArg EState.isset ge
        have e2 : a1.ovf = a.ovf := congrArg EState.ovf ge
        have e3 : a1.tsref = a.tsref := congrArg EState.tsref ge
        have hi' : Ideal legacy src G (reads rs2) a1 n us := by
          refine ⟨by rw [g2]; exact hi.out, by rw [g2]; exact hi.len, hi.sorted, hi.good, ?_⟩
          rw [e1, e2, e3]
          exact hi.off
        exact hi'.mono (by rw [hreads]; omega) (fun c t hh => hGk _ _ _ _ (by rw [hreads]; omega) hh)
      · have hne : between src n n' ≠ [] := by
          intro hb
          have e1 : s2.src ≠ s1.src := by
            have h1 : s1.src = a.src := by rw [← hs1']; rfl
            have h2 : s2.src = a1.src := by rw [← hs2']; rfl
            rw [h1, h2, hpos.src, g2.src]
            intro hc
            have hlen := congrArg List.length hc
            rw [List.length_drop, List.length_drop] at hlen
            have := g2.le
            omega
          apply hns rs2 r s1 s2 (hpre2.trans hpre) hs1 hs2 e1
          have h1 : s1.out = a.out := by rw [← hs1']; rfl
          have h2 : s2.out = a1.out := by rw [← hs2']; rfl
          rw [h1, h2, g3, hb]
          simp [eBlock]
        obtain ⟨us', hi'⟩ := ideal_read t0 ht0 hG0 (hGs _ hf (reads rs2)) (hGm _) hord (hF _ hf) hpos hi g1 g2 hne ge g3
        refine ⟨n', g2, us', ?_⟩
        rw [hreads, if_pos (by rw [Option.isSome_iff_ne_none]; exact gr)]
        exact hi'
  have fin : ∀ rs1, rs1 <+: rs → ∀ a n us, Ideal legacy src G (reads rs1) a n us → ∀ m,
      ∃ us : List ℤ, (times legacy (a.out.take m) : List ℕ).map (fun x : ℕ => (x : ℤ)) = us.map (fun u : ℤ => u % 2 ^ 54) ∧ us.Pairwise (· ≤ ·) ∧
      ∃ m, List.Forall₂ (fun (u : ℤ) (t : ℕ) => 0 < reads rs ∧ G (reads rs) (u - t) t) us ((times legacy src).take m) := by
    intro rs1 hpre a n us hi m
    by_cases hm : m ≤ a.out.length
    · refine ⟨us.take (m / 8), ?_, hi.sorted.sublist (List.take_sublist _ _), min (m / 8) (n / 8), ?_⟩
      · rw [times_take _ _ _ hm, List.map_take, hi.out, List.map_take]
      · rw [← List.take_take]
        exact (List.forall₂_take _ hi.good).imp (fun _ _ hh => ⟨lt_of_lt_of_le hh.1 (hreadsle _ hpre), hGk _ _ _ _ (hreadsle _ hpre) hh.2⟩)
    · refine ⟨us, by rw [List.take_of_length_le (by omega)]; exact hi.out, hi.sorted, n / 8, ?_⟩
      exact hi.good.imp (fun _ _ hh => ⟨lt_of_lt_of_le hh.1 (hreadsle _ hpre), hGk _ _ _ _ (hreadsle _ hpre) hh.2⟩)
  have ha := run_abst hw ho hrun
  have hfin : ∀ rs1, rs1 <+: rs → ∀ a n us, Ideal legacy src G (reads rs1) a n us → (abst s').out = a.out →
      ∃ us : List ℤ, (times legacy s'.out : List ℕ).map (fun x : ℕ => (x : ℤ)) = us.map (fun u : ℤ => u % 2 ^ 54) ∧ us.Pairwise (· ≤ ·) ∧
      ∃ m, List.Forall₂ (fun (u : ℤ) (t : ℕ) => 0 < reads rs ∧ G (reads rs) (u - t) t) us ((times legacy src).take m) := by
    intro rs1 hpre a n us hi hq
    have := fin rs1 hpre a n us hi a.out.length
    rw [List.take_length, ← hq] at this
    exact this
  cases stop with
  | none =>
    obtain ⟨n, g1, us, hi⟩ := key rs (List.prefix_refl _) _ ha
    exact hfin rs (List.prefix_refl _) _ n us hi rfl
  | some st =>
    obtain ⟨rs1, r, rs2, a1, e1, e2, e3⟩ := aRun_split legacy rs _ _ st ha
    have hpre : rs1 <+: rs := by rw [e1]; exact List.prefix_append _ _
    have hpre' : rs1 ++ [r] <+: rs := by rw [e1]; exact ⟨rs2, by simp⟩
    obtain ⟨n, g1, us, hi⟩ := key rs1 hpre _ e2
    rcases aStep_stop legacy r src a1 _ n g1 st e3 with ⟨-, hq⟩ | ⟨-, hq, -⟩ | ⟨-, n', hn, hn', hr, k, hq⟩
    · exact hfin rs1 hpre _ n us hi (by rw [hq])
    · exact hfin rs1 hpre _ n us hi hq
    · by_cases hb : between src n n' = []
      · exact hfin rs1 hpre _ n us hi (by rw [hq, hb]; simp [eBlock])
      · obtain ⟨s1, hs1, hs1'⟩ := run_of_abst hw ho e2
        have hf : F a1.fcorr := by
          rw [← hs1']
          exact hfc rs1 r s1 hpre' hs1
        have hlt : n < n' := by
          rcases Nat.lt_or_ge n n' with hc | hc
          · exact hc
          · exfalso
            apply hb
            have := between_length src n n' hn'
            apply List.eq_nil_of_length_eq_zero
            have := Nat.div_le_div_right (c := 8) hc
            omega
        obtain ⟨us', hi'⟩ := ideal_read
          (a' := { a1 with tsref := (eRead legacy a1.fcorr (between src n n') a1.e).tsref,
                           isset := (eRead legacy a1.fcorr (between src n n') a1.e).isset,
                           tsmeas := (eRead legacy a1.fcorr (between src n n') a1.e).tsmeas,
                           tscorr := (eRead legacy a1.fcorr (between src n n') a1.e).tscorr,
                           ovf := (eRead legacy a1.fcorr (between src n n') a1.e).ovf,
                           src := src.drop n', pend := (src.take n').drop (8 * (n' / 8)),
                           out := a1.out ++ eBlock legacy a1.fcorr (between src n n') a1.e })
          t0 ht0 hG0 (hGs _ hf (reads rs1)) (hGm _) hord (hF _ hf) g1 hi hlt ⟨hn', rfl, rfl⟩ hb rfl rfl
        have hfin2 := fin (rs1 ++ [r]) hpre' _ n' us' (by
          rw [hreads, if_pos (by rw [Option.isSome_iff_ne_none]; exact hr hlt)]
          exact hi') (a1.out.length + k)
        have hto : (a1.out ++ eBlock legacy a1.fcorr (between src n n') a1.e).take (a1.out.length + k) = s'.out := by
          rw [List.take_length_add_append]
          exact hq.symm
        simp only [hto] at hfin2
        exact hfin2

/-- A starting state with zeroed buffers. -/
def demo (tc : BitVec 64) (fc : BitVec 32) (fo : Bool) (src fsrc : Bytes) : FState :=
  fInit (List.replicate 8192 0) (List.replicate 8192 0) (List.replicate 100 0) 0 tc fc fo src fsrc

theorem demo_initial (tc : BitVec 64) (fc : BitVec 32) (fo : Bool) (src fsrc : Bytes) :
    Initial (demo tc fc fo src fsrc) fc fo src fsrc :=
  ⟨_, _, _, _, _, List.length_replicate, List.length_replicate, List.length_replicate, rfl⟩

/-- The same without buffers. -/
def demoA (tc : BitVec 64) (fc : BitVec 32) (fo : Bool) (src fsrc : Bytes) : AState :=
  { pend := [], fpend := [], freqOpen := fo, fcorr := fc, tsref := 0, isset := false, tsmeas := 0, tscorr := tc, ovf := 0,
    src := src, freqSrc := fsrc, out := [] }

theorem demo_abst (tc : BitVec 64) (fc : BitVec 32) (fo : Bool) (src fsrc : Bytes) :
    abst (demo tc fc fo src fsrc) = demoA tc fc fo src fsrc := by
  have : ∀ ib ob fb tm, abst (fInit ib ob fb tm tc fc fo src fsrc) =
      { pend := [], fpend := [], freqOpen := fo, fcorr := fc, tsref := 0, isset := false, tsmeas := tm, tscorr := tc, ovf := 0,
        src := src, freqSrc := fsrc, out := [] } := by
    intro ib ob fb tm
    simp [abst, fInit]
  exact this _ _ _ _

theorem demo_run (legacy : Bool) (rs : List Round) (tc : BitVec 64) (fc : BitVec 32) (fo : Bool) (src fsrc : Bytes)
    (out rest : Bytes) (fc' : BitVec 32) (st : Option Stop)
    (h : (aRun legacy rs (demoA tc fc fo src fsrc)).1.out = out ∧ (aRun legacy rs (demoA tc fc fo src fsrc)).1.src = rest ∧
      (aRun legacy rs (demoA tc fc fo src fsrc)).1.fcorr = fc' ∧ (aRun legacy rs (demoA tc fc fo src fsrc)).2 = st) :
    ∃ s', fRun legacy rs (demo tc fc fo src fsrc) = .ok (s', st) ∧ s'.out = out ∧ s'.src = rest ∧ s'.fcorr = fc' := by
  obtain ⟨hw, ho, -⟩ := initial_wf (demo_initial tc fc fo src fsrc)
  have := run_ok legacy rs hw ho
  rw [demo_abst] at this
  obtain ⟨s', h1, h2⟩ := this
  rw [h.2.2.2] at h1
  exact ⟨s', h1, by rw [← h.1, ← h2]; rfl, by rw [← h.2.1, ← h2]; rfl, by rw [← h.2.2.1, ← h2]; rfl⟩

/-- A pass with a read of at most `k` bytes of input and nothing else. -/
def rd (k : Nat) : Round := { selectOk := true, inRead := some (some k), freqRead := none, write := some 8192 }

/-- Without frequency channel the correction is constant. -/
theorem closed_const {legacy : Bool} {rs : List Round} {s : FState} {fcorr : BitVec 32} {src fsrc : Bytes}
    (h : Initial s fcorr false src fsrc) : Throughout legacy rs s fun s1 => s1.fcorr = fcorr := by
  obtain ⟨hw, ho, hp, -, hfc, -⟩ := initial_wf h
  intro rs1 r s1 hpre hrun
  have ha := run_abst hw ho hrun
  have hopen : (abst s).freqOpen = false := by
    obtain ⟨_, _, _, _, _, -, -, -, rfl⟩ := h
    rfl
  obtain ⟨n, -, h1, -⟩ := clean_ind (legacy := legacy) (rs := rs1) (src := src) (fun _ a _ => a.fcorr = fcorr ∧ a.freqOpen = false) hp
    ⟨hfc, hopen⟩ (by
      rintro rs2 r a a1 n - - - hpos ⟨i1, i2⟩ hst
      obtain ⟨g1, g2, -, -, -, g⟩ := aStep_clean legacy r src a a1 n hpos hst
      have hf : aFreq r.freqRead a = (a, none) := by
        unfold aFreq
        rw [i2]
        rfl
      rw [hf] at g1 g2
      rcases g with ⟨g, -⟩ | ⟨n', -, -, g, -⟩
      · exact ⟨n, g, g1.trans i1, g2.trans i2⟩
      · exact ⟨n', g, g1.trans i1, g2.trans i2⟩) _ ha
  exact h1

end Fp
