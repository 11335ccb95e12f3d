import Verif.Spec.FpFind
import Verif.Lemmas.Float
import Mathlib.Algebra.Order.Archimedean.Basic

/-! Helper lemmas for `Verif/Props/FpFind.lean`. -/
namespace Fp
open Spec

theorem runLoop_inv {σ ρ : Type} (step : σ → σ ⊕ ρ) (Inv : σ → Prop) (Q : ρ → Prop)
    (h1 : ∀ s s', Inv s → step s = .inl s' → Inv s') (h2 : ∀ s r, Inv s → step s = .inr r → Q r)
    (fuel : Nat) (s : σ) (r : ρ) (hs : Inv s) (h : runLoop step fuel s = some r) : Q r := by
  induction fuel generalizing s with
  | zero => simp [runLoop] at h
  | succ n ih =>
    unfold runLoop at h
    cases hst : step s with
    | inl s' =>
      rw [hst] at h
      exact ih s' (h1 s s' hs hst) h
    | inr r' =>
      rw [hst] at h
      simp only [Option.some.injEq] at h
      rw [← h]
      exact h2 s r' hs hst

theorem tfBegin_ok (P : TFParams) (s s' : TFState) (h : tfBegin P s = .ok s') :
    ∃ ys dt1 sig dur, s' = { s with phase := if s.iter = 1 then .search ys dt1 sig dur else .late dt1 dur } := by
  unfold tfBegin at h
  simp only [bind, Except.bind, pure, Except.pure] at h
  split at h
  · cases h
  · rename_i v hv
    split at h
    · cases h
    · rename_i sig hsig
      simp only [Except.ok.injEq] at h
      exact ⟨_, _, _, _, h.symm⟩

theorem mergePairs_length {α : Type} [Add α] (ys zs : List α) (h : mergePairs ys = .ok zs) : 2 * zs.length = ys.length := by
  unfold mergePairs at h
  have key : ∀ (ys : List α) ps, reshape2 ys = .ok ps → 2 * ps.length = ys.length := by
    intro ys
    induction ys using reshape2.induct with
    | case1 => intro ps hp; simp [reshape2] at hp; subst hp; rfl
    | case2 => intro ps hp; simp [reshape2] at hp
    | case3 a b rest ih =>
      intro ps hp
      rw [reshape2] at hp
      cases hr : reshape2 rest with
      | error e => rw [hr] at hp; cases hp
      | ok r =>
        rw [hr] at hp
        simp only [bind, Except.bind, pure, Except.pure, Except.ok.injEq] at hp
        subst hp
        have := ih r hr
        simp; omega
  cases hr : reshape2 ys with
  | error e => rw [hr] at h; cases h
  | ok ps =>
    rw [hr] at h
    simp only [Except.map, Except.ok.injEq] at h
    subst h
    have := key ys ps hr
    simpa using this

theorem tfSearch_ok (P : TFParams) (s s' : TFState) (ys : List ℚ) (dt1 sig dur : ℚ)
    (h : tfSearch P s ys dt1 sig dur = .ok s') :
    s' = { s with phase := .late dt1 dur } ∨
    ∃ ys' dt1' sig', s' = { s with res := P.rnd (s.res * 2), phase := .search ys' dt1' sig' dur } ∧
      ys'.length < ys.length ∧ P.rnd (s.res * 2) ≤ 10 ^ 4 := by
  unfold tfSearch at h
  split_ifs at h with h1 h2
  · left
    simp only [Except.ok.injEq] at h
    exact h.symm
  · right
    cases hm : mergePairs ys with
    | error e => rw [hm] at h; cases h
    | ok zs =>
      have hlen := mergePairs_length ys zs hm
      rw [hm] at h
      simp only [bind, Except.bind, pure, Except.pure] at h
      split_ifs at h with h3
      split at h
      · cases h
      · rename_i v hv
        have hne : zs ≠ [] := by
          rintro rfl
          simp [getTimingDelayFft, argmax] at hv
        have := List.length_pos_of_ne_nil hne
        split at h
        · cases h
        · simp only [Except.ok.injEq] at h
          exact ⟨_, _, _, h.symm, by omega, not_lt.mp h3⟩

theorem tfLate_inl (P : TFParams) (s s' : TFState) (dt1 dur : ℚ) (h : tfLate P s dt1 dur = .inl s') :
    ∃ df1, |dt1| ≤ ntpMaxDelay ∧ |P.rnd (P.rnd (s.f * P.rnd (1 + df1)) - 1)| < maxFcorr ∧ s.res ≠ P.target ∧
      s' = { bts := s.bts.map fun t => P.rndA (P.rndA (t - dt1) / P.rnd (1 + df1)),
             res := max (P.rnd (s.res / P.rnd (P.rnd (P.sep / P.duration) / resRefineFactor))) P.target,
             dt := P.rnd (s.dt + P.rnd (s.f * dt1)), f := P.rnd (s.f * P.rnd (1 + df1)), iter := s.iter + 1, phase := .begin,
             trace := s.trace ++ [{ bts := s.bts, dt1 := dt1, df1 := df1 }] } := by
  unfold tfLate at h
  split at h
  · cases h
  rename_i h1
  split at h
  · cases h
  rename_i x dt2 hc
  simp only at h
  split at h
  · cases h
  rename_i h2
  split at h
  · cases h
  rename_i h3
  split at h
  · cases h
  rename_i h4
  simp only [Sum.inl.injEq] at h
  exact ⟨_, not_lt.mp h1, not_le.mp h3, h4, h.symm⟩

theorem tfLate_ok (P : TFParams) (s : TFState) (dt1 dur dt df : ℚ) (trace : List TFEntry)
    (h : tfLate P s dt1 dur = .inr (.ok (dt, df, trace))) :
    (s.iter ≠ 1 ∧ dt = s.dt ∧ df = P.rnd (s.f - 1) ∧ trace = s.trace) ∨
    ∃ df1, |dt1| ≤ ntpMaxDelay ∧ |df| < maxFcorr ∧ s.res = P.target ∧ dt = P.rnd (s.dt + P.rnd (s.f * dt1)) ∧
      df = P.rnd (P.rnd (s.f * P.rnd (1 + df1)) - 1) ∧ trace = s.trace ++ [{ bts := s.bts, dt1 := dt1, df1 := df1 }] := by
  unfold tfLate at h
  split at h
  · simp at h
  rename_i h1
  split at h
  · simp at h
  rename_i x dt2 hc
  simp only at h
  split at h
  · rename_i h2
    left
    simp only [Sum.inr.injEq, Except.ok.injEq, Prod.mk.injEq] at h
    exact ⟨h2.1, h.1.symm, h.2.1.symm, h.2.2.symm⟩
  rename_i h2
  split at h
  · simp at h
  rename_i h3
  split at h
  · rename_i h4
    right
    simp only [Sum.inr.injEq, Except.ok.injEq, Prod.mk.injEq] at h
    obtain ⟨e1, e2, e3⟩ := h
    exact ⟨_, not_lt.mp h1, by rw [← e2]; exact not_le.mp h3, h4, e1.symm, e2.symm, e3.symm⟩
  · simp at h

theorem tfStep_inl (P : TFParams) (s s' : TFState) (h : tfStep P s = .inl s') :
    (∃ ph res, s' = { s with res := res, phase := ph }) ∨ ∃ dt1 dur, s.phase = .late dt1 dur ∧ tfLate P s dt1 dur = .inl s' := by
  unfold tfStep at h
  cases hp : s.phase with
  | begin =>
    rw [hp] at h
    simp only at h
    cases hb : tfBegin P s with
    | error e => rw [hb] at h; simp at h
    | ok t =>
      rw [hb] at h
      simp only [Sum.inl.injEq] at h
      subst h
      obtain ⟨ys, dt1, sig, dur, he⟩ := tfBegin_ok P s t hb
      left
      exact ⟨_, _, he⟩
  | search ys dt1 sig dur =>
    rw [hp] at h
    simp only at h
    cases hb : tfSearch P s ys dt1 sig dur with
    | error e => rw [hb] at h; simp at h
    | ok t =>
      rw [hb] at h
      simp only [Sum.inl.injEq] at h
      subst h
      left
      rcases tfSearch_ok P s t ys dt1 sig dur hb with he | ⟨ys', dt1', sig', he, -, -⟩
      · exact ⟨_, _, he⟩
      · exact ⟨_, _, he⟩
  | late dt1 dur =>
    rw [hp] at h
    right
    exact ⟨dt1, dur, rfl, h⟩

theorem tfStep_ok (P : TFParams) (s : TFState) (r : ℚ × ℚ × List TFEntry) (h : tfStep P s = .inr (.ok r)) :
    ∃ dt1 dur, s.phase = .late dt1 dur ∧ tfLate P s dt1 dur = .inr (.ok r) := by
  unfold tfStep at h
  cases hp : s.phase with
  | begin =>
    rw [hp] at h
    simp only at h
    cases hb : tfBegin P s with
    | error e => rw [hb] at h; simp at h
    | ok t => rw [hb] at h; simp at h
  | search ys dt1 sig dur =>
    rw [hp] at h
    simp only at h
    cases hb : tfSearch P s ys dt1 sig dur with
    | error e => rw [hb] at h; simp at h
    | ok t => rw [hb] at h; simp at h
  | late dt1 dur =>
    rw [hp] at h
    exact ⟨dt1, dur, rfl, h⟩

theorem composed_append (trace : List TFEntry) (e : TFEntry) (t : ℚ) :
    composed (trace ++ [e]) t = corrected e.dt1 e.df1 (composed trace t) := by
  unfold composed
  rw [List.foldl_append]
  rfl

/-- Invariant of C32. -/
def CompInv (bts : List ℚ) (s : TFState) : Prop :=
  s.f ≠ 0 ∧ (∀ t, (t - s.dt) / s.f = composed s.trace t) ∧ s.bts = bts.map (composed s.trace) ∧
    ∀ (i : Nat) e, s.trace[i]? = some e → e.bts = bts.map (composed (s.trace.take i))

theorem f_ne_zero (f : ℚ) (h : |f - 1| < maxFcorr) : f ≠ 0 := by
  rintro rfl
  unfold maxFcorr at h
  norm_num at h

theorem comp_step (s : TFState) (bts : List ℚ) (h : CompInv bts s) (dt1 df1 : ℚ) (hf : s.f * (1 + df1) ≠ 0) :
    (∀ t, (t - (s.dt + s.f * dt1)) / (s.f * (1 + df1)) = composed (s.trace ++ [{ bts := s.bts, dt1 := dt1, df1 := df1 }]) t) ∧
    (∀ (i : Nat) e, (s.trace ++ [({ bts := s.bts, dt1 := dt1, df1 := df1 } : TFEntry)])[i]? = some e →
      e.bts = bts.map (composed ((s.trace ++ [({ bts := s.bts, dt1 := dt1, df1 := df1 } : TFEntry)]).take i))) := by
  obtain ⟨h1, h2, h3, h4⟩ := h
  constructor
  · intro t
    rw [composed_append, ← h2 t]
    unfold corrected
    have h5 : (1 + df1) ≠ 0 := right_ne_zero_of_mul hf
    simp only
    field_simp
    ring
  · intro i e he
    rcases Nat.lt_trichotomy i s.trace.length with hi | hi | hi
    · rw [List.getElem?_append_left hi] at he
      rw [List.take_append_of_le_length hi.le]
      exact h4 i e he
    · subst hi
      rw [List.getElem?_append_right le_rfl] at he
      simp at he
      rw [List.take_append_of_le_length le_rfl, List.take_length, ← he]
      exact h3
    · rw [List.getElem?_eq_none (by simp; omega)] at he
      cases he

theorem runLoop_step {σ ρ : Type} (step : σ → σ ⊕ ρ) (s s' : σ) (h : step s = .inl s') (N : Nat) :
    runLoop step (N + 1) s = runLoop step N s' := by
  rw [runLoop, h]

theorem runLoop_stop {σ ρ : Type} (step : σ → σ ⊕ ρ) (s : σ) (r : ρ) (h : step s = .inr r) (N : Nat) :
    runLoop step (N + 1) s = some r := by
  rw [runLoop, h]

theorem runLoop_more {σ ρ : Type} (step : σ → σ ⊕ ρ) (N M : Nat) (hNM : N ≤ M) (s : σ) (r : ρ)
    (h : runLoop step N s = some r) : runLoop step M s = some r := by
  induction N generalizing s M with
  | zero => simp [runLoop] at h
  | succ N ih =>
    obtain ⟨M, rfl⟩ : ∃ K, M = K + 1 := ⟨M - 1, by omega⟩
    cases hs : step s with
    | inl s' =>
      rw [runLoop_step step s s' hs] at h ⊢
      exact ih M (by omega) s' h
    | inr r' =>
      rw [runLoop_stop step s r' hs] at h ⊢
      exact h

/-- The loop ends from state `s`, with at most `n` more iterations in the history. -/
def Ends (P : TFParams) (s : TFState) (n : Nat) : Prop :=
  ∃ N r, runLoop (tfStep P) N s = some r ∧ ∀ dt df trace, r = .ok (dt, df, trace) → trace.length ≤ s.trace.length + n

theorem ends_step (P : TFParams) (s s' : TFState) (n : Nat) (h : tfStep P s = .inl s') (ht : s'.trace = s.trace)
    (he : Ends P s' n) : Ends P s n := by
  obtain ⟨N, r, h1, h2⟩ := he
  refine ⟨N + 1, r, by rw [runLoop_step _ _ _ h]; exact h1, ?_⟩
  rw [← ht]
  exact h2

theorem ends_error (P : TFParams) (s : TFState) (n : Nat) (e : PyErr) (h : tfStep P s = .inr (.error e)) : Ends P s n :=
  ⟨1, .error e, runLoop_stop _ _ _ h 0, by intro _ _ _ h; cases h⟩

/-- A state in the late phase ends, or goes on to a new iteration with a smaller resolution. -/
theorem ends_late (P : TFParams) (s : TFState) (dt1 dur : ℚ) (hp : s.phase = .late dt1 dur) (n : Nat)
    (hnext : s.res ≠ P.target → ∀ s', s'.phase = .begin → s'.iter = s.iter + 1 →
      s'.res = max (P.rnd (s.res / P.rnd (P.rnd (P.sep / P.duration) / resRefineFactor))) P.target → Ends P s' n) :
    Ends P s (n + 1) := by
  have hst : tfStep P s = tfLate P s dt1 dur := by unfold tfStep; rw [hp]
  cases hl : tfLate P s dt1 dur with
  | inl s' =>
    obtain ⟨df1, -, -, hres, he⟩ := tfLate_inl P s s' dt1 dur hl
    obtain ⟨N, r, h1, h2⟩ := hnext hres s' (by rw [he]) (by rw [he]) (by rw [he])
    refine ⟨N + 1, r, by rw [runLoop_step _ _ _ (hst.trans hl)]; exact h1, ?_⟩
    intro dt df trace hr
    have := h2 dt df trace hr
    rw [he] at this
    simp only [List.length_append, List.length_singleton] at this
    omega
  | inr r =>
    refine ⟨1, r, runLoop_stop _ _ _ (hst.trans hl) 0, ?_⟩
    rintro dt df trace rfl
    rcases tfLate_ok P s dt1 dur dt df trace hl with ⟨-, -, -, h⟩ | ⟨df1, -, -, -, -, -, h⟩
    · rw [h]; omega
    · rw [h]; simp

/-- From the second iteration on. -/
theorem ends_refine (P : TFParams) (ρ : ℚ) (hρ : 1 < ρ) (ht : 0 < P.target)
    (hq : ∀ x, 0 < x → P.rnd (x / P.rnd (P.rnd (P.sep / P.duration) / resRefineFactor)) ≤ x / ρ) (n : Nat) (s : TFState)
    (hp : s.phase = .begin) (hi : 1 < s.iter) (hlow : P.target ≤ s.res) (hhigh : s.res ≤ P.target * ρ ^ n) : Ends P s (n + 1) := by
  induction n generalizing s with
  | zero =>
    have hres : s.res = P.target := le_antisymm (by simpa using hhigh) hlow
    cases hb : tfBegin P s with
    | error e => exact ends_error P s _ e (by unfold tfStep; rw [hp, hb])
    | ok s' =>
      obtain ⟨ys, dt1, sig, dur, he⟩ := tfBegin_ok P s s' hb
      rw [if_neg (by omega)] at he
      apply ends_step P s s' _ (by unfold tfStep; rw [hp, hb]) (by rw [he])
      apply ends_late P s' dt1 dur (by rw [he]) 0
      intro hc
      rw [he] at hc
      exact absurd hres hc
  | succ n ih =>
    cases hb : tfBegin P s with
    | error e => exact ends_error P s _ e (by unfold tfStep; rw [hp, hb])
    | ok s' =>
      obtain ⟨ys, dt1, sig, dur, he⟩ := tfBegin_ok P s s' hb
      rw [if_neg (by omega)] at he
      apply ends_step P s s' _ (by unfold tfStep; rw [hp, hb]) (by rw [he])
      apply ends_late P s' dt1 dur (by rw [he]) (n + 1)
      intro _ s'' hp'' hi'' hr''
      have hsr : s'.res = s.res := by rw [he]
      have hsi : s'.iter = s.iter := by rw [he]
      apply ih s'' hp''
      · rw [hi'', hsi]
        omega
      · rw [hr'']; exact le_max_right _ _
      · rw [hr'', hsr]
        apply max_le
        · refine (hq s.res (lt_of_lt_of_le ht hlow)).trans ?_
          rw [div_le_iff₀ (by linarith), mul_assoc, ← pow_succ]
          exact hhigh
        · exact le_mul_of_one_le_right ht.le (one_le_pow₀ hρ.le)

/-- The resolution search of the first iteration. -/
theorem ends_search (P : TFParams) (n : Nat) (B : ℚ) (hB : 10 ^ 4 ≤ B) (hpos : ∀ x, 0 < x → 0 < P.rnd (x * 2))
    (hlate : ∀ s dt1 dur, s.phase = .late dt1 dur → s.iter = 1 → 0 < s.res → s.res ≤ B → Ends P s n)
    (m : Nat) (s : TFState) (ys : List ℚ) (dt1 sig dur : ℚ) (hp : s.phase = .search ys dt1 sig dur) (hm : ys.length ≤ m)
    (hi : s.iter = 1) (h0 : 0 < s.res) (h1 : s.res ≤ B) : Ends P s n := by
  induction m generalizing s ys dt1 sig with
  | zero =>
    cases hb : tfSearch P s ys dt1 sig dur with
    | error e => exact ends_error P s _ e (by unfold tfStep; rw [hp]; simp only [hb])
    | ok s' =>
      rcases tfSearch_ok P s s' ys dt1 sig dur hb with he | ⟨ys', dt1', sig', he, hlt, -⟩
      · apply ends_step P s s' _ (by unfold tfStep; rw [hp]; simp only [hb]) (by rw [he])
        exact hlate s' dt1 dur (by rw [he]) (by rw [he]; exact hi) (by rw [he]; exact h0) (by rw [he]; exact h1)
      · omega
  | succ m ih =>
    cases hb : tfSearch P s ys dt1 sig dur with
    | error e => exact ends_error P s _ e (by unfold tfStep; rw [hp]; simp only [hb])
    | ok s' =>
      rcases tfSearch_ok P s s' ys dt1 sig dur hb with he | ⟨ys', dt1', sig', he, hlt, hle⟩
      · apply ends_step P s s' _ (by unfold tfStep; rw [hp]; simp only [hb]) (by rw [he])
        exact hlate s' dt1 dur (by rw [he]) (by rw [he]; exact hi) (by rw [he]; exact h0) (by rw [he]; exact h1)
      · apply ends_step P s s' _ (by unfold tfStep; rw [hp]; simp only [hb]) (by rw [he])
        exact ih s' ys' dt1' sig' (by rw [he]) (by omega) (by rw [he]; exact hi) (by rw [he]; exact hpos _ h0)
          (by rw [he]; exact hle.trans hB)

theorem ends_all (P : TFParams) (ρ : ℚ) (hρ : 1 < ρ) (ht : 0 < P.target)
    (hq : ∀ x, 0 < x → P.rnd (x / P.rnd (P.rnd (P.sep / P.duration) / resRefineFactor)) ≤ x / ρ)
    (hpos : ∀ x, 0 < x → 0 < P.rnd (x * 2)) (n : Nat) (s : TFState) (hp : s.phase = .begin) (hi : s.iter = 1) (h0 : 0 < s.res)
    (hn : max s.res (10 ^ 4) ≤ P.target * ρ ^ (n + 1)) : Ends P s (n + 2) := by
  cases hb : tfBegin P s with
  | error e => exact ends_error P s _ e (by unfold tfStep; rw [hp, hb])
  | ok s' =>
    obtain ⟨ys, dt1, sig, dur, he⟩ := tfBegin_ok P s s' hb
    rw [if_pos hi] at he
    apply ends_step P s s' _ (by unfold tfStep; rw [hp, hb]) (by rw [he])
    apply ends_search P (n + 2) (max s.res (10 ^ 4)) (le_max_right _ _) hpos _ ys.length s' ys dt1 sig dur (by rw [he])
      le_rfl (by rw [he]; exact hi) (by rw [he]; exact h0) (by rw [he]; exact le_max_left _ _)
    intro s1 dt1 dur hp1 hi1 h01 hB1
    apply ends_late P s1 dt1 dur hp1 (n + 1)
    intro _ s2 hp2 hi2 hr2
    apply ends_refine P ρ hρ ht hq n s2 hp2 (by omega)
    · rw [hr2]; exact le_max_right _ _
    · rw [hr2]
      apply max_le
      · refine (hq s1.res h01).trans ?_
        rw [div_le_iff₀ (by linarith), mul_assoc, ← pow_succ]
        exact hB1.trans hn
      · exact le_mul_of_one_le_right ht.le (one_le_pow₀ hρ.le)

theorem relErr_le (rnd : ℚ → ℚ) (h : RelErr rnd) (x : ℚ) (hx : 0 ≤ x) :
    rnd x ≤ x * (1 + 1 / 2 ^ 53) ∧ x * (1 - 1 / 2 ^ 53) ≤ rnd x := by
  have := abs_le.mp (h x)
  rw [abs_of_nonneg hx] at this
  constructor <;> [skip; skip] <;> linarith [this.1, this.2]

theorem quotient_le (rnd : ℚ → ℚ) (h : RelErr rnd) (sep dur ρ : ℚ) (hd : 0 < dur) (hρ : 1 < ρ)
    (hs : ρ * (1 + 1 / 2 ^ 53) * resRefineFactor * dur ≤ sep * (1 - 1 / 2 ^ 53) ^ 2) (x : ℚ) (hx : 0 < x) :
    rnd (x / rnd (rnd (sep / dur) / resRefineFactor)) ≤ x / ρ := by
  have hR : (0 : ℚ) < resRefineFactor := by unfold resRefineFactor; norm_num
  have hu : (0 : ℚ) < 1 - 1 / 2 ^ 53 := by norm_num
  have hu2 : (0 : ℚ) < 1 + 1 / 2 ^ 53 := by norm_num
  have hsep : 0 < sep := by
    by_contra hc
    push Not at hc
    have h1 : sep * (1 - 1 / 2 ^ 53) ^ 2 ≤ 0 := mul_nonpos_of_nonpos_of_nonneg hc (by positivity)
    have h2 : 0 < ρ * (1 + 1 / 2 ^ 53) * resRefineFactor * dur := by positivity
    linarith
  have h1 := (relErr_le rnd h (sep / dur) (by positivity)).2
  have h1p : 0 < rnd (sep / dur) := lt_of_lt_of_le (by positivity) h1
  have h2 := (relErr_le rnd h (rnd (sep / dur) / resRefineFactor) (by positivity)).2
  have h3 : ρ * (1 + 1 / 2 ^ 53) ≤ rnd (rnd (sep / dur) / resRefineFactor) := by
    refine le_trans ?_ h2
    have h4 : sep / dur * (1 - 1 / 2 ^ 53) / resRefineFactor * (1 - 1 / 2 ^ 53) ≤
        rnd (sep / dur) / resRefineFactor * (1 - 1 / 2 ^ 53) :=
      mul_le_mul_of_nonneg_right (div_le_div_of_nonneg_right h1 hR.le) hu.le
    refine le_trans ?_ h4
    have h5 : sep / dur * (1 - 1 / 2 ^ 53) / resRefineFactor * (1 - 1 / 2 ^ 53) =
        sep * (1 - 1 / 2 ^ 53) ^ 2 / (resRefineFactor * dur) := by
      field_simp
    rw [h5, le_div_iff₀ (by positivity)]
    linarith
  generalize rnd (rnd (sep / dur) / resRefineFactor) = q at h3
  have hρ0 : 0 < ρ := by linarith
  have hq0 : 0 < q := lt_of_lt_of_le (by positivity) h3
  refine ((relErr_le rnd h (x / q) (by positivity)).1).trans ?_
  rw [div_mul_eq_mul_div, div_le_div_iff₀ hq0 hρ0]
  calc x * (1 + 1 / 2 ^ 53) * ρ = x * (ρ * (1 + 1 / 2 ^ 53)) := by ring
    _ ≤ x * q := mul_le_mul_of_nonneg_left h3 hx.le

/-- Parameters for which the refinement makes no progress: separation of exactly √2 (the double) durations. -/
def stuckParams : TFParams :=
  { ats := [0, 12, 100], numBins := 2, target := 1, threshold := 5, sep := resRefineFactor * 8, duration := 8, endTime := 100,
    rnd := id, rndA := id, xcorr := fun _ _ => [1, 0], signif := fun _ _ => .ok 10 }

/-- Example of a run with one refinement, which changes time and frequency. -/
def exampleParams : TFParams :=
  { ats := [0, 1000000, 1000005, 2000000], numBins := 2, target := 2, threshold := 2, sep := 1000000, duration := 8,
    endTime := 2000000, rnd := id, rndA := id, xcorr := fun a _ => if a = [1, 0] then [0, 1] else [1, 0],
    signif := fun ys _ => .ok ys.length }

/-- The result of `fpfind` from a success of `time_freq` (fpfind.py:369-370). -/
theorem scan_none (rnd rndA : ℚ → ℚ) (tf : List ℚ → Except PyErr (ℚ × ℚ)) (bob : List ℚ) (full : Bool) (precs : List ℚ)
    (h : ∀ df0 ∈ precs, tf (bob.map fun t => rndA (rndA (t - 0) / rnd (1 + df0))) = .error .valueError) :
    fpfindScan rnd rndA tf bob full precs = (.error .valueError, precs) := by
  induction precs with
  | nil => rfl
  | cons df0 rest ih =>
    unfold fpfindScan
    simp only [h df0 (by simp), ih (fun d hd => h d (by simp [hd]))]

theorem trunc_floor (x : ℚ) : truncQ ((⌊x⌋ : ℚ) + 1) = ⌊x⌋ + 1 := by
  unfold truncQ
  have : ((⌊x⌋ : ℚ) + 1) = ((⌊x⌋ + 1 : ℤ) : ℚ) := by push_cast; ring
  rw [this, Int.floor_intCast, Int.ceil_intCast]
  split_ifs <;> rfl

theorem trunc_nat (m : Nat) : truncQ (((m : ℤ) : ℚ) + 1) = (m : ℤ) + 1 := by
  have := trunc_floor (m : ℚ)
  rwa [Int.floor_natCast] at this

theorem alternating_eq (m : Nat) :
    (List.range (2 * m + 1)).map (fun i : Nat => if i % 2 = 0 then -(((i + 1) / 2 : Nat) : ℤ) else (((i + 1) / 2 : Nat) : ℤ)) =
      alternating m := by
  induction m with
  | zero => rfl
  | succ m ih =>
    rw [show 2 * (m + 1) + 1 = 2 * m + 1 + 1 + 1 by ring, List.range_succ, List.range_succ, List.map_append, List.map_append, ih,
      alternating, List.append_assoc]
    congr 1
    simp only [List.map_cons, List.map_nil, List.cons_append, List.nil_append]
    rw [if_neg (by omega), if_pos (by omega)]
    have e1 : (2 * m + 1 + 1) / 2 = m + 1 := by omega
    have e2 : (2 * m + 1 + 1 + 1) / 2 = m + 1 := by omega
    rw [e1, e2]
    push_cast
    rfl

theorem increasing_eq (m : Nat) : (List.range (m + 1)).map (fun i : Nat => (i : ℤ)) = increasing m := by
  induction m with
  | zero => rfl
  | succ m ih => rw [List.range_succ, List.map_append, ih, increasing]; simp

theorem mem_alternating (m : Nat) (k : ℤ) : k ∈ alternating m ↔ |k| ≤ m := by
  induction m with
  | zero => simp [alternating]
  | succ m ih =>
    rw [alternating, List.mem_append, ih]
    simp only [List.mem_cons, List.not_mem_nil, or_false]
    push_cast
    rw [abs_le, abs_le]
    omega

theorem nodup_alternating (m : Nat) : (alternating m).Nodup := by
  induction m with
  | zero => simp [alternating]
  | succ m ih =>
    rw [alternating, List.nodup_append]
    refine ⟨ih, ?_, ?_⟩
    · simp; omega
    · intro a ha b hb
      rw [mem_alternating, abs_le] at ha
      simp only [List.mem_cons, List.not_mem_nil, or_false] at hb
      omega

theorem accepts_iff (x : ℚ) : freqcdAccepts (rne (x * 2 ^ 34)) ↔ |x| < 1 / 2 ^ 13 - 1 / 2 ^ 35 := by
  have key : ∀ y : ℚ, |rne y| < 2 ^ 21 ↔ |y| < 2 ^ 21 - 1 / 2 := by
    intro y
    constructor
    · intro h
      by_contra hc
      push Not at hc
      have tie : rne (2 ^ 21 - 1 / 2 : ℚ) = 2 ^ 21 := by decide +kernel
      have tie' : rne (-(2 ^ 21 - 1 / 2) : ℚ) = -2 ^ 21 := by decide +kernel
      rw [abs_lt] at h
      rcases le_abs.mp hc with h1 | h1
      · have := rne_mono h1
        rw [tie] at this
        omega
      · have := rne_mono (show y ≤ -(2 ^ 21 - 1 / 2) by linarith)
        rw [tie'] at this
        omega
    · intro h
      have h2 := rne_spec y
      rw [abs_lt] at h
      rw [abs_le] at h2
      have h3 : (rne y : ℚ) < 2 ^ 21 := by linarith
      have h4 : (-2 ^ 21 : ℚ) < rne y := by linarith
      rw [abs_lt]
      constructor
      · have : ((-2 ^ 21 : ℤ) : ℚ) < rne y := by push_cast; exact h4
        exact_mod_cast this
      · have : (rne y : ℚ) < ((2 ^ 21 : ℤ) : ℚ) := by push_cast; exact h3
        exact_mod_cast this
  unfold freqcdAccepts
  rw [key, abs_mul, abs_of_pos (show (0 : ℚ) < 2 ^ 34 by norm_num)]
  constructor <;> intro h <;> nlinarith

end Fp
