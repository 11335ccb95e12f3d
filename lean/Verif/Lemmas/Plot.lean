import Verif.Spec.Plot
import Verif.Props.FpRounded

/-! Helper lemmas for `Verif/Props/Plot.lean`. -/
namespace Fp
open Spec

theorem readT1_more (fe : Bool) (res : Tsres) (fr : Bool) (file : Bytes) (N M : Nat) (hNM : N ≤ M)
    (r : Except PyErr (List (ENum × Nat))) (h : readT1 N fe res fr file = some r) : readT1 M fe res fr file = some r := by
  unfold readT1 at *
  cases hh : readT1Header file with
  | error e => simpa only [hh] using h
  | ok header =>
    simp only [hh] at h ⊢
    split at h
    · simp at h
    · rename_i ev he
      rw [runLoop_more _ N M hNM _ _ he]
      exact h

theorem readT2_more (fe : Bool) (res : Tsres) (fr : Bool) (file : Bytes) (N M : Nat) (hNM : N ≤ M)
    (r : Except PyErr (List (ENum × Nat))) (h : readT2 N fe res fr file = some r) : readT2 M fe res fr file = some r := by
  unfold readT2 at *
  cases hh : readT2Header file with
  | error e => simpa only [hh] using h
  | ok header =>
    simp only [hh] at h ⊢
    split at h
    · simp at h
    · rename_i ev he
      rw [runLoop_more _ N M hNM _ _ he]
      exact h
    · rename_i ev he
      rw [runLoop_more _ N M hNM _ _ he]
      exact h

theorem overlap_more (n1 n2 : List (List Char)) (f : Option (List Char)) (N M : Nat) (hNM : N ≤ M)
    (r : Except PyErr (Option (List Char) × Nat)) (h : getFirstOverlappingEpoch N n1 n2 f = some r) :
    getFirstOverlappingEpoch M n1 n2 f = some r := by
  unfold getFirstOverlappingEpoch at *
  split at h
  · simp only at h ⊢
    split at h
    · exact h
    · rename_i v vs hv
      rw [Option.map_eq_some_iff] at h ⊢
      obtain ⟨n, hn, rfl⟩ := h
      refine ⟨n, ?_, rfl⟩
      unfold contiguousLoop at *
      exact runLoop_more _ N M hNM _ _ hn
  · exact h
  · exact h
  · exact h

/-- One round of the loop of `getTimestamp`. -/
def epochRound (fuel : Nat) (dir : List Char → Option Bytes) (isT1 : Bool) (f : List Char) (skip : Int) (n : Nat)
    (ts : List ENum) : Option (Except PyErr (List ENum)) :=
  match epoch2int f with
  | .error e => some (.error e)
  | .ok f =>
    match dir (int2epoch (f + skip + (n : Int))) with
    | none => some (.error .fileNotFound)
    | some file =>
      match (if isT1 then readT1 fuel false .ns1 true file else readT2 fuel false .ns1 true file) with
      | none => none
      | some (.error e) => some (.error e)
      | some (.ok evs) => some (.ok (ts ++ evs.map Prod.fst))

theorem getTimestamp_succ (fuel : Nat) (dir : List Char → Option Bytes) (isT1 : Bool) (f : List Char) (skip : Int) (n : Nat) :
    getTimestamp fuel dir isT1 f skip (n + 1) =
      match getTimestamp fuel dir isT1 f skip n with
      | some (.ok l) => epochRound fuel dir isT1 f skip n l
      | other => other := by
  unfold getTimestamp
  rw [List.range_succ, List.foldl_append]
  rfl

theorem epochRound_prefix (fuel : Nat) (dir : List Char → Option Bytes) (isT1 : Bool) (f : List Char) (skip : Int) (n : Nat)
    (l l' : List ENum) (h : epochRound fuel dir isT1 f skip n l = some (.ok l')) : l <+: l' := by
  unfold epochRound at h
  split at h
  · simp at h
  · split at h
    · simp at h
    · split at h
      · simp at h
      · simp at h
      · simp only [Option.some.injEq, Except.ok.injEq] at h
        subst h
        exact List.prefix_append _ _

theorem getTimestamp_more (dir : List Char → Option Bytes) (isT1 : Bool) (f : List Char) (skip : Int) (n N M : Nat) (hNM : N ≤ M)
    (r : Except PyErr (List ENum)) (h : getTimestamp N dir isT1 f skip n = some r) : getTimestamp M dir isT1 f skip n = some r := by
  induction n generalizing r with
  | zero => exact h
  | succ n ih =>
    rw [getTimestamp_succ] at h ⊢
    cases hp : getTimestamp N dir isT1 f skip n with
    | none =>
      rw [hp] at h
      simp at h
    | some q =>
      rw [ih q hp]
      rw [hp] at h
      cases q with
      | error e => exact h
      | ok ts =>
        simp only [epochRound] at h ⊢
        split at h
        · exact h
        · split at h
          · exact h
          · rename_i file hfile
            have key : ∀ q, (if isT1 then readT1 N false .ns1 true file else readT2 N false .ns1 true file) = some q →
                (if isT1 then readT1 M false .ns1 true file else readT2 M false .ns1 true file) = some q := by
              intro q hq
              cases isT1
              · exact readT2_more _ _ _ _ N M hNM q hq
              · exact readT1_more _ _ _ _ N M hNM q hq
            split at h
            · simp at h
            · rename_i e he
              rw [key _ he]
              exact h
            · rename_i evs he
              rw [key _ he]
              exact h

theorem getFrom_more (dir : List Char → Option Bytes) (isT1 : Bool) (f : Option (List Char)) (skip n : Int) (N M : Nat)
    (hNM : N ≤ M) (r : Except PyErr (List ENum)) (h : getTimestampFrom N dir isT1 f skip n = some r) :
    getTimestampFrom M dir isT1 f skip n = some r := by
  cases f with
  | none => exact h
  | some f => exact getTimestamp_more dir isT1 f skip _ N M hNM r h

theorem plotLoad_more (B : PlotArgs) (N M : Nat) (hNM : N ≤ M) (r : Except PyErr (Option (List ℚ × List ℚ × ℚ)))
    (h : plotLoad N B = some r) : plotLoad M B = some r := by
  unfold plotLoad at *
  split at h
  · split at h
    · simp at h
    · rename_i he
      rw [overlap_more _ _ _ N M hNM _ he]
      exact h
    · rename_i he
      rw [overlap_more _ _ _ N M hNM _ he]
      simp only
      split at h
      · simp at h
      · rename_i he
        rw [getFrom_more _ _ _ _ _ N M hNM _ he]
        exact h
      · rename_i he
        rw [getFrom_more _ _ _ _ _ N M hNM _ he]
        simp only
        split at h
        · simp at h
        · rename_i he
          rw [getFrom_more _ _ _ _ _ N M hNM _ he]
          exact h
        · rename_i he
          rw [getFrom_more _ _ _ _ _ N M hNM _ he]
          exact h
  · exact h
  · exact h

theorem plotInput_more (rnd rndA : ℚ → ℚ) (B : PlotArgs) (N : Nat) (r : Except PyErr (Option (List (List ℚ))))
    (h : plotInput rnd rndA N B = some r) : Returns (fun fuel => plotInput rnd rndA fuel B) r := by
  refine ⟨N, fun M hNM => ?_⟩
  simp only
  unfold plotInput at *
  split at h
  · simp at h
  all_goals
    rename_i he
    rw [plotLoad_more B N M hNM _ he]
    exact h

theorem getTimestamp_prefix (fuel : Nat) (dir : List Char → Option Bytes) (isT1 : Bool) (f : List Char) (skip : Int) (n k : Nat)
    (l : List ENum) (h : getTimestamp fuel dir isT1 f skip (n + k) = some (.ok l)) :
    ∃ l', getTimestamp fuel dir isT1 f skip n = some (.ok l') ∧ l' <+: l := by
  induction k generalizing l with
  | zero => exact ⟨l, h, List.prefix_rfl⟩
  | succ k ih =>
    rw [← Nat.add_assoc, getTimestamp_succ] at h
    split at h
    · rename_i l1 h1
      obtain ⟨l', h2, h3⟩ := ih l1 h1
      exact ⟨l', h2, h3.trans (epochRound_prefix _ _ _ _ _ _ _ _ h)⟩
    · rename_i h1
      exact absurd h (h1 l)

theorem getFrom_prefix (fuel : Nat) (dir : List Char → Option Bytes) (isT1 : Bool) (f : Option (List Char)) (skip : Int) (n m : Int)
    (hnm : n ≤ m) (l : List ENum) (h : getTimestampFrom fuel dir isT1 f skip m = some (.ok l)) :
    ∃ l', getTimestampFrom fuel dir isT1 f skip n = some (.ok l') ∧ l' <+: l := by
  cases f with
  | some f =>
    obtain ⟨k, hk⟩ : ∃ k, m.toNat = n.toNat + k := ⟨m.toNat - n.toNat, by omega⟩
    simp only [getTimestampFrom] at h ⊢
    rw [hk] at h
    exact getTimestamp_prefix fuel dir isT1 f skip _ _ l h
  | none =>
    simp only [getTimestampFrom] at h ⊢
    split at h
    · rw [if_pos (by omega)]
      simp only [Option.some.injEq, Except.ok.injEq] at h
      exact ⟨[], rfl, by simp⟩
    · simp at h

/-- Normalising prefixes of both arrays. -/
theorem normalize_prefix (rnd rndA : ℚ → ℚ) (a b a' b' : List ℚ) (skip : ℚ) (ha : a' <+: a) (hb : b' <+: b) (A B A' B' : List ℚ)
    (h : normalizeTimestampsR rnd rndA [a, b] skip true = .ok [A, B]) (h' : normalizeTimestampsR rnd rndA [a', b'] skip true = .ok [A', B']) :
    A' <+: A ∧ B' <+: B := by
  cases a' with
  | nil => simp [normalizeTimestampsR, bind, Except.bind, pure, Except.pure] at h'
  | cons x a1 =>
    cases b' with
    | nil => simp [normalizeTimestampsR, bind, Except.bind, pure, Except.pure] at h'
    | cons y b1 =>
      obtain ⟨a2, rfl⟩ := ha
      obtain ⟨b2, rfl⟩ := hb
      simp only [normalizeTimestampsR, List.mapM_cons, List.mapM_nil, sliceTimestampsR, List.cons_append, bind, Except.bind, pure,
        Except.pure, Except.ok.injEq, List.cons.injEq, and_true, if_true, List.foldl_cons, List.foldl_nil] at h h'
      obtain ⟨rfl, rfl⟩ := h
      obtain ⟨rfl, rfl⟩ := h'
      constructor
      · rw [← List.cons_append, List.map_append, List.filter_append]
        exact List.prefix_append _ _
      · rw [← List.cons_append, List.map_append, List.filter_append]
        exact List.prefix_append _ _

theorem load_prefix (rnd : ℚ → ℚ) (fuel : Nat) (A : FpArgs) (B : PlotArgs) (hB : SameInput A B)
    (hn : A.sendfiles = none ∨ A.t1files = none ∨ B.numEpochs ≤ A.requiredEpochs rnd - A.skipEpochs) (a b : List ℚ) (s : ℚ)
    (h : loadInput rnd fuel A = some (.ok (some (a, b, s)))) :
    ∃ a' b', a' <+: a ∧ b' <+: b ∧ (A.sendfiles = none ∨ A.t1files = none → a' = a ∧ b' = b) ∧
      plotLoad fuel B = some (.ok (some (a', b', s))) := by
  obtain ⟨h1, h2, h3, h4, h5, h6, h7, h8⟩ := hB
  unfold loadInput at h
  unfold plotLoad
  rw [h1, h2, h3, h4, h5, h6, h7, h8]
  split at h
  · rename_i d1 d2 _ _ e1 e2
    simp only at h
    split at h
    · simp at h
    · simp at h
    · rename_i first _ hfirst
      split at h
      · simp at h
      · simp at h
      · rename_i al hal
        split at h
        · simp at h
        · simp at h
        · rename_i bo hbo
          simp only [Option.some.injEq, Except.ok.injEq, Prod.mk.injEq] at h
          obtain ⟨rfl, rfl, rfl⟩ := h
          have hn : B.numEpochs ≤ A.requiredEpochs rnd - A.skipEpochs := by
            rcases hn with hn | hn | hn
            · rw [hn] at e1; simp at e1
            · rw [hn] at e2; simp at e2
            · exact hn
          obtain ⟨al', g1, g2⟩ := getFrom_prefix _ _ _ _ _ _ _ hn _ hal
          obtain ⟨bo', g3, g4⟩ := getFrom_prefix _ _ _ _ _ _ _ hn _ hbo
          refine ⟨al'.map ENum.val, bo'.map ENum.val, g2.map _, g4.map _, ?_, ?_⟩
          · rw [e1, e2]; simp
          · simp only [e1, e2, hfirst, g1, g3]
  · rename_i hne
    have hns : ∀ d1 d2, A.sendfiles = some d1 → A.t1files = some d2 → False := by
      intro d1 d2 e1 e2
      exact hne d1 d2 e1 e2
    refine ⟨a, b, List.prefix_rfl, List.prefix_rfl, fun _ => ⟨rfl, rfl⟩, ?_⟩
    simp only at h ⊢
    split
    · rename_i e1 e2
      exact absurd e2 (fun e2 => hns _ _ e1 e2)
    · rename_i t r _ et er
      simp_all
      exact h
    · simp_all
  · simp at h

theorem normalize_two (rnd rndA : ℚ → ℚ) (a b : List ℚ) (skip : ℚ) (T : List (List ℚ)) (h : normalizeTimestampsR rnd rndA [a, b] skip true = .ok T) :
    ∃ x a1 y b1, a = x :: a1 ∧ b = y :: b1 ∧
      T = [a, b].map fun ts => (ts.map fun t => rndA (t - rndA (max x y + rnd (skip * 10 ^ 9)))).filter fun t => decide (0 ≤ t) := by
  cases a with
  | nil => simp [normalizeTimestampsR, bind, Except.bind, pure, Except.pure] at h
  | cons x a1 =>
    cases b with
    | nil => simp [normalizeTimestampsR, bind, Except.bind, pure, Except.pure] at h
    | cons y b1 =>
      refine ⟨x, a1, y, b1, rfl, rfl, ?_⟩
      simp only [normalizeTimestampsR, List.mapM_cons, List.mapM_nil, sliceTimestampsR, bind, Except.bind, pure,
        Except.pure, Except.ok.injEq, if_true, List.foldl_cons, List.foldl_nil] at h
      rw [← h]
      rfl

theorem slice_two (rndA : ℚ → ℚ) (D : ℚ) (a b : List ℚ) (ha : ∀ x ∈ a, 0 ≤ x ∧ rndA x = x) (hb : ∀ x ∈ b, 0 ≤ x ∧ rndA x = x) :
    [a, b].mapM (fun ts => sliceTimestampsR rndA ts (some 0) (some D)) =
      if a = [] ∨ b = [] then .error .indexError
      else .ok [a.filter (fun t => decide (t < D)), b.filter (fun t => decide (t < D))] := by
  have key : ∀ l : List ℚ, (∀ x ∈ l, 0 ≤ x ∧ rndA x = x) → (l.map (fun t => rndA (t - (0 : ℚ)))).filter (fun t => decide (0 ≤ t)) = l := by
    intro l hl
    have e : l.map (fun t => rndA (t - (0 : ℚ))) = l := by
      conv_rhs => rw [← List.map_id l]
      apply List.map_congr_left
      intro t ht
      rw [sub_zero, (hl t ht).2]
      rfl
    rw [e, List.filter_eq_self]
    intro x hx
    simpa using (hl x hx).1
  simp only [List.mapM_cons, List.mapM_nil, sliceTimestampsR, bind, Except.bind, pure, Except.pure, key a ha, key b hb]
  by_cases h1 : a = []
  · simp [h1]
  · by_cases h2 : b = []
    · simp [h1, h2]
    · simp [h1, h2]

theorem plot_round (rnd rndA : ℚ → ℚ) (hr : RelErr rnd) (hra : RelErr rndA) (df x : ℚ) (hdf : |df| ≤ 1 / 2 ^ 12) :
    |rndA (rndA x / rnd (1 + rnd (rnd (df * 10 ^ 6) * rnd (1 / 10 ^ 6)))) - x / (1 + df)| ≤ |x| / 2 ^ 50 := by
  obtain ⟨η1, h1, e1⟩ := relErr_factor hr (df * 10 ^ 6)
  obtain ⟨η2, h2, e2⟩ := relErr_factor hr (1 / 10 ^ 6)
  obtain ⟨η3, h3, e3⟩ := relErr_factor hr (rnd (df * 10 ^ 6) * rnd (1 / 10 ^ 6))
  have hk := triple (1 / 2 ^ 53) η1 η2 η3 (by positivity) (by norm_num) h1 h2 h3
  have e4 : rnd (rnd (df * 10 ^ 6) * rnd (1 / 10 ^ 6)) = df + df * ((1 + η1) * (1 + η2) * (1 + η3) - 1) := by
    rw [e3, e1, e2]; ring
  rw [e4]
  generalize (1 + η1) * (1 + η2) * (1 + η3) - 1 = κ at *
  have hdk : |df * κ| ≤ 1 / 2 ^ 12 * (4 * (1 / 2 ^ 53)) := by
    rw [abs_mul]; exact mul_le_mul hdf hk (abs_nonneg _) (by norm_num)
  generalize df * κ = δ at *
  have hG := hr (1 + (df + δ))
  generalize rnd (1 + (df + δ)) = G at *
  have hd1 : |1 + (df + δ)| ≤ 1 + 1 / 2 ^ 11 := by
    have q1 := abs_add_le 1 (df + δ)
    have q2 := abs_add_le df δ
    rw [abs_one] at q1
    norm_num at *
    linarith
  have hGg : |G - (1 + df)| ≤ 2 * (1 / 2 ^ 53) := by
    have q := abs_add_le (G - (1 + (df + δ))) δ
    rw [show G - (1 + (df + δ)) + δ = G - (1 + df) by ring] at q
    norm_num at *
    linarith
  obtain ⟨η5, h5, e5⟩ := relErr_factor hra x
  obtain ⟨η6, h6, e6⟩ := relErr_factor hra (rndA x / G)
  have hm := triple (1 / 2 ^ 53) η5 η6 0 (by positivity) (by norm_num) h5 h6 (by norm_num)
  rw [add_zero, mul_one] at hm
  rw [e6, e5]
  have hg := abs_le.mp hdf
  have hgl : 1 - 1 / 2 ^ 12 ≤ 1 + df := by linarith [hg.1]
  have hgu : 1 + df ≤ 1 + 1 / 2 ^ 12 := by linarith [hg.2]
  have hGl : 1 - 1 / 2 ^ 11 ≤ G := by
    have := (abs_le.mp hGg).1
    norm_num at *
    linarith
  generalize 1 + df = g at *
  have hg0 : 0 < g := lt_of_lt_of_le (by norm_num) hgl
  have hG0 : 0 < G := lt_of_lt_of_le (by norm_num) hGl
  have e7 : x * (1 + η5) / G * (1 + η6) - x / g = x * (((1 + η5) * (1 + η6) - 1) * g - (G - g)) / (G * g) := by
    field_simp
    ring
  rw [e7]
  generalize (1 + η5) * (1 + η6) - 1 = μ at *
  have hnum : |μ * g - (G - g)| ≤ 7 * (1 / 2 ^ 53) := by
    have q := abs_sub (μ * g) (G - g)
    have q2 : |μ * g| ≤ 4 * (1 / 2 ^ 53) * (1 + 1 / 2 ^ 12) := by
      rw [abs_mul, abs_of_pos hg0]; exact mul_le_mul hm hgu hg0.le (by norm_num)
    norm_num at *
    linarith
  have hden : 1 - 1 / 2 ^ 10 ≤ G * g := by
    have := mul_le_mul hGl hgl (by norm_num) hG0.le
    norm_num at *
    linarith
  have hden0 : 0 < G * g := by positivity
  rw [abs_div, abs_of_pos hden0, div_le_iff₀ hden0, abs_mul]
  have hx := abs_nonneg x
  have s1 : |x| * |μ * g - (G - g)| ≤ |x| * (7 * (1 / 2 ^ 53)) := mul_le_mul_of_nonneg_left hnum hx
  have s2 : |x| / 2 ^ 50 * (1 - 1 / 2 ^ 10) ≤ |x| / 2 ^ 50 * (G * g) := mul_le_mul_of_nonneg_left hden (by positivity)
  refine s1.trans (le_trans ?_ s2)
  norm_num
  linarith [abs_nonneg x]

end Fp
