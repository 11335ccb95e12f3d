import Verif.Spec.Utils
import Mathlib.Order.Bounds.Basic

/-! Helper lemmas for `Verif/Props/Utils.lean`. -/
namespace Fp
open Spec

theorem filter_shift (ts : List ℚ) (s : ℚ) :
    (ts.map (· - s)).filter (fun t => decide (0 ≤ t)) = fromStart s ts := by
  unfold fromStart
  rw [List.filter_map]
  congr 1
  apply List.filter_congr
  intro t _
  simp

theorem slice_start (ts : List ℚ) (s : ℚ) : sliceTimestamps ts (some s) none = .ok (fromStart s ts) := by
  unfold sliceTimestamps
  simp only [filter_shift]
  rfl

theorem filter_window (ts : List ℚ) (s d : ℚ) :
    (fromStart s ts).filter (fun t => decide (t < d)) = inWindow s d ts := by
  unfold fromStart inWindow
  rw [List.filter_map, List.filter_filter]
  congr 1
  apply List.filter_congr
  intro t _
  simp only [Function.comp, Bool.decide_and, Bool.and_comm]
  congr 1
  rw [decide_eq_decide]
  constructor <;> intro h <;> linarith

theorem mapM_ok {α β : Type} (f : α → Except PyErr β) (g : α → β) (l : List α) (h : ∀ x ∈ l, f x = .ok (g x)) :
    l.mapM f = .ok (l.map g) := by
  induction l with
  | nil => rfl
  | cons x l ih =>
    rw [List.mapM_cons, h x (by simp), ih (fun y hy => h y (by simp [hy]))]
    rfl

theorem foldl_max_spec (vs : List ℚ) (v : ℚ) : vs.foldl max v ∈ v :: vs ∧ ∀ x ∈ v :: vs, x ≤ vs.foldl max v := by
  induction vs generalizing v with
  | nil => simp
  | cons w vs ih =>
    rw [List.foldl_cons]
    obtain ⟨h1, h2⟩ := ih (max v w)
    constructor
    · rcases List.mem_cons.mp h1 with h | h
      · rw [h]
        rcases max_choice v w with h | h <;> simp [h]
      · simp [h]
    · have h3 := h2 (max v w) (by simp)
      intro x hx
      simp only [List.mem_cons] at hx
      rcases hx with rfl | rfl | hx
      · exact (le_max_left _ _).trans h3
      · exact (le_max_right _ _).trans h3
      · exact h2 x (by simp [hx])

theorem normalize_core (T : List (List ℚ)) (hT : T ≠ []) (hne : ∀ ts ∈ T, ts ≠ []) (skip m : ℚ)
    (hm : IsGreatest {x | ∃ ts ∈ T, ts.head? = some x} m) :
    normalizeTimestamps T skip true = .ok (T.map (fromStart (m + skip * 10 ^ 9))) := by
  unfold normalizeTimestamps
  simp only [if_true, pure, Except.pure, bind, Except.bind]
  rw [mapM_ok _ (fun ts => ts.headD 0) T (by
    intro ts hts
    cases ts with
    | nil => exact absurd rfl (hne [] hts)
    | cons t ts => rfl)]
  obtain ⟨ts, T', rfl⟩ := List.exists_cons_of_ne_nil hT
  simp only [List.map_cons]
  have hmax : (T'.map (fun ts => ts.headD 0)).foldl max (ts.headD 0) = m := by
    obtain ⟨g1, g2⟩ := foldl_max_spec (T'.map (fun ts => ts.headD 0)) (ts.headD 0)
    rw [← List.map_cons (f := fun ts : List ℚ => ts.headD 0)] at g1 g2
    apply le_antisymm
    · obtain ⟨us, hus, he⟩ := List.mem_map.mp g1
      rw [← he]
      apply hm.2
      obtain ⟨u, us, rfl⟩ := List.exists_cons_of_ne_nil (hne us hus)
      exact ⟨_, hus, rfl⟩
    · obtain ⟨us, hus, he⟩ := hm.1
      apply g2
      refine List.mem_map.mpr ⟨us, hus, ?_⟩
      cases us with
      | nil => simp at he
      | cons u us => simpa using he
  rw [hmax]
  rw [mapM_ok _ (fromStart (m + skip * 10 ^ 9)) _ (fun us _ => slice_start us _)]
  rfl

theorem countP_sum (vals : List Nat) (n : Nat) (h : ∀ v ∈ vals, v < n) :
    ((List.range n).map (fun k => vals.countP (fun v => decide (v = k)))).sum = vals.length := by
  induction vals with
  | nil => simp
  | cons v vals ih =>
    have hv := h v (by simp)
    rw [List.length_cons, ← ih (fun v hv => h v (by simp [hv]))]
    have key : ∀ n, v < n → ((List.range n).map (fun k => if v = k then 1 else 0)).sum = 1 := by
      intro n hn
      induction n with
      | zero => omega
      | succ n ihn =>
        rw [List.range_succ, List.map_append, List.sum_append]
        by_cases hvn : v = n
        · subst hvn
          have : ((List.range v).map (fun k => if v = k then 1 else 0)).sum = 0 := by
            apply List.sum_eq_zero
            intro x hx
            obtain ⟨k, hk, rfl⟩ := List.mem_map.mp hx
            have := List.mem_range.mp hk
            rw [if_neg (by omega)]
          rw [this]
          simp
        · rw [ihn (by omega)]
          simp [hvn]
    rw [← key n hv, ← List.sum_map_add]
    congr 1
    apply List.map_congr_left
    intro k _
    rw [List.countP_cons]
    simp

theorem foldl_max_bound (vals : List Nat) (n : Nat) (h : ∀ v ∈ vals, v < n) :
    vals.foldl (fun m v => max m (v + 1)) n = n := by
  induction vals with
  | nil => rfl
  | cons v vals ih =>
    have := h v (by simp)
    rw [List.foldl_cons, Nat.max_eq_left (by omega)]
    exact ih (fun v hv => h v (by simp [hv]))

theorem binOf_lt (n : Nat) (hn : 0 < n) (res t : ℚ) : binOf n res t < n := by
  unfold binOf
  have h1 := Int.emod_lt_of_pos ⌊t / res⌋ (show (0 : ℤ) < n by omega)
  have h2 := Int.emod_nonneg ⌊t / res⌋ (show (n : ℤ) ≠ 0 by omega)
  omega

theorem uniform_get (n : Nat) (res : ℚ) (k : Nat) (hk : k < n) : (uniformBins n res)[k]? = some ((k : ℚ) * res) := by
  unfold uniformBins
  rw [List.getElem?_map, List.getElem?_range hk]
  rfl

/-- The two candidates of a peak position. -/
def candidates (n p : Nat) (res : ℚ) : ℚ × ℚ :=
  let np := if p = 0 then 0 else n - p
  if p < np then ((p : ℚ) * res, -((np : ℚ) * res)) else (-((np : ℚ) * res), (p : ℚ) * res)

theorem candidates_spec (n p : Nat) (res : ℚ) (hr : 0 < res) (hp : p < n) :
    SameDelay (n * res) (candidates n p res).1 (p * res) ∧ SameDelay (n * res) (candidates n p res).2 (p * res) ∧
    |(candidates n p res).1| ≤ |(candidates n p res).2| ∧ |(candidates n p res).1| ≤ n * res / 2 ∧
    ((0 ≤ (candidates n p res).1 ∧ (candidates n p res).2 ≤ 0) ∨ ((candidates n p res).1 ≤ 0 ∧ 0 ≤ (candidates n p res).2)) ∧
    (0 < p → (candidates n p res).1 ≠ (candidates n p res).2) := by
  unfold candidates
  by_cases hp0 : p = 0
  · subst hp0
    simp only [if_true, lt_irrefl, if_false, Nat.cast_zero, zero_mul, neg_zero, abs_zero, le_refl, true_and]
    have hz : SameDelay ((n : ℚ) * res) 0 0 := ⟨0, by simp⟩
    exact ⟨hz, hz, by positivity, Or.inl trivial, by simp⟩
  · obtain ⟨q, hq⟩ : ∃ q, n = p + q := ⟨n - p, by omega⟩
    subst hq
    have hpq : (0 : ℚ) < p := by exact_mod_cast Nat.pos_of_ne_zero hp0
    have hqq : (0 : ℚ) < q := by exact_mod_cast (by omega : 0 < q)
    have hA : 0 < (p : ℚ) * res := mul_pos hpq hr
    have hB : 0 < (q : ℚ) * res := mul_pos hqq hr
    have e1 : (if p = 0 then 0 else p + q - p) = q := by rw [if_neg hp0]; omega
    simp only [e1, Nat.cast_add]
    by_cases hlt : p < q
    · simp only [if_pos hlt]
      have hle : (p : ℚ) * res ≤ q * res := mul_le_mul_of_nonneg_right (by exact_mod_cast hlt.le) hr.le
      refine ⟨⟨0, by simp⟩, ⟨-1, by push_cast; ring⟩, ?_, ?_, Or.inl ⟨hA.le, by linarith⟩, fun _ => by linarith⟩
      · rw [abs_neg, abs_of_pos hA, abs_of_pos hB]; exact hle
      · rw [abs_of_pos hA]; linarith
    · simp only [if_neg hlt]
      have hle : (q : ℚ) * res ≤ p * res := mul_le_mul_of_nonneg_right (by exact_mod_cast (not_lt.mp hlt)) hr.le
      refine ⟨⟨-1, by push_cast; ring⟩, ⟨0, by simp⟩, ?_, ?_, Or.inr ⟨by linarith, hA.le⟩, fun _ => by linarith⟩
      · rw [abs_neg, abs_of_pos hA, abs_of_pos hB]; exact hle
      · rw [abs_neg, abs_of_pos hB]; linarith

theorem pySlice_nat {α : Type} (l : List α) (a b : Nat) : pySlice l a b = (l.take b).drop a := by
  unfold pySlice
  simp only
  rw [if_neg (by omega), if_neg (by omega)]
  have e1 : (min (b : ℤ) l.length).toNat = min b l.length := by omega
  have e2 : (min (a : ℤ) l.length).toNat = min a l.length := by omega
  rw [e1, e2]
  have e3 : l.take (min b l.length) = l.take b := by
    rcases le_total b l.length with h | h
    · rw [Nat.min_eq_left h]
    · rw [Nat.min_eq_right h, List.take_length, List.take_of_length_le h]
  rw [e3]
  rcases le_total a l.length with h | h
  · rw [Nat.min_eq_left h]
  · rw [Nat.min_eq_right h, List.drop_of_length_le (by simp), List.drop_of_length_le (by simp; omega)]

theorem foldl_min_spec (vs : List Nat) (v : Nat) : vs.foldl min v ∈ v :: vs ∧ ∀ x ∈ v :: vs, vs.foldl min v ≤ x := by
  induction vs generalizing v with
  | nil => simp
  | cons w vs ih =>
    rw [List.foldl_cons]
    obtain ⟨h1, h2⟩ := ih (min v w)
    constructor
    · rcases List.mem_cons.mp h1 with h | h
      · rw [h]
        rcases min_choice v w with h | h <;> simp [h]
      · simp [h]
    · have h3 := h2 (min v w) (by simp)
      intro x hx
      simp only [List.mem_cons] at hx
      rcases hx with rfl | rfl | hx
      · omega
      · omega
      · exact h2 x (by simp [hx])

theorem mergePairs_even (m : Nat) (ys : List ℚ) (h : ys.length = 2 * m) :
    ∃ zs, mergePairs ys = .ok zs ∧ zs.length = m ∧ zs.sum = ys.sum ∧
      ∀ i a b, ys[2 * i]? = some a → ys[2 * i + 1]? = some b → zs[i]? = some (a + b) := by
  induction m generalizing ys with
  | zero =>
    obtain rfl : ys = [] := List.length_eq_zero_iff.mp (by omega)
    exact ⟨[], rfl, rfl, rfl, by simp⟩
  | succ m ih =>
    match ys, h with
    | a :: b :: ys, h =>
      obtain ⟨zs, h1, h2, h3, h4⟩ := ih ys (by simp at h; omega)
      refine ⟨(a + b) :: zs, ?_, by simp [h2], ?_, ?_⟩
      · unfold mergePairs at h1 ⊢
        rw [reshape2]
        cases hr : reshape2 ys with
        | error e => rw [hr] at h1; cases h1
        | ok r =>
          rw [hr] at h1
          simp only [Except.map, Except.ok.injEq] at h1
          simp only [bind, Except.bind, pure, Except.pure, Except.map, List.map_cons, h1]
      · simp only [List.sum_cons, h3]; ring
      · intro i x y hx hy
        cases i with
        | zero => simp at hx hy ⊢; rw [hx, hy]
        | succ i =>
          rw [show 2 * (i + 1) = 2 * i + 1 + 1 by ring] at hx hy
          simp only [List.getElem?_cons_succ] at hx hy ⊢
          exact h4 i x y hx hy

theorem blockSum_split (ys : List ℚ) (j i : Nat) :
    blockSum ys (j + 1) i = blockSum ys j (2 * i) + blockSum ys j (2 * i + 1) := by
  unfold blockSum
  rw [pow_succ, mul_two, List.take_add, List.sum_append, List.drop_drop]
  congr 3 <;> congr 1 <;> ring

theorem binOf_iff (n : Nat) (hn : 0 < n) (res t : ℚ) (k : Nat) (hk : k < n) :
    binOf n res t = k ↔ ⌊t / res⌋ ≡ (k : ℤ) [ZMOD (n : ℤ)] := by
  unfold binOf Int.ModEq
  have h1 := Int.emod_lt_of_pos ⌊t / res⌋ (show (0 : ℤ) < n by omega)
  have h2 := Int.emod_nonneg ⌊t / res⌋ (show (n : ℤ) ≠ 0 by omega)
  have h3 : (k : ℤ) % (n : ℤ) = k := Int.emod_eq_of_lt (by omega) (by omega)
  rw [h3]
  omega

theorem argmax_spec {α : Type} [LinearOrder α] (l : List α) (hl : l ≠ []) : ∃ p, argmax l = some p ∧ FirstMax l p := by
  obtain ⟨x, xs, rfl⟩ := List.exists_cons_of_ne_nil hl
  -- invariant: after a prefix `pre` the state is (position, value, length of the prefix)
  have key : ∀ (rest pre : List α) (s : Nat × α × Nat), s.2.2 = pre.length → pre[s.1]? = some s.2.1 →
      (∀ y ∈ pre, y ≤ s.2.1) → (∀ i < s.1, ∀ y, pre[i]? = some y → y < s.2.1) →
      FirstMax (pre ++ rest) (rest.foldl (fun (s : Nat × α × Nat) y =>
        if s.2.1 < y then (s.2.2, y, s.2.2 + 1) else (s.1, s.2.1, s.2.2 + 1)) s).1 := by
    intro rest
    induction rest with
    | nil =>
      intro pre s h1 h2 h3 h4
      rw [List.append_nil]
      exact ⟨s.2.1, h2, h3, h4⟩
    | cons y rest ih =>
      intro pre s h1 h2 h3 h4
      rw [List.foldl_cons, show pre ++ y :: rest = (pre ++ [y]) ++ rest by simp]
      have hlt : s.1 < pre.length := (List.getElem?_eq_some_iff.mp h2).1
      by_cases hy : s.2.1 < y
      · rw [if_pos hy]
        apply ih
        · simp [h1]
        · simp [h1]
        · intro z hz
          rcases List.mem_append.mp hz with hz | hz
          · exact (h3 z hz).trans hy.le
          · simp at hz; exact hz.le
        · intro i hi z hz
          simp only at hi
          rw [List.getElem?_append_left (by omega)] at hz
          exact lt_of_le_of_lt (h3 z (List.mem_of_getElem? hz)) hy
      · rw [if_neg hy]
        apply ih
        · simp [h1]
        · simp only
          rw [List.getElem?_append_left hlt]
          exact h2
        · intro z hz
          rcases List.mem_append.mp hz with hz | hz
          · exact h3 z hz
          · simp at hz; rw [hz]; exact not_lt.mp hy
        · intro i hi z hz
          simp only at hi
          rw [List.getElem?_append_left (by omega)] at hz
          exact h4 i hi z hz
  refine ⟨_, rfl, ?_⟩
  exact key xs [x] (0, x, 1) rfl rfl (by simp) (by simp)

theorem firstMax_lt {α : Type} [LinearOrder α] (l : List α) (p : Nat) (h : FirstMax l p) : p < l.length := by
  obtain ⟨x, h1, _⟩ := h
  exact (List.getElem?_eq_some_iff.mp h1).1

theorem windows_core {α : Type} [LinearOrder α] (hist : List α) (res window : ℚ) (hr : 0 < res)
    (hw : 0 ≤ window) (center : Option (ℚ × Bool)) (p : Nat) (hp : p < hist.length)
    (hc : (match center with
      | none => (argmax hist).map fun c : Nat => ((c : Int), true)
      | some (c, isInt) => some (if c < 0 then (hist.length : ℤ) - ⌊|c| / res⌋ else ⌊|c| / res⌋, isInt)) = some ((p : ℤ), true)) :
    ∃ stats, getStatistics hist (some res) center window = .ok stats ∧ WindowsAt hist res window p stats := by
  obtain ⟨w, hwn⟩ : ∃ w : Nat, (w : ℤ) = ⌈window / 2 / res⌉ :=
    ⟨⌈window / 2 / res⌉.toNat, Int.toNat_of_nonneg (Int.ceil_nonneg (by positivity))⟩
  have hwr : window / 2 ≤ w * res := by
    have := Int.le_ceil (window / 2 / res)
    rw [← hwn, div_le_iff₀ hr] at this
    exact_mod_cast this
  have e1 : max 0 ((p : ℤ) - w) = ((p - w : ℕ) : ℤ) := by omega
  have e2 : min (hist.length : ℤ) (p + w) + 1 = ((min hist.length (p + w) + 1 : ℕ) : ℤ) := by omega
  have e3 : ((p - w : ℕ) : ℤ) / 2 = (((p - w) / 2 : ℕ) : ℤ) := by omega
  have e4 : (hist.length + min (hist.length : ℤ) (p + w)) / 2 + 1 =
      (((hist.length + min hist.length (p + w)) / 2 + 1 : ℕ) : ℤ) := by omega
  have hwr2 : (w : ℚ) * res < window / 2 + res := by
    have := Int.ceil_lt_add_one (window / 2 / res)
    rw [← hwn] at this
    have h2 : ((w : ℤ) : ℚ) * res < (window / 2 / res + 1) * res := mul_lt_mul_of_pos_right this hr
    rw [add_mul, div_mul_cancel₀ _ hr.ne', one_mul] at h2
    exact_mod_cast h2
  refine ⟨⟨pySlice hist (max 0 ((p : ℤ) - w)) (min (hist.length : ℤ) (p + w) + 1),
      pySlice hist (max 0 ((p : ℤ) - w) / 2) (max 0 ((p : ℤ) - w)) ++
        pySlice hist (min (hist.length : ℤ) (p + w) + 1) ((hist.length + min (hist.length : ℤ) (p + w)) / 2 + 1)⟩, ?_,
    p - w, min hist.length (p + w), (p - w) / 2, (hist.length + min hist.length (p + w)) / 2 + 1,
    by omega, by omega, by omega, by omega, ?_, ?_, ?_, ?_, by omega, by omega, by omega, by omega, ?_, ?_⟩
  · unfold getStatistics
    rcases center with _ | ⟨c, i⟩
    · simp only at hc
      simp only [hc, not_true_eq_false, false_and, if_false, ← hwn]
    · simp only [Option.some.injEq, Prod.mk.injEq] at hc
      obtain ⟨hc1, rfl⟩ := hc
      simp only [hc1, not_true_eq_false, false_and, if_false, ← hwn]
  · rcases Nat.lt_or_ge w p with h | h
    · right
      rw [Nat.cast_sub h.le, sub_sub_cancel]
      exact hwr
    · left; omega
  · rcases Nat.lt_or_ge (p + w) hist.length with h | h
    · right
      rw [Nat.min_eq_right h.le, Nat.cast_add, add_sub_cancel_left]
      exact hwr
    · left; omega
  · refine lt_of_le_of_lt ?_ hwr2
    apply mul_le_mul_of_nonneg_right _ hr.le
    have : p ≤ (p - w) + w := by omega
    have : (p : ℚ) ≤ ((p - w : ℕ) : ℚ) + w := by exact_mod_cast this
    linarith
  · refine lt_of_le_of_lt ?_ hwr2
    apply mul_le_mul_of_nonneg_right _ hr.le
    have : min hist.length (p + w) ≤ p + w := by omega
    have : ((min hist.length (p + w) : ℕ) : ℚ) ≤ (p : ℚ) + w := by exact_mod_cast this
    linarith
  · simp only [e1, e2, pySlice_nat]
  · simp only [e1, e2, e3, e4, pySlice_nat]

end Fp
