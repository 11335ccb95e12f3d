import Verif.Spec.UtilsMore
import Verif.Lemmas.Utils
import Verif.Lemmas.UtilsFft
import Verif.Props.Utils

/-! Helper lemmas for `Verif/Props/UtilsMore.lean`. -/
namespace Fp
open Spec

theorem pick_some {α : Type} (l : List α) (idx : List Nat) (h : ∀ i ∈ idx, i < l.length) :
    (pick l idx).map some = idx.map (l[·]?) := by
  unfold pick
  induction idx with
  | nil => rfl
  | cons i idx ih =>
    have hi := h i (by simp)
    rw [List.filterMap_cons_some (List.getElem?_eq_getElem hi), List.map_cons, List.map_cons,
      ih (fun j hj => h j (by simp [hj])), List.getElem?_eq_getElem hi]

theorem pick_length {α : Type} (l : List α) (idx : List Nat) (h : ∀ i ∈ idx, i < l.length) :
    (pick l idx).length = idx.length := by
  simpa using congrArg List.length (pick_some l idx h)

theorem pick_get {α : Type} (l : List α) (idx : List Nat) (h : ∀ i ∈ idx, i < l.length) (a : Nat) :
    (pick l idx)[a]? = (idx[a]?).bind (l[·]?) := by
  have := congrArg (·[a]?) (pick_some l idx h)
  simp only [List.getElem?_map] at this
  cases hx : idx[a]? with
  | none => rw [hx] at this; simpa using this
  | some i =>
    rw [hx] at this
    cases hy : (pick l idx)[a]? with
    | none => rw [hy] at this; simp at this
    | some y => rw [hy] at this; simpa using this

theorem pick_range {α : Type} (l : List α) : pick l (List.range l.length) = l := by
  apply List.ext_getElem?
  intro a
  rw [pick_get _ _ (fun i hi => List.mem_range.mp hi)]
  by_cases ha : a < l.length
  · rw [List.getElem?_range ha]; rfl
  · rw [List.getElem?_eq_none (by simpa using ha), List.getElem?_eq_none (by simpa using ha)]; rfl

theorem delay_at (n p : Nat) (res : ℚ) (hp : p < n) :
    getDelayAtIndexFft (uniformBins n res) p = .ok (candidates n p res) := by
  have hl : (uniformBins n res).length = n := by simp [uniformBins]
  unfold getDelayAtIndexFft candidates
  simp only [hl]
  have e1 : (if p ≠ 0 then n - p else 0) = (if p = 0 then 0 else n - p) := by split_ifs <;> simp_all
  rw [e1, uniform_get _ _ _ hp, uniform_get _ _ _ (by split_ifs <;> omega)]
  simp only
  split_ifs <;> rfl

theorem argmax_map {α β : Type} [LinearOrder α] [LinearOrder β] (f : α → β) (hf : StrictMono f) (l : List α) :
    argmax (l.map f) = argmax l := by
  cases l with
  | nil => rfl
  | cons x xs =>
    unfold argmax
    simp only [List.map_cons]
    congr 1
    have key : ∀ (l : List α) (a : Nat) (x : α) (n : Nat),
        ((l.map f).foldl (fun (s : Nat × β × Nat) y => if s.2.1 < y then (s.2.2, y, s.2.2 + 1) else (s.1, s.2.1, s.2.2 + 1)) (a, f x, n)).1 =
        (l.foldl (fun (s : Nat × α × Nat) y => if s.2.1 < y then (s.2.2, y, s.2.2 + 1) else (s.1, s.2.1, s.2.2 + 1)) (a, x, n)).1 := by
      intro l
      induction l with
      | nil => intros; rfl
      | cons y l ih =>
        intro a x n
        simp only [List.map_cons, List.foldl_cons, hf.lt_iff_lt]
        split_ifs
        · exact ih n y (n + 1)
        · exact ih a x (n + 1)
    exact key xs 0 x 1

theorem pySlice_map {α β : Type} (f : α → β) (l : List α) (a b : Int) : pySlice (l.map f) a b = (pySlice l a b).map f := by
  unfold pySlice
  simp only [List.length_map, List.map_take, List.map_drop]

theorem statistics_map {α β : Type} [LinearOrder α] [LinearOrder β] (f : α → β) (hf : StrictMono f) (hist : List α)
    (res : Option ℚ) (center : Option (ℚ × Bool)) (window : ℚ) :
    getStatistics (hist.map f) res center window =
      (getStatistics hist res center window).map fun s => { signal := s.signal.map f, background := s.background.map f } := by
  unfold getStatistics
  cases res with
  | none => cases center <;> rfl
  | some res =>
    simp only [List.length_map, argmax_map f hf, pySlice_map]
    split
    · rfl
    · split_ifs
      · rfl
      · simp [Except.map]

theorem sum_rescale (a b : ℝ) (l : List ℝ) : (rescale a b l).sum = a * l.sum + l.length * b := by
  unfold rescale
  induction l with
  | nil => simp
  | cons x l ih => simp only [List.map_cons, List.sum_cons, ih, List.length_cons]; push_cast; ring

theorem length_rescale (a b : ℝ) (l : List ℝ) : (rescale a b l).length = l.length := by simp [rescale]

theorem mean_rescale (a b : ℝ) (l : List ℝ) (hl : l ≠ []) : meanR (rescale a b l) = a * meanR l + b := by
  have : (l.length : ℝ) ≠ 0 := by simpa using hl
  unfold meanR
  rw [sum_rescale, length_rescale]
  field_simp

theorem std_rescale (a b : ℝ) (ha : 0 < a) (l : List ℝ) : stdR (rescale a b l) = a * stdR l := by
  by_cases hl : l = []
  · subst hl; simp [stdR, rescale]
  unfold stdR
  rw [mean_rescale a b l hl, length_rescale]
  have h1 : (rescale a b l).map (fun x => (x - (a * meanR l + b)) ^ 2) = (l.map fun x => (x - meanR l) ^ 2).map fun y => a ^ 2 * y := by
    unfold rescale
    rw [List.map_map, List.map_map]
    apply List.map_congr_left
    intro x _
    simp only [Function.comp]
    ring
  have h2 : ((l.map fun x => (x - meanR l) ^ 2).map fun y => a ^ 2 * y).sum = a ^ 2 * (l.map fun x => (x - meanR l) ^ 2).sum := by
    rw [List.sum_map_mul_left, List.map_id']
  rw [h1, h2, mul_div_assoc, Real.sqrt_mul (by positivity), Real.sqrt_sq ha.le]

theorem max_rescale (a b : ℝ) (ha : 0 < a) (x : ℝ) (xs : List ℝ) :
    (rescale a b xs).foldl max (a * x + b) = a * xs.foldl max x + b := by
  unfold rescale
  induction xs generalizing x with
  | nil => rfl
  | cons y xs ih =>
    simp only [List.map_cons, List.foldl_cons]
    rw [← ih]
    congr 1
    rcases le_total x y with h | h
    · rw [max_eq_right h, max_eq_right (by nlinarith)]
    · rw [max_eq_left h, max_eq_left (by nlinarith)]

theorem rowSums_rescale (a b : ℝ) (n rows : Nat) (l : List ℝ) (h : rows * n ≤ l.length) :
    rowSums n (rescale a b l) rows = rescale a (n * b) (rowSums n l rows) := by
  induction rows generalizing l with
  | zero => rfl
  | succ rows ih =>
    have hn : n ≤ l.length := by nlinarith
    have e1 : (rescale a b l).take n = rescale a b (l.take n) := by simp [rescale, List.map_take]
    have e2 : (rescale a b l).drop n = rescale a b (l.drop n) := by simp [rescale, List.map_drop]
    have h' : rows * n ≤ (l.drop n).length := by
      rw [List.length_drop]
      have : (rows + 1) * n = rows * n + n := by ring
      omega
    simp only [rowSums]
    rw [e1, e2, ih _ h', sum_rescale, List.length_take, min_eq_left hn]
    simp [rescale]

theorem rescale_nil (a b : ℝ) (l : List ℝ) : rescale a b l = [] ↔ l = [] := by simp [rescale]

theorem rowSums_one (l : List ℝ) : rowSums 1 l l.length = l := by
  induction l with
  | nil => rfl
  | cons x l ih => simp [rowSums, ih]

end Fp
