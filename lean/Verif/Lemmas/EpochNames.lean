import Verif.Spec.Epoch
import Verif.Lemmas.EpochT1
import Verif.Props.EpochT1
import Verif.Lemmas.Text
import Mathlib.Order.Bounds.Basic
import Mathlib.Data.Set.Finite.Basic
import Mathlib.Data.Fintype.EquivFin

/-! Helper lemmas for `Verif/Props/EpochNames.lean`. -/
namespace Fp
open Spec

theorem int2epoch_nat (n : Nat) : int2epoch (n : Int) = hexPad 0 n := by
  unfold int2epoch hexPad
  simp

theorem hexDigs_foldr_self (l : List Nat) (h : ∀ d ∈ l, d < 16) (hne : l ≠ []) (hlast : l = [0] ∨ l.getLast? ≠ some 0) :
    hexDigs (l.foldr (fun d acc => acc * 16 + d) 0) = l ∧ (l ≠ [0] → 0 < l.foldr (fun d acc => acc * 16 + d) 0) := by
  induction l with
  | nil => exact absurd rfl hne
  | cons d l ih =>
    have hd := h d (by simp)
    cases l with
    | nil =>
      simp only [List.foldr_cons, List.foldr_nil, Nat.zero_mul, Nat.zero_add]
      rw [hexDigs, if_pos hd]
      refine ⟨rfl, fun h0 => ?_⟩
      have : d ≠ 0 := by intro hc; exact h0 (by rw [hc])
      omega
    | cons e l =>
      have hlast' : (e :: l).getLast? ≠ some 0 := by
        rcases hlast with hc | hc
        · simp at hc
        · rwa [List.getLast?_cons_cons] at hc
      have hne0 : (e :: l) ≠ [0] := by intro hc; rw [hc] at hlast'; simp at hlast'
      obtain ⟨h1, h2⟩ := ih (fun d hd => h d (by simp [hd])) (by simp) (Or.inr hlast')
      have h3 := h2 hne0
      rw [List.foldr_cons]
      generalize (e :: l).foldr (fun d acc => acc * 16 + d) 0 = v at h1 h3 ⊢
      refine ⟨?_, fun _ => by omega⟩
      rw [hexDigs, if_neg (by omega), show (v * 16 + d) % 16 = d by omega, show (v * 16 + d) / 16 = v by omega, h1]

theorem digit_char (c : Char) (h : c ∈ ['0', '1', '2', '3', '4', '5', '6', '7', '8', '9', 'a', 'b', 'c', 'd', 'e', 'f']) :
    ∃ d, d < 16 ∧ hexChar d = c ∧ ['0', '1', '2', '3', '4', '5', '6', '7', '8', '9', 'a', 'b', 'c', 'd', 'e', 'f'].idxOf c = d := by
  have key : ∀ c ∈ ['0', '1', '2', '3', '4', '5', '6', '7', '8', '9', 'a', 'b', 'c', 'd', 'e', 'f'],
      ∃ d, d < 16 ∧ hexChar d = c ∧ ['0', '1', '2', '3', '4', '5', '6', '7', '8', '9', 'a', 'b', 'c', 'd', 'e', 'f'].idxOf c = d := by
    decide
  exact key c h

theorem digits_of (s : List Char)
    (h : ∀ c ∈ s, c ∈ ['0', '1', '2', '3', '4', '5', '6', '7', '8', '9', 'a', 'b', 'c', 'd', 'e', 'f']) :
    ∃ ds : List Nat, (∀ d ∈ ds, d < 16) ∧ ds.map hexChar = s ∧
      ∀ acc, s.foldl (fun acc c => acc * 16 + ['0', '1', '2', '3', '4', '5', '6', '7', '8', '9', 'a', 'b', 'c', 'd', 'e', 'f'].idxOf c) acc =
        ds.foldl (fun acc d => acc * 16 + d) acc := by
  induction s with
  | nil => exact ⟨[], by simp, rfl, fun _ => rfl⟩
  | cons c s ih =>
    obtain ⟨ds, h1, h2, h3⟩ := ih (fun c hc => h c (by simp [hc]))
    obtain ⟨d, g1, g2, g3⟩ := digit_char c (h c (by simp))
    refine ⟨d :: ds, ?_, by rw [List.map_cons, g2, h2], fun acc => ?_⟩
    · intro x hx
      rcases List.mem_cons.mp hx with rfl | hx
      · exact g1
      · exact h1 x hx
    · rw [List.foldl_cons, List.foldl_cons, g3, h3]

theorem hexDigs_last (n : Nat) : hexDigs n = [0] ∨ (hexDigs n).getLast? ≠ some 0 := by
  induction n using Nat.strongRecOn with
  | ind n ih =>
    rw [hexDigs]
    split
    · by_cases h : n = 0
      · left; rw [h]
      · right; simpa using h
    · rename_i hn
      right
      rcases ih (n / 16) (by omega) with h | h
      · have := hexDigs_foldr (n / 16)
        rw [h] at this
        simp at this
        omega
      · obtain ⟨e, l, hel⟩ := List.exists_cons_of_ne_nil (hexDigs_ne (n / 16))
        rw [hel] at h ⊢
        rwa [List.getLast?_cons_cons]

theorem mapM_epochs (names : List (List Char)) (vs : List Int) (h : EpochsOf names vs) : names.mapM epoch2int = .ok vs := by
  unfold EpochsOf at h
  induction names generalizing vs with
  | nil => cases vs with
    | nil => rfl
    | cons v vs => simp at h
  | cons n names ih => cases vs with
    | nil => simp at h
    | cons v vs =>
      simp only [List.map_cons, List.cons.injEq] at h
      rw [List.mapM_cons, h.1, ih vs h.2]
      rfl

theorem contiguous_run (es : List Int) (m : Int) (n : Nat) (hrun : ∀ i : Nat, i < n → m + (i : Int) ∈ es) (hend : m + (n : Int) ∉ es)
    (k fuel : Nat) (hk : k ≤ n) (hf : n - k < fuel) : contiguousLoop es m fuel k = some n := by
  unfold contiguousLoop
  induction fuel generalizing k with
  | zero => omega
  | succ fuel ih =>
    rw [runLoop]
    by_cases h : k < n
    · simp only [hrun k h, if_true]
      exact ih (k + 1) (by omega) (by omega)
    · have : k = n := by omega
      subst this
      simp only [hend, if_false]

theorem foldl_min_mem (vs : List Int) (v : Int) : vs.foldl min v ∈ v :: vs ∧ ∀ x ∈ v :: vs, vs.foldl min v ≤ x := by
  induction vs generalizing v with
  | nil => simp
  | cons w vs ih =>
    rw [List.foldl_cons]
    obtain ⟨h1, h2⟩ := ih (min v w)
    constructor
    · rcases List.mem_cons.mp h1 with h | h
      · rw [h]
        rcases min_choice v w with h | h <;> simp [h]
      · simp [h]
    · have h3 := h2 (min v w) (by simp)
      intro x hx
      simp only [List.mem_cons] at hx
      rcases hx with rfl | rfl | hx
      · exact h3.trans (min_le_left _ _)
      · exact h3.trans (min_le_right _ _)
      · exact h2 x (by simp [hx])

theorem overlap_eval (names1 names2 : List (List Char)) (e1 e2 : List Int) (h1 : EpochsOf names1 e1) (h2 : EpochsOf names2 e2)
    (first : Option (List Char)) (f : Option Int) (hf : first.map epoch2int = f.map Except.ok) (fuel : Nat) :
    ∃ es : List Int, (∀ v, v ∈ es ↔ Common e1 e2 f v) ∧ getFirstOverlappingEpoch fuel names1 names2 first =
      match es with
      | [] => some (.ok (none, 0))
      | v :: vs => (contiguousLoop (v :: vs) (vs.foldl min v) fuel 1).map fun n => .ok (some (int2epoch (vs.foldl min v)), n) := by
  unfold getFirstOverlappingEpoch
  rw [mapM_epochs _ _ h1, mapM_epochs _ _ h2]
  cases first with
  | none =>
    cases f with
    | some f => simp at hf
    | none =>
      refine ⟨e1.filter (fun v => decide (v ∈ e2)), ?_, rfl⟩
      intro v
      simp [Common]
  | some first =>
    cases f with
    | none => simp at hf
    | some f =>
      simp only [Option.map_some, Option.some.injEq] at hf
      refine ⟨(e1.filter (fun v => decide (v ∈ e2))).filter (fun v => decide (f ≤ v)), ?_, ?_⟩
      · intro v
        simp [Common]
        tauto
      · simp only [hf, Except.map]
        rfl

end Fp
