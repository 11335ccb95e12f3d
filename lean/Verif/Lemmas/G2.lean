import Verif.Model.G2
import Verif.Spec.G2

/-! Helper lemmas for `Verif/Props/G2.lean`. -/
namespace Fp
open Spec

theorem window_eq (start : ℚ) (arr : List ℚ) : g2Window start arr = g2Events start arr := by
  unfold g2Window g2Events g2Ta
  apply List.filter_congr
  intro x _
  have : (x ≤ start + 2 ^ 27) ↔ (x - start ≤ 134217728) := by norm_num; constructor <;> intro h <;> linarith
  simp only [this]

theorem index_iff (delta d : ℚ) (k : Nat) (hk : k < 262144) : g2Index delta d = k ↔ ⌊d / delta⌋ ≡ (k : ℤ) [ZMOD 262144] := by
  unfold g2Index g2N
  generalize ⌊d / delta⌋ = z
  unfold Int.ModEq
  norm_num
  omega

theorem bump_length (h : List ℤ) (i : Nat) : (g2Bump h i).length = h.length := by
  unfold g2Bump; exact List.length_modify ..

theorem bump_get (h : List ℤ) (i k : Nat) :
    (g2Bump h i)[k]? = h[k]?.map fun v : ℤ => if i = k then Int.bmod (v + 1) (2 ^ 32) else v := by
  unfold g2Bump
  rw [List.getElem?_modify]
  split <;> cases h[k]? <;> simp_all

theorem bmod_step (c : ℕ) : Int.bmod (Int.bmod (c : ℤ) (2 ^ 32) + 1) (2 ^ 32) = Int.bmod ((c + 1 : ℕ) : ℤ) (2 ^ 32) := by
  push_cast
  exact Int.bmod_add_bmod ..

/-- The histogram holds the counts `f` (as 32-bit numbers). -/
def HistHolds (h : List ℤ) (f : Nat → Nat) : Prop :=
  h.length = 262144 ∧ ∀ k, k < 262144 → h[k]? = some (Int.bmod (f k : ℤ) (2 ^ 32))

theorem hist_bump (h : List ℤ) (f : Nat → Nat) (delta d : ℚ) (hh : HistHolds h f) :
    HistHolds (g2Bump h (g2Index delta d)) (fun k => f k + if ⌊d / delta⌋ ≡ (k : ℤ) [ZMOD 262144] then 1 else 0) := by
  refine ⟨by rw [bump_length]; exact hh.1, ?_⟩
  intro k hk
  rw [bump_get, hh.2 k hk, Option.map_some]
  beta_reduce
  by_cases h1 : ⌊d / delta⌋ ≡ (k : ℤ) [ZMOD 262144]
  · rw [if_pos ((index_iff delta d k hk).mpr h1), if_pos h1, bmod_step]
  · rw [if_neg (fun h2 => h1 ((index_iff delta d k hk).mp h2)), if_neg h1, Nat.add_zero]

theorem hist_fold (delta e : ℚ) (a : List ℚ) : ∀ (h : List ℤ) (f : Nat → Nat), HistHolds h f →
    HistHolds (a.foldl (fun h stamp => g2Bump h (g2Index delta (e - stamp))) h)
      (fun k => f k + a.countP fun x => ⌊(e - x) / delta⌋ ≡ (k : ℤ) [ZMOD 262144]) := by
  induction a with
  | nil => intro h f hh; simpa using hh
  | cons x xs ih =>
    intro h f hh
    rw [List.foldl_cons]
    have := ih _ _ (hist_bump h f delta (e - x) hh)
    refine ⟨this.1, fun k hk => ?_⟩
    rw [this.2 k hk]
    congr 3
    beta_reduce
    rw [List.countP_cons]
    simp only [decide_eq_true_eq]
    omega

/-- What is left of a sorted list after dropping old events: the recent ones, and always the last. -/
theorem drop_spec (e l : ℚ) : ∀ a : List ℚ, (a ++ [l]).Pairwise (· ≤ ·) →
    g2Drop e (a ++ [l]) = (a.filter fun x => e - x < 10000000) ++ [l] := by
  intro a
  induction a with
  | nil => intro _; rfl
  | cons x xs ih =>
    intro hs
    rw [List.cons_append, List.pairwise_cons] at hs
    have hd : g2Drop e (x :: (xs ++ [l])) = if e - x ≥ g2MaxDelay then g2Drop e (xs ++ [l]) else x :: (xs ++ [l]) := by
      cases xs with
      | nil => rfl
      | cons y ys => rfl
    rw [List.cons_append, hd]
    unfold g2MaxDelay
    split
    · rename_i hge
      rw [ih hs.2, List.filter_cons_of_neg]
      simp only [decide_eq_true_eq, not_lt]
      exact hge
    · rename_i hge
      rw [List.filter_eq_self.mpr]
      · rfl
      · intro z hz
        simp only [decide_eq_true_eq]
        rcases List.mem_cons.mp hz with rfl | hz
        · linarith
        · have := hs.1 z (List.mem_append_left _ hz)
          linarith

theorem filter_filter_later (e e' : ℚ) (h : e ≤ e') (a : List ℚ) :
    (a.filter fun x => e - x < 10000000).filter (fun x => e' - x < 10000000) = a.filter fun x => e' - x < 10000000 := by
  rw [List.filter_filter]
  apply List.filter_congr
  intro x _
  rw [← Bool.decide_and]
  congr 1
  rw [eq_iff_iff]
  exact ⟨fun h => h.1, fun h1 => ⟨h1, by linarith⟩⟩

/-- Counts for the events still to be processed. -/
theorem hist_loop (delta l : ℚ) : ∀ (b a : List ℚ) (h : List ℤ) (f : Nat → Nat), (a ++ [l]).Pairwise (· ≤ ·) →
    b.Pairwise (· ≤ ·) → HistHolds h f →
    HistHolds (g2Loop delta (a ++ [l]) b h) (fun k => f k + g2Pairs delta a b k + g2AllPairs delta [l] b k) := by
  intro b
  induction b with
  | nil => intro a h f _ _ hh; simpa [g2Loop, g2Pairs, g2AllPairs] using hh
  | cons e es ih =>
    intro a h f ha hb hh
    rw [List.pairwise_cons] at hb
    rw [g2Loop, drop_spec e l a ha]
    have hsub : ((a.filter fun x => e - x < 10000000) ++ [l]).Pairwise (· ≤ ·) :=
      ha.sublist (List.Sublist.append List.filter_sublist (List.Sublist.refl _))
    have h1 := hist_fold delta e ((a.filter fun x => e - x < 10000000) ++ [l]) h f hh
    have h2 := ih _ _ _ hsub hb.2 h1
    refine ⟨h2.1, fun k hk => ?_⟩
    rw [h2.2 k hk]
    congr 3
    beta_reduce
    have h3 : g2Pairs delta (a.filter fun x => e - x < 10000000) es k = g2Pairs delta a es k := by
      unfold g2Pairs
      congr 1
      apply List.map_congr_left
      intro y hy
      rw [List.countP_filter]
      apply List.countP_congr
      intro x _
      simp only [Bool.and_eq_true, decide_eq_true_eq]
      have := hb.1 y hy
      constructor
      · rintro ⟨h, -⟩; exact h
      · intro h; exact ⟨h, by linarith [h.1]⟩
    rw [h3]
    unfold g2Pairs g2AllPairs
    rw [List.map_cons, List.map_cons, List.sum_cons, List.sum_cons, List.countP_append, List.countP_filter]
    have h4 : (a.countP fun x => decide (⌊(e - x) / delta⌋ ≡ (k : ℤ) [ZMOD 262144]) && decide (e - x < 10000000)) =
        a.countP fun x => e - x < 10000000 ∧ ⌊(e - x) / delta⌋ ≡ (k : ℤ) [ZMOD 262144] := by
      apply List.countP_congr
      intro x _
      simp only [Bool.and_eq_true, decide_eq_true_eq]
      exact and_comm
    rw [h4]
    omega

theorem hist_zero : HistHolds (List.replicate g2N 0) (fun _ => 0) := by
  refine ⟨by rw [List.length_replicate]; rfl, fun k hk => ?_⟩
  rw [List.getElem?_replicate, if_pos (show k < g2N from hk)]
  exact congrArg some (show (0 : ℤ) = Int.bmod ((0 : ℕ) : ℤ) (2 ^ 32) by decide)

theorem loop_nil (delta : ℚ) (b : List ℚ) (h : List ℤ) : g2Loop delta [] b h = h := by
  induction b generalizing h with
  | nil => rfl
  | cons e es ih => rw [g2Loop]; exact ih _

theorem pairs_snoc (delta : ℚ) (a b : List ℚ) (l : ℚ) (k : Nat) (h : ∀ y ∈ b, y - l < 10000000) :
    g2Pairs delta (a ++ [l]) b k = g2Pairs delta a b k + g2AllPairs delta [l] b k := by
  unfold g2Pairs g2AllPairs
  rw [← List.sum_map_add]
  congr 1
  apply List.map_congr_left
  intro y hy
  rw [List.countP_append]
  congr 1
  apply List.countP_congr
  intro x hx
  rw [List.mem_singleton] at hx
  subst hx
  simp only [decide_eq_true_eq]
  exact ⟨fun h => h.2, fun h1 => ⟨h y hy, h1⟩⟩

theorem bmod_small (n : ℕ) (h : n < 2 ^ 31) : Int.bmod (n : ℤ) (2 ^ 32) = n := by
  norm_num at h ⊢
  apply Int.bmod_eq_of_le <;> omega

end Fp
