import Verif.Lemmas.G2

/-! # Properties of the direct correlation `g2`: C66 -/
namespace Fp
open Spec

/-- **C66**, exact result for sorted times: bin `k` counts the pairs with a delay below 10^7 in bin `k`, and all pairs with the
last event of the first array, whatever the delay.  Counts are 32-bit numbers. -/
theorem C66_exact (arr1 arr2 : List ℚ) (start delta : ℚ) (_hδ : delta ≠ 0) (a : List ℚ) (l : ℚ)
    (h1 : (g2Events start arr1) = a ++ [l]) (hs1 : (g2Events start arr1).Pairwise (· ≤ ·))
    (hs2 : (g2Events start arr2).Pairwise (· ≤ ·)) :
    (g2 arr1 arr2 start delta).length = 262144 ∧
    ∀ k, k < 262144 → (g2 arr1 arr2 start delta)[k]? =
      some (Int.bmod ((g2Pairs delta a (g2Events start arr2) k + g2AllPairs delta [l] (g2Events start arr2) k : ℕ) : ℤ) (2 ^ 32)) := by
  have := hist_loop delta l (g2Events start arr2) a _ _ (by rw [← h1]; exact hs1) hs2 hist_zero
  unfold g2
  rw [window_eq, window_eq, h1]
  refine ⟨this.1, fun k hk => ?_⟩
  rw [this.2 k hk]
  simp

/-- **C66**: the histogram of delays, if no event of the second array is 10^7 ns or more later than the last of the first, and
no bin has 2^31 pairs or more. -/
theorem C66_counts_partial (arr1 arr2 : List ℚ) (start delta : ℚ) (_hδ : delta ≠ 0)
    (hs1 : (g2Events start arr1).Pairwise (· ≤ ·)) (hs2 : (g2Events start arr2).Pairwise (· ≤ ·))
    (hlast : ∀ l ∈ (g2Events start arr1).getLast?, ∀ y ∈ g2Events start arr2, y - l < 10000000)
    (hmany : (g2Events start arr1).length * (g2Events start arr2).length < 2 ^ 31) :
    (g2 arr1 arr2 start delta).length = 262144 ∧
    ∀ k, k < 262144 → (g2 arr1 arr2 start delta)[k]? =
      some ((g2Pairs delta (g2Events start arr1) (g2Events start arr2) k : ℕ) : ℤ) := by
  rcases List.eq_nil_or_concat (g2Events start arr1) with h | ⟨a, l, h⟩
  · unfold g2
    rw [window_eq, window_eq, h, loop_nil]
    refine ⟨hist_zero.1, fun k hk => ?_⟩
    rw [hist_zero.2 k hk]
    simp [g2Pairs]
  · rw [List.concat_eq_append] at h
    obtain ⟨e1, e2⟩ := C66_exact arr1 arr2 start delta _hδ a l h hs1 hs2
    refine ⟨e1, fun k hk => ?_⟩
    have hc : g2Pairs delta (a ++ [l]) (g2Events start arr2) k ≤ (a ++ [l]).length * (g2Events start arr2).length := by
      unfold g2Pairs
      rw [mul_comm, ← List.length_map (fun y => (a ++ [l]).countP fun x => y - x < 10000000 ∧ ⌊(y - x) / delta⌋ ≡ (k : ℤ) [ZMOD 262144])]
      apply List.sum_le_card_nsmul
      intro n hn
      obtain ⟨y, -, rfl⟩ := List.mem_map.mp hn
      exact List.countP_le_length
    have hp := pairs_snoc delta a (g2Events start arr2) l k (fun y hy => hlast l (by rw [h]; simp) y hy)
    rw [e2 k hk, ← hp, h]
    rw [h] at hmany
    generalize g2Pairs delta (a ++ [l]) (g2Events start arr2) k = n at *
    generalize (a ++ [l]).length * (g2Events start arr2).length = m at *
    exact congrArg some (bmod_small n (by omega))

/-- Instance of `C66_counts_partial`: four pairs, two of them with delay 3. -/
example : (g2 [5, 7] [8, 10] 4 1)[3]? = some 2 ∧ (g2 [5, 7] [8, 10] 4 1)[5]? = some 1 ∧ (g2 [5, 7] [8, 10] 4 1)[1]? = some 1 := by
  obtain ⟨-, h⟩ := C66_counts_partial [5, 7] [8, 10] 4 1 (by norm_num) (by decide +kernel) (by decide +kernel) (by decide +kernel)
    (by decide +kernel)
  rw [h 3 (by norm_num), h 5 (by norm_num), h 1 (by norm_num)]
  decide +kernel

/-- **C66 fails** for delays of 10^7 ns or more: the last event of the first array is never dropped. -/
theorem C66_violated : ∃ (arr1 arr2 : List ℚ) (k : Nat), (g2Events 0 arr1).Pairwise (· ≤ ·) ∧ (g2Events 0 arr2).Pairwise (· ≤ ·) ∧
    g2Pairs 1 (g2Events 0 arr1) (g2Events 0 arr2) k = 0 ∧ (g2 arr1 arr2 0 1)[k]? = some 1 := by
  refine ⟨[1], [10000001], 38528, by decide +kernel, by decide +kernel, by decide +kernel, ?_⟩
  obtain ⟨-, h⟩ := C66_exact [1] [10000001] 0 1 (by norm_num) [] 1 (by decide +kernel) (by decide +kernel) (by decide +kernel)
  rw [h 38528 (by norm_num)]
  decide +kernel

end Fp
