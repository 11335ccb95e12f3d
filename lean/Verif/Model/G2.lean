import Verif.Model.Float

/-! # Model of `src/fpfind/lib/g2_two_timestamps.py` -/
namespace Fp

/-- `Ta = 2**27`, g2_two_timestamps.py:5. -/
def g2Ta : ℚ := 2 ^ 27

/-- `N = 2**18`, g2_two_timestamps.py:6. -/
def g2N : Nat := 2 ^ 18

/-- `maxdelay`, g2_two_timestamps.py:10. -/
def g2MaxDelay : ℚ := 10000000

/-- `arr[np.where((arr > start_time) & (arr <= start_time + Ta))]`, g2_two_timestamps.py:11-12.  Times are rationals, compared
and added exactly. -/
def g2Window (start : ℚ) (arr : List ℚ) : List ℚ := arr.filter fun x => start < x ∧ x ≤ start + g2Ta

/-- The loop `while arr1.size > 1`, g2_two_timestamps.py:17-22. -/
def g2Drop (event : ℚ) : List ℚ → List ℚ
  | x :: y :: rest => if event - x ≥ g2MaxDelay then g2Drop event (y :: rest) else x :: y :: rest
  | l => l

/-- `arr3[i] += 1` on an array of `int32`, which wraps around, g2_two_timestamps.py:13 and 25. -/
def g2Bump (h : List ℤ) (i : Nat) : List ℤ := h.modify i fun v : ℤ => Int.bmod (v + 1) (2 ^ 32)

/-- `int(delay // delta_t) % N`, g2_two_timestamps.py:24-25, for an exact quotient. -/
def g2Index (delta delay : ℚ) : Nat := (⌊delay / delta⌋ % (g2N : ℤ)).toNat

/-- The body of the loop over `arr2` for all its events, g2_two_timestamps.py:16-25. -/
def g2Loop (delta : ℚ) : List ℚ → List ℚ → List ℤ → List ℤ
  | _, [], h => h
  | a, e :: es, h =>
    let a' := g2Drop e a
    g2Loop delta a' es (a'.foldl (fun h stamp => g2Bump h (g2Index delta (e - stamp))) h)

/-- `g2`, g2_two_timestamps.py:9-27.  For `delta_t = 0` the code fails or uses index 0, depending on the type of the
arrays; this case is not modelled, and all theorems exclude it. -/
def g2 (arr1 arr2 : List ℚ) (start delta : ℚ) : List ℤ :=
  g2Loop delta (g2Window start arr1) (g2Window start arr2) (List.replicate g2N 0)

end Fp
