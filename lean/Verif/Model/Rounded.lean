import Verif.Model.Utils

/-!
# The float operations of `src/fpfind/lib/utils.py` with their roundings

`Model/Utils` computes with exact numbers.  Here the same functions are modelled as the interpreter executes them: every
subtraction, addition and division of floats is rounded.  The rounding is a parameter: arrays hold `float128`, that is numbers
with 64 significant bits on x86-64 (`fl 64`); Python floats have 53 (`fl 53`).  Comparisons are exact.
-/
namespace Fp

/-- C `fmodl(a, b)`: the remainder with the sign of `a`; it is always computed exactly. -/
def cFmod (a b : ℚ) : ℚ := a - b * (if 0 ≤ a / b then ⌊a / b⌋ else ⌈a / b⌉ : ℤ)

/-- `a // b` of numpy for floats and `b ≠ 0`: `npy_divmodl` of numpy/core/src/npymath, as called by
utils.py:192. -/
def npFloorDivide (rnd : ℚ → ℚ) (a b : ℚ) : ℚ :=
  let m := cFmod a b
  let div := rnd (rnd (a - m) / b)
  let div := if m ≠ 0 ∧ (decide (b < 0) ≠ decide (m < 0)) then rnd (div - 1) else div
  if div = 0 then 0
  else
    let floordiv : ℚ := (⌊div⌋ : ℤ)
    if rnd (div - floordiv) > 1 / 2 then rnd (floordiv + 1) else floordiv

/-- `a % b` of numpy for floats and `b ≠ 0`: `npy_remainderl`, as called by utils.py:192. -/
def npRemainder (rnd : ℚ → ℚ) (a b : ℚ) : ℚ :=
  let m := cFmod a b
  if m ≠ 0 ∧ (decide (b < 0) ≠ decide (m < 0)) then rnd (m + b) else m

/-- The bin of a timestamp, utils.py:192: `int64((t // time_res) % num_bins)` (the conversion to an integer truncates). -/
def binOfR (rnd : ℚ → ℚ) (numBins : Nat) (timeRes t : ℚ) : Nat :=
  ⌊npRemainder rnd (npFloorDivide rnd t timeRes) (numBins : ℚ)⌋.toNat

/-- The histogram computed by `generate_fft`, utils.py:189-193. -/
def generateBinsR (rnd : ℚ → ℚ) (arr : List ℚ) (numBins : Nat) (timeRes : ℚ) : Except PyErr (List Nat) :=
  if arr = [] then .error .valueError
  else .ok (bincount (arr.map (binOfR rnd numBins timeRes)) numBins)

/-- `slice_timestamps`, utils.py:263-279, with rounded subtractions. -/
def sliceTimestampsR (rnd : ℚ → ℚ) (ts : List ℚ) (start duration : Option ℚ) : Except PyErr (List ℚ) := do
  let ts ← match start with
    | some s => pure ((ts.map (fun t => rnd (t - s))).filter (fun t => decide (0 ≤ t)))
    | none => match ts with
      | [] => .error .indexError
      | t0 :: _ => pure (ts.map (fun t => rnd (t - t0)))
  match duration with
  | none => return ts
  | some d =>
    if ts = [] then .error .indexError
    else return ts.filter (fun t => decide (t < d))

/-- `normalize_timestamps`, utils.py:413-426, with rounded operations: `skip*1e9` is a Python float. -/
def normalizeTimestampsR (rnd rndA : ℚ → ℚ) (T : List (List ℚ)) (skip : ℚ) (preserveRelative : Bool) :
    Except PyErr (List (List ℚ)) := do
  let T ← if preserveRelative then pure T else T.mapM (fun ts => sliceTimestampsR rndA ts none none)
  let firsts ← T.mapM (fun ts => match ts with
    | [] => (.error .indexError : Except PyErr ℚ)
    | t :: _ => .ok t)
  match firsts with
  | [] => .error .valueError
  | f :: fs =>
    let startTime := rndA (fs.foldl max f + rnd (skip * 10 ^ 9))
    T.mapM (fun ts => sliceTimestampsR rndA ts (some startTime) none)

end Fp
