import Verif.Model.Raw

/-! # Model of `src/fpfind/lib/generate_freqdetuneg2.py` -/
namespace Fp

/-- `detune`, generate_freqdetuneg2.py:28-40, on timestamps as `read_a1` returns them (`float128`): every array operation is
rounded to 64 bits, `1+ratio` to 53.  `t[0]` of an empty array raises `IndexError`. -/
def detune (ratio offset : ℚ) (channel : Nat) (events : List (Num × Nat)) : Except PyErr (List (Num × Nat)) :=
  match events with
  | [] => .error .indexError
  | e0 :: _ =>
    .ok ((events.filter fun e => decide (e.2 = channel)).map fun e =>
      (.flt (fl 64 (fl 64 (fl 64 (fl 64 (e.1.val - e0.1.val) * fl 53 (1 + ratio)) + e0.1.val) + offset)), e.2))

/-- The files written by generate_freqdetuneg2.py:42-50 for the file read in line 25: the events of channel 1 as text, and
those of channel 4 (pattern 8) detuned by 1e-10, …, 1e-3. -/
def detuneScript (file : Bytes) : Except PyErr (List Char × List Bytes) := do
  let events ← readA1 64 true .ns1 true file
  let c1 := writeA2 64 .ns1 (events.filter fun e => decide (e.2 = 1))
  let c4 ← [10, 9, 8, 7, 6, 5, 4, 3].mapM fun k : Nat => do
    let d ← detune (fl 53 (1 / 10 ^ k)) 0 8 events
    return writeA1 64 true .ns1 d
  return (c1, c4)

end Fp
