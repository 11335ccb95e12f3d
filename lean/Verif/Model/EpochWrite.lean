import Verif.Model.Epoch

/-!
# Model of `write_T1` for the element types of its argument

`Model/Epoch.lean` has `write_T1` for Python integers.  Here the timestamps can be elements of numpy arrays, with the rules of
numpy 1 (pyproject.toml asks for `numpy ^1.24.1`) on a platform where a Python integer becomes `int64`.
-/
namespace Fp

/-- A timestamp given to `write_T1`: a Python integer or an element of an array of `object`, `int64`, `uint64` or floats. -/
inductive TsElem
  | py (n : Int)
  | i64 (n : Int)
  | u64 (n : Nat)
  | flt (q : ℚ)

/-- The result of an `int64` operation, which wraps around. -/
def wrap64 (n : Int) : Int := Int.bmod n (2 ^ 64)

/-- One event of `write_T1`, parse_epochs.py:409-413.  For `uint64` the sum with a Python integer is a `float64`, for which
`<<` raises `TypeError`, as for floats.  For `int64` the sum, the shift and the sum with `int(detector)` (assumed to fit into
an `int64`) wrap around, and `pack` raises `struct.error` for the negative `event >> 32`. -/
def t1EventNp (timestampEpoch : Int) (timestamp : TsElem) (detector : Int) : Except PyErr Bytes :=
  match timestamp with
  | .py t => t1Event timestampEpoch t detector
  | .i64 t =>
    let event := wrap64 (wrap64 (wrap64 (timestampEpoch + t) * 2 ^ 10) + detector)
    if 0 ≤ event then .ok (leBytes 4 (event.toNat / 2 ^ 32) ++ leBytes 4 (event.toNat % 2 ^ 32))
    else .error .structError
  | .u64 _ => .error .typeError
  | .flt _ => .error .typeError

/-- The event loop of `write_T1`, parse_epochs.py:408-413: bytes written and the exception that ended it. -/
def t1EventsNp (timestampEpoch : Int) : List (TsElem × Int) → Bytes × Option PyErr
  | [] => ([], none)
  | (t, d) :: rest =>
    match t1EventNp timestampEpoch t d with
    | .error e => ([], some e)
    | .ok b =>
      let r := t1EventsNp timestampEpoch rest
      (b ++ r.1, r.2)

/-- `write_T1`, parse_epochs.py:388-418, as `writeT1`. -/
def writeT1Np (fullEpoch : Int) (timestamps : List TsElem) (detectors : Detectors) :
    Except PyErr (List Char × Bytes × Option PyErr) :=
  let epoch := (fullEpoch % 2 ^ 32).toNat
  let name := hexOf epoch
  let body (ds : List Int) : List Char × Bytes × Option PyErr :=
    if timestamps.length < 2 ^ 32 then
      let header := leBytes 4 0x101 ++ leBytes 4 epoch ++ leBytes 4 timestamps.length ++ leBytes 4 49 ++ leBytes 4 4
      let timestampEpoch : Int := (((epoch &&& ((1 <<< 17) - 1)) <<< (32 + 5) : Nat) : Int)
      let r := t1EventsNp timestampEpoch (timestamps.zip ds)
      match r.2 with
      | some e => (name, header ++ r.1, some e)
      | none => (name, header ++ r.1 ++ (leBytes 4 0 ++ leBytes 4 0), none)
    else (name, [], some .structError)
  match detectors with
  | .scalar d => .ok (body (List.replicate timestamps.length d))
  | .list ds => if ds.length ≠ timestamps.length then .error .valueError else .ok (body ds)

/-- The elements of the arrays returned by `read_a1` as arguments of `write_T1`. -/
def Num.elem : Num → TsElem
  | .u64 n => .u64 n
  | .flt q => .flt q

/-- The elements of the arrays returned by `read_T1` as arguments of `write_T1`. -/
def ENum.elem : ENum → TsElem
  | .obj n => .py n
  | .u64 n => .u64 n
  | .flt q => .flt q

end Fp
