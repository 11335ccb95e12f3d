import Verif.Model.Raw

/-!
# Model of `src/fpfind/lib/parse_timestamps.py`: filters, statistics and the conversion command
-/
namespace Fp

/-- Boolean-mask indexing `a[mask]` of numpy arrays (equal lengths). -/
def select {α : Type} : List Bool → List α → List α
  | true :: ms, x :: xs => x :: select ms xs
  | false :: ms, _ :: xs => select ms xs
  | _, _ => []

/-- `get_pattern_mask`, parse_timestamps.py:526-599.  `pattern` is non-negative here. -/
def getPatternMask (p : List Nat) (pattern : Nat) (mask invert : Bool) : List Bool × List Nat :=
  if !mask then
    let pmask := p.map (fun x => decide (x = pattern))
    let pmask := if invert then pmask.map (fun b => !b) else pmask
    (pmask, select pmask p)
  else if !invert then
    let p' := p.map (fun x => x &&& pattern)
    let pmask := p'.map (fun x => decide (x ≠ 0))
    (pmask, select pmask p')
  else
    let p' := p.map (fun x => if x = 0 then 16 else x)
    let p' := p'.map (fun x => x ^^^ (x &&& pattern))
    let pmask := p'.map (fun x => decide (x ≠ 0))
    (pmask, (select pmask p').map (fun x => if x = 16 then 0 else x))

/-- The number used when a numpy scalar is compared with a Python float: a `uint64` is converted to `float64` (rounded to
53 bits), a `float64`/`float128` is compared exactly (numpy runtime behaviour). -/
def Num.cmp : Num → ℚ
  | .u64 n => fl 53 (n : ℚ)
  | .flt q => q

/-- `bisect.bisect_left(t, x)` on `t[lo:hi]` (CPython, binary search). -/
def bisectLeft (t : List Num) (x : ℚ) (lo hi : Nat) : Nat :=
  if h : lo < hi then
    let mid := (lo + hi) / 2
    if (t[mid]?.map Num.cmp).getD 0 < x then bisectLeft t x (mid + 1) hi else bisectLeft t x lo mid
  else lo
termination_by hi - lo
decreasing_by all_goals omega

/-- `bisect.bisect_right(t, x)` on `t[lo:hi]` (CPython, binary search). -/
def bisectRight (t : List Num) (x : ℚ) (lo hi : Nat) : Nat :=
  if h : lo < hi then
    let mid := (lo + hi) / 2
    if x < (t[mid]?.map Num.cmp).getD 0 then bisectRight t x lo mid else bisectRight t x (mid + 1) hi
  else lo
termination_by hi - lo
decreasing_by all_goals omega

/-- `start *= (1e9 * resolution.value)`, parse_timestamps.py:662,672: a bound in seconds converted to the unit of the
timestamps, in float64. -/
def boundIn (res : Tsres) (s : ℚ) : ℚ := fl 53 (s * fl 53 (1000000000 * res.value))

/-- `mask[i:j] = True` on a mask of `n` zeros, parse_timestamps.py:677. -/
def sliceMask (n i j : Nat) : List Bool := (List.range n).map fun k => decide (i ≤ k ∧ k < j)

/-- `get_timing_mask`, parse_timestamps.py:601-678; `start`/`end` are the command-line floats in seconds. -/
def getTimingMask (t : List Num) (start stop : Option ℚ) (res : Tsres) : List Bool :=
  match t with
  | [] => []
  | t0 :: ts =>
    let tl := (t0 :: ts).getLast (by simp)
    let n := (t0 :: ts).length
    -- lines 658-665
    let tooHigh := match start with
      | none => decide (tl.val < t0.val)
      | some s => decide (tl.cmp < boundIn res s)
    if tooHigh then List.replicate n false
    else
      let i := match start with
        | none => 0
        | some s => bisectLeft (t0 :: ts) (boundIn res s) 0 n
      -- lines 668-675
      let tooLow := match stop with
        | none => decide (tl.val < t0.val)
        | some e => decide (boundIn res e < t0.cmp)
      if tooLow then List.replicate n false
      else
        let j := match stop with
          | none => n
          | some e => bisectRight (t0 :: ts) (boundIn res e) 0 n
        sliceMask n i j

/-- The command-line filter options, parse_timestamps.py:696-700. -/
structure FilterArgs where
  pattern : Option Nat
  mask : Bool
  invert : Bool
  start : Option ℚ
  stop : Option ℚ

/-- `event_filter`, parse_timestamps.py:735-743. Events are kept as two parallel lists. -/
def eventFilter (a : FilterArgs) (res : Tsres) (t : List Num) (p : List Nat) : List Num × List Nat :=
  let tp := match a.pattern with
    | none => (t, p)
    | some pat =>
      let mp := getPatternMask p pat a.mask a.invert
      (select mp.1 t, mp.2)
  if a.start.isSome ∨ a.stop.isSome then
    let m := getTimingMask tp.1 a.start a.stop res
    (select m tp.1, select m tp.2)
  else tp

/-- One batch through `inline_filter`, parse_timestamps.py:745-747. -/
def filterBatch (a : FilterArgs) (res : Tsres) (batch : List (Num × Nat)) : List (Num × Nat) :=
  let tp := eventFilter a res (batch.map Prod.fst) (batch.map Prod.snd)
  tp.1.zip tp.2

/-- The streaming conversion of an a1 file to an a1 file, parse_timestamps.py:769-773 (`bufferSize` is 100_000 there).
Result: file contents written, and the exception that ended the run, if any. -/
def convertStream (fw : Nat) (a : FilterArgs) (legacyIn legacyOut : Bool) (bufferSize : Nat) (file : Bytes) :
    Bytes × Option PyErr :=
  let s := (sreadA1 fw legacyIn .ps4 false bufferSize file).1
  (swriteA1 fw legacyOut .ps4 (s.1.map (filterBatch a .ps4)), s.2)

/-- The `--inmemory` conversion of an a1 file to an a1 file, parse_timestamps.py:750-756 (1 ns fractional). -/
def convertInMemory (fw : Nat) (a : FilterArgs) (legacyIn legacyOut : Bool) (file : Bytes) : Except PyErr Bytes := do
  let evs ← readA1 fw legacyIn .ns1 true file
  return writeA1 fw legacyOut .ns1 (filterBatch a .ns1 evs)

/-! ## Statistics -/

/-- The arguments of `print_statistics_report` (what is printed), parse_timestamps.py:480-492. -/
structure Report where
  numEvents : Nat
  ch1 : Nat
  ch2 : Nat
  ch3 : Nat
  ch4 : Nat
  multi : Nat
  non : Nat
  start : Option ℚ
  stop : Option ℚ
  patterns : List Nat
  deriving DecidableEq

/-- `count(p & bit != 0)`, parse_timestamps.py:420-423, 452-455. -/
def countBit (bit : Nat) (p : List Nat) : Nat := (p.filter fun x => decide (x &&& bit ≠ 0)).length

/-- `count(np.isin(p, (0, 1, 2, 4, 8), invert=True))`, parse_timestamps.py:424, 456. -/
def countMulti (p : List Nat) : Nat := (p.filter fun x => !([0, 1, 2, 4, 8].contains x)).length

/-- `count(p == 0)`, parse_timestamps.py:425, 457. -/
def countNone (p : List Nat) : Nat := (p.filter fun x => decide (x = 0)).length

/-- `sorted(set)` of small integers. -/
def sortedList (xs : List Nat) : List Nat := xs.mergeSort (fun a b => decide (a ≤ b))

/-- `set_p.update(np.unique(p))`, parse_timestamps.py:458: a set as a duplicate-free list. -/
def setUpdate (s : List Nat) (p : List Nat) : List Nat := s.union (sortedList p.dedup)

/-- `print_statistics`, parse_timestamps.py:408-429: `IndexError` (`t[0]`) for an empty array. -/
def printStatistics (events : List (Num × Nat)) : Except PyErr Report :=
  let t := events.map Prod.fst
  let p := events.map Prod.snd
  match t.head?, t.getLast? with
  | some t0, some tl => .ok
    { numEvents := t.length, ch1 := countBit 1 p, ch2 := countBit 2 p, ch3 := countBit 4 p, ch4 := countBit 8 p,
      multi := countMulti p, non := countNone p, start := some t0.val, stop := some tl.val,
      patterns := sortedList p.dedup }
  | _, _ => .error .indexError

/-- `t[0] / resolution.value`, parse_timestamps.py:463-464: a `uint64` divided by a Python int is a float64, a
`float128` stays one (`fw` bits). -/
def toNs (fw : Nat) (res : Tsres) (t : Num) : ℚ :=
  match t with
  | .u64 n => fl 53 (fl 53 (n : ℚ) / res.value)
  | .flt q => fl fw (q / res.value)

/-- One iteration of the loop of `print_statistics_stream`, parse_timestamps.py:450-464. -/
def statStep (fw : Nat) (res : Tsres) (r : Report) (batch : List (Num × Nat)) : Report :=
  let t := batch.map Prod.fst
  let p := batch.map Prod.snd
  { numEvents := r.numEvents + p.length
    ch1 := r.ch1 + countBit 1 p, ch2 := r.ch2 + countBit 2 p, ch3 := r.ch3 + countBit 4 p, ch4 := r.ch4 + countBit 8 p
    multi := r.multi + countMulti p, non := r.non + countNone p
    start := match t.head? with
      | some t0 => (match r.start with | none => some (toNs fw res t0) | some s => some s)
      | none => r.start
    stop := match t.getLast? with
      | some tl => some (toNs fw res tl)
      | none => r.stop
    patterns := setUpdate r.patterns p }

/-- `print_statistics_stream`, parse_timestamps.py:431-478: the report handed to the printer. -/
def printStatisticsStream (fw : Nat) (res : Tsres) (stream : List (List (Num × Nat))) : Report :=
  let r := stream.foldl (statStep fw res)
    { numEvents := 0, ch1 := 0, ch2 := 0, ch3 := 0, ch4 := 0, multi := 0, non := 0, start := none, stop := none,
      patterns := [] }
  { r with patterns := sortedList r.patterns }

/-- `print_statistics_report`, parse_timestamps.py:498-518, reduced to the computed values and possible failures: the duration
and the event rate (the quotient of `//` is exact before the floor), or
`OverflowError` from `int(num_events//duration)` when the duration is zero (numpy gives `inf`), or `TypeError` if the
times are missing.  `num_events == 0` prints only the total. Float width `w` of the times. -/
def printReport (w : Nat) (r : Report) : Except PyErr (Option (ℚ × ℤ)) :=
  if r.numEvents = 0 then .ok none
  else match r.start, r.stop with
    | some s, some e =>
      let duration := fl w (fl w (e - s) * fl 53 (1 / 1000000000))
      if duration = 0 then .error .overflowError else .ok (some (duration, ⌊(r.numEvents : ℚ) / duration⌋))
    | _, _ => .error .typeError

end Fp
