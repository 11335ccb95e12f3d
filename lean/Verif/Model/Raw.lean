import Verif.Model.Py
import Verif.Model.Float

/-!
# Model of `src/fpfind/lib/parse_timestamps.py`: readers and writers

Binary files are `List UInt8`; text files are `List Char` (after Python's universal-newline translation).
`fw` is the width of `np_float` (lines 67-73): 64 for `np.float128` on x86-64, 53 for the `float64` fallback.
-/
namespace Fp

/-- `TSRES`, src/fpfind/lib/constants.py:3-11. -/
inductive Tsres
  | ns1
  | ps125
  | ps4
  deriving DecidableEq, Repr

/-- `TSRES.value`: units per nanosecond, constants.py:9-11. -/
def Tsres.value : Tsres → Nat
  | .ns1 => 1
  | .ps125 => 8
  | .ps4 => 256

/-- An element of a numpy array of dtype `uint64` or of a floating dtype. -/
inductive Num
  | u64 (n : Nat)
  | flt (q : ℚ)
  deriving DecidableEq

/-- The number an array element denotes. -/
def Num.val : Num → ℚ
  | .u64 n => (n : ℚ)
  | .flt q => q

/-- `.astype(np.uint64)` / `np.array(.., dtype=np.uint64)` of an element: truncation.  Only meaningful for values in
`[0, 2^64)`; outside, the C conversion is undefined and the model's answer is arbitrary. -/
def Num.toU64 : Num → Nat
  | .u64 n => n
  | .flt q => ⌊q⌋.toNat % 2 ^ 64

/-- `_format_timestamps` on one element, parse_timestamps.py:273-279.  `256/res` is exact in floating point. -/
def formatTimestamp (fw : Nat) (res : Tsres) (fractional : Bool) (t : Num) : Num :=
  if fractional then .flt (fl fw (fl fw t.val / ((Tsres.ps4.value : ℚ) / res.value)))
  else if res ≠ .ps4 then .u64 (t.toU64 / (Tsres.ps4.value / res.value))
  else t

/-- `(np.uint64(high) << 22) + (low >> 10)` on uint64/uint32 arrays, parse_timestamps.py:125,195: wraps modulo 2^64. -/
def rawTime (high low : Nat) : Nat :=
  ((high <<< 22) % 2 ^ 64 + (low >>> 10)) % 2 ^ 64

/-- Positions of the words in a row, parse_timestamps.py:121-122,186-187: returns `(high, low)`. -/
def rowWords (legacy : Bool) (row : Nat × Nat) : Nat × Nat :=
  if legacy then (row.1, row.2) else (row.2, row.1)

/-- One row of an a1 array decoded, parse_timestamps.py:125-127 and 195-197. -/
def decodeRow (fw : Nat) (legacy : Bool) (res : Tsres) (fractional : Bool) (row : Nat × Nat) : Num × Nat :=
  let hl := rowWords legacy row
  (formatTimestamp fw res fractional (.u64 (rawTime hl.1 hl.2)), hl.2 &&& 0xF)

/-- `read_a1`, parse_timestamps.py:114-128 (events as pairs instead of two parallel arrays). -/
def readA1 (fw : Nat) (legacy : Bool) (res : Tsres) (fractional : Bool) (file : Bytes) :
    Except PyErr (List (Num × Nat)) := do
  let data ← reshape2 (words32 file)
  return data.map (decodeRow fw legacy res fractional)

/-- One buffer of `sread_a1`, parse_timestamps.py:194-198. -/
def decodeBuffer (fw : Nat) (legacy : Bool) (res : Tsres) (fractional : Bool) (buffer : Bytes) :
    Except PyErr (List (Num × Nat)) := do
  let data ← reshape2 (← frombuffer32 buffer)
  return data.map (decodeRow fw legacy res fractional)

/-- The generator loop shared by `sread_a0/a1/a2` (parse_timestamps.py:189-198, 214-224, 240-250): read `chunk` units,
stop on an empty read, otherwise yield the decoded buffer.  Result: the batches yielded, and the exception (if any) that
ended the generator. -/
def streamLoop {α β : Type} (decode : List α → Except PyErr β) (chunk : Nat) (file : List α) :
    List β × Option PyErr :=
  if _h : file.take chunk = [] then ([], none)
  else
    match decode (file.take chunk) with
    | .error e => ([], some e)
    | .ok b =>
      let r := streamLoop decode chunk (file.drop chunk)
      (b :: r.1, r.2)
termination_by file.length
decreasing_by
  simp only [List.take_eq_nil_iff, not_or] at _h
  simp only [List.length_drop]
  have : 0 < file.length := List.length_pos_iff.mpr _h.2
  omega

/-- `num_batches`, parse_timestamps.py:201, 227, 253, with Python's floor division (`unit` = bytes per event). -/
def numBatches (size bufferSize unit : Nat) : Int :=
  Int.fdiv ((size : Int) - 1) ((bufferSize * unit : Nat) : Int) + 1

/-- `sread_a1`, parse_timestamps.py:144-202: the batches, the terminating exception, and `num_batches`. -/
def sreadA1 (fw : Nat) (legacy : Bool) (res : Tsres) (fractional : Bool) (bufferSize : Nat) (file : Bytes) :
    (List (List (Num × Nat)) × Option PyErr) × Int :=
  (streamLoop (decodeBuffer fw legacy res fractional) (bufferSize * 8) file, numBatches file.length bufferSize 8)

/-! ## Text readers -/

/-- numpy's dtype for `np.array` of Python integers: `int64` if all fit, `uint64` if all need/fit it, `float64` if mixed
(promotion of int64 and uint64), `object` otherwise. -/
inductive IntDtype
  | int64
  | uint64
  | float64
  | object
  deriving DecidableEq, Repr

/-- dtype discovery of `np.array([int, ...])` (numpy runtime behaviour). The empty list gives `float64`. -/
def discoverDtype (xs : List Int) : IntDtype :=
  if xs = [] then .float64
  else if xs.any (fun x => decide (x < -2 ^ 63 ∨ 2 ^ 64 ≤ x)) then .object
  else if xs.all (fun x => decide (x < 2 ^ 63)) then .int64
  else if xs.all (fun x => decide (2 ^ 63 ≤ x)) then .uint64
  else .float64

/-- `[int(v,16) for v in data]`, parse_timestamps.py:108,138,220,246. -/
def parseAllHex : List (List Char) → Except PyErr (List Int)
  | [] => .ok []
  | l :: ls => match pyInt16 l with
    | none => .error .valueError
    | some v => do
      let vs ← parseAllHex ls
      return v :: vs

/-- The characters that `np.genfromtxt` removes around a line (`line.strip(" \r\n")`). -/
def isLineSpace (c : Char) : Bool := c = ' ' ∨ c = '\r' ∨ c = '\n'

/-- A line without its comment: `np.genfromtxt` ignores everything from `#` on (`comments="#"`). -/
def dropComment (l : List Char) : List Char := l.takeWhile (fun c => c ≠ '#')

/-- `np.genfromtxt(filename, delimiter="\n", dtype="U<w>")`: the lines without comments that are not blank, truncated to `w`
characters; iterating over the result of a one-line file raises `TypeError` (0-d array). -/
def genfromtxt (w : Nat) (file : List Char) : Except PyErr (List (List Char)) :=
  let lines := ((splitNl file).map (fun l => stripBy isLineSpace (dropComment l))).filter (fun l => l ≠ [])
  match lines with
  | [_] => .error .typeError
  | ls => .ok (ls.map (List.take w))

/-- One row of an a0 array, parse_timestamps.py:109-111 and 221-223.  `data` is an int64 array, so
`np.uint64(..) + (int64 >> 10)` is computed in float64: the sum is rounded to 53 bits. -/
def decodeRowA0 (fw : Nat) (res : Tsres) (fractional : Bool) (row : Int × Int) : Num × Nat :=
  let t : ℚ := fl 53 (fl 53 (((row.2.toNat <<< 22) % 2 ^ 64 : Nat) : ℚ) + fl 53 ((row.1.toNat >>> 10 : Nat) : ℚ))
  (formatTimestamp fw res fractional (.flt t), row.1.toNat &&& 0xF)

/-- Rows of the a0 array after `np.array(...).reshape(-1, 2)`, parse_timestamps.py:108-112 and 220-224.  A float64 array
(empty input) makes `>>` raise `TypeError`.  Values come from 8-digit fields, so they are int64 in practice; any other
dtype or a negative number is outside of the model and reported as `TypeError`. -/
def decodeA0 (fw : Nat) (res : Tsres) (fractional : Bool) (lines : List (List Char)) :
    Except PyErr (List (Num × Nat)) := do
  let vals ← parseAllHex lines
  let rows ← reshape2 vals
  if discoverDtype vals = .int64 ∧ vals.all (fun v => decide (0 ≤ v)) then
    return rows.map (decodeRowA0 fw res fractional)
  else .error .typeError

/-- `read_a0`, parse_timestamps.py:81-112. -/
def readA0 (fw : Nat) (res : Tsres) (fractional : Bool) (file : List Char) : Except PyErr (List (Num × Nat)) := do
  decodeA0 fw res fractional (← genfromtxt 8 file)

/-- Elements of the a2 array, parse_timestamps.py:138-142 and 246-250: int64 or uint64 arrays support `>>` and `&`,
float64 (mixed or empty) raises `TypeError`.  Negative values and `object` arrays are outside of the model and reported
as `TypeError`. -/
def decodeA2 (fw : Nat) (res : Tsres) (fractional : Bool) (lines : List (List Char)) :
    Except PyErr (List (Num × Nat)) := do
  let vals ← parseAllHex lines
  if (discoverDtype vals = .int64 ∨ discoverDtype vals = .uint64) ∧ vals.all (fun v => decide (0 ≤ v)) then
    return vals.map fun v => (formatTimestamp fw res fractional (.u64 (v.toNat >>> 10)), v.toNat &&& 0xF)
  else .error .typeError

/-- `read_a2`, parse_timestamps.py:130-142. -/
def readA2 (fw : Nat) (res : Tsres) (fractional : Bool) (file : List Char) : Except PyErr (List (Num × Nat)) := do
  decodeA2 fw res fractional (← genfromtxt 16 file)

/-- `sread_a0`, parse_timestamps.py:204-228. -/
def sreadA0 (fw : Nat) (res : Tsres) (fractional : Bool) (bufferSize : Nat) (file : List Char) :
    (List (List (Num × Nat)) × Option PyErr) × Int :=
  (streamLoop (fun buffer => decodeA0 fw res fractional (splitNl (strip buffer))) (bufferSize * 18) file,
    numBatches file.length bufferSize 18)

/-- `sread_a2`, parse_timestamps.py:230-254. -/
def sreadA2 (fw : Nat) (res : Tsres) (fractional : Bool) (bufferSize : Nat) (file : List Char) :
    (List (List (Num × Nat)) × Option PyErr) × Int :=
  (streamLoop (fun buffer => decodeA2 fw res fractional (splitNl (strip buffer))) (bufferSize * 17) file,
    numBatches file.length bufferSize 17)

/-! ## Writers -/

/-- One element of `_consolidate_events`, parse_timestamps.py:303-304 (uint64 arithmetic wraps modulo 2^64). -/
def consolidate (fw : Nat) (res : Tsres) (e : Num × Nat) : Nat :=
  ((((Num.flt (fl fw (fl fw e.1.val * ((Tsres.ps4.value / res.value : Nat) : ℚ)))).toU64 <<< 10) % 2 ^ 64)
    + e.2 % 2 ^ 64) % 2 ^ 64

/-- `_consolidate_events`, parse_timestamps.py:287-307, with its `sort` argument (no caller in the repository sets it).
Model restriction: `t` and `p` come as pairs, i.e. have equal length. -/
def consolidateEvents (fw : Nat) (res : Tsres) (sort : Bool) (events : List (Num × Nat)) : List Nat :=
  let data := events.map (consolidate fw res)
  if sort then data.mergeSort (fun a b => decide (a ≤ b)) else data

/-- The word swap of the legacy format, parse_timestamps.py:328,363. -/
def swapWords (line : Nat) : Nat := ((line &&& 0xFFFFFFFF) <<< 32) + (line >>> 32)

/-- One event of `write_a1`, parse_timestamps.py:327-329. `struct.pack` cannot fail: the value is a uint64. -/
def encodeA1 (legacy : Bool) (line : Nat) : Bytes :=
  leBytes 8 (if legacy then swapWords line else line)

/-- `write_a1`, parse_timestamps.py:323-329: the contents of the file. -/
def writeA1 (fw : Nat) (legacy : Bool) (res : Tsres) (events : List (Num × Nat)) : Bytes :=
  (consolidateEvents fw res false events).flatMap (encodeA1 legacy)

/-- `write_a2`, parse_timestamps.py:309-313. -/
def writeA2 (fw : Nat) (res : Tsres) (events : List (Num × Nat)) : List Char :=
  (consolidateEvents fw res false events).flatMap fun line => hexPad 16 line ++ ['\n']

/-- `write_a0`, parse_timestamps.py:315-321: low word line, then high word line. -/
def writeA0 (fw : Nat) (res : Tsres) (events : List (Num × Nat)) : List Char :=
  (consolidateEvents fw res false events).flatMap fun line =>
    hexPad 8 (line &&& 0xFFFFFFFF) ++ ['\n'] ++ (hexPad 8 (line >>> 32) ++ ['\n'])

/-- `swrite_a1`, parse_timestamps.py:331-364: the contents of the file after the whole stream (progress bar not
modelled). -/
def swriteA1 (fw : Nat) (legacy : Bool) (res : Tsres) (stream : List (List (Num × Nat))) : Bytes :=
  stream.foldl (fun f batch => f ++ (consolidateEvents fw res false batch).flatMap (encodeA1 legacy)) []

/-- `swrite_a0`, parse_timestamps.py:366-383. -/
def swriteA0 (fw : Nat) (res : Tsres) (stream : List (List (Num × Nat))) : List Char :=
  stream.foldl (fun f batch => f ++ (consolidateEvents fw res false batch).flatMap fun line =>
    hexPad 8 (line &&& 0xFFFFFFFF) ++ ['\n'] ++ (hexPad 8 (line >>> 32) ++ ['\n'])) []

/-- `swrite_a2`, parse_timestamps.py:385-400. -/
def swriteA2 (fw : Nat) (res : Tsres) (stream : List (List (Num × Nat))) : List Char :=
  stream.foldl (fun f batch => f ++ (consolidateEvents fw res false batch).flatMap fun line =>
    hexPad 16 line ++ ['\n']) []

end Fp
