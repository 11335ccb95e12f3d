import Verif.Model.Raw

/-!
# Model of `src/fpfind/lib/parse_epochs.py`

Files are `List UInt8`.  File names and the warnings/debug messages that depend on them (lines 63-66, 74-77, 85-88,
95-98, 465-466, 485-486 and the `logging.debug` calls) are not modelled here: they change no result.  The warnings of the
header readers are in Model/EpochHead.

A `while True` loop is a step function iterated with `runLoop`; `none` means "still running after `fuel` iterations", so
"the loop never ends" is expressible.
-/
namespace Fp

/-- Iterates a loop body: `.inl` goes on with a new state, `.inr` leaves the loop. -/
def runLoop {σ ρ : Type} (step : σ → σ ⊕ ρ) : Nat → σ → Option ρ
  | 0, _ => none
  | n + 1, s => match step s with
    | .inl s' => runLoop step n s'
    | .inr r => some r

/-- An element of the arrays returned by the epoch readers: Python int in an object array, `uint64`, or `float128`. -/
inductive ENum
  | obj (n : Nat)
  | u64 (n : Nat)
  | flt (q : ℚ)
  deriving DecidableEq

/-- The number an element denotes. -/
def ENum.val : ENum → ℚ
  | .obj n => (n : ℚ)
  | .u64 n => (n : ℚ)
  | .flt q => q

/-- Bytes `4*i .. 4*i+3` of a header. -/
def headWord (h : Bytes) (i : Nat) : Nat := leNat ((h.drop (4 * i)).take 4)

/-- `HeadT1`, parse_epochs.py:26-31. -/
structure HeadT1 where
  tag : Int
  epoch : Nat
  length : Nat
  bitsPerEntry : Int
  baseBits : Int

/-- `read_T1_header`, parse_epochs.py:58-67: `unpack('iIIii', f.read(20))`. -/
def readT1Header (file : Bytes) : Except PyErr HeadT1 :=
  let h := file.take 20
  if h.length = 20 then
    .ok { tag := toSigned32 (headWord h 0), epoch := headWord h 1, length := headWord h 2,
          bitsPerEntry := toSigned32 (headWord h 3), baseBits := toSigned32 (headWord h 4) }
  else .error .structError

/-- `HeadT2`, parse_epochs.py:33-39. -/
structure HeadT2 where
  tag : Int
  epoch : Nat
  length : Nat
  timeorder : Int
  baseBits : Int
  protocol : Int

/-- `read_T2_header`, parse_epochs.py:69-78: `unpack('iIIiii', f.read(24))`. -/
def readT2Header (file : Bytes) : Except PyErr HeadT2 :=
  let h := file.take 24
  if h.length = 24 then
    .ok { tag := toSigned32 (headWord h 0), epoch := headWord h 1, length := headWord h 2,
          timeorder := toSigned32 (headWord h 3), baseBits := toSigned32 (headWord h 4),
          protocol := toSigned32 (headWord h 5) }
  else .error .structError

/-- `HeadT3`, parse_epochs.py:41-45. -/
structure HeadT3 where
  tag : Int
  epoch : Nat
  length : Nat
  bitsPerEntry : Int

/-- `read_T3_header`, parse_epochs.py:80-89: `unpack('iIIi', f.read(16))`. -/
def readT3Header (file : Bytes) : Except PyErr HeadT3 :=
  let h := file.take 16
  if h.length = 16 then
    .ok { tag := toSigned32 (headWord h 0), epoch := headWord h 1, length := headWord h 2,
          bitsPerEntry := toSigned32 (headWord h 3) }
  else .error .structError

/-- `HeadT4`, parse_epochs.py:47-52. -/
structure HeadT4 where
  tag : Nat
  epoch : Nat
  length : Nat
  timeorder : Nat
  baseBits : Nat

/-- `read_T4_header`, parse_epochs.py:91-100: `unpack('IIIII', f.read(20))`. -/
def readT4Header (file : Bytes) : Except PyErr HeadT4 :=
  let h := file.take 20
  if h.length = 20 then
    .ok { tag := headWord h 0, epoch := headWord h 1, length := headWord h 2, timeorder := headWord h 3,
          baseBits := headWord h 4 }
  else .error .structError

/-- `round(np.log2(a/b))` for the powers of two `a ≥ b` of `TSRES`, parse_epochs.py:228,368,376. -/
def bitdiff (a b : Nat) : Nat := Nat.log2 (a / b)

/-! ## T1 -/

/-- Loop state of `read_T1`: the unread rest of the file and the `timestamps`/`bases` lists (as pairs, in order). -/
structure T1State where
  rest : Bytes
  acc : List (Nat × Nat)

/-- One iteration of the loop of `read_T1`, parse_epochs.py:186-202.  At the end of the file `f.read(4)` returns fewer
than four bytes, and `int.from_bytes(b"")` is 0. -/
def t1Step (s : T1State) : T1State ⊕ List (Nat × Nat) :=
  let eventHigh := s.rest.take 4
  let eventLow := (s.rest.drop 4).take 4
  let value := (leNat eventHigh <<< 32) + leNat eventLow
  if value = 0 then .inr s.acc
  else .inl { rest := s.rest.drop 8, acc := s.acc ++ [(value >>> 10, value &&& 0xF)] }

/-- The conversion at the end of `read_T1` for one timestamp, parse_epochs.py:208-235. -/
def t1Convert (epoch : Nat) (fullEpoch : Bool) (res : Tsres) (fractional : Bool) (t : Nat) : ENum :=
  let epochMsb := epoch >>> 17
  if fractional then
    let ratio : ℚ := (Tsres.ps4.value : ℚ) / res.value
    let ts := fl 64 (fl 64 (t : ℚ) / ratio)
    let em := fl 64 (fl 64 ((epochMsb <<< 54 : Nat) : ℚ) / ratio)
    .flt (if fullEpoch then fl 64 (ts + em) else ts)
  else if res = .ps4 ∧ fullEpoch then
    .obj (t + (epochMsb <<< 54))
  else
    let bd := bitdiff Tsres.ps4.value res.value
    let ts := t >>> bd
    let em := (epochMsb <<< (54 - bd)) % 2 ^ 64
    .u64 (if fullEpoch then (ts + em) % 2 ^ 64 else ts)

/-- `read_T1`, parse_epochs.py:142-237, with `fuel` loop iterations. -/
def readT1 (fuel : Nat) (fullEpoch : Bool) (res : Tsres) (fractional : Bool) (file : Bytes) :
    Option (Except PyErr (List (ENum × Nat))) :=
  match readT1Header file with
  | .error e => some (.error e)
  | .ok header =>
    match runLoop t1Step fuel { rest := file.drop 20, acc := [] } with
    | none => none
    | some events =>
      if header.length ≠ 0 ∧ events.length ≠ header.length then some (.error .valueError)
      else some (.ok (events.map fun e => (t1Convert header.epoch fullEpoch res fractional e.1, e.2)))

/-- The `detectors` argument of `write_T1`: a single value or a list. -/
inductive Detectors
  | scalar (d : Int)
  | list (ds : List Int)

/-- One event of `write_T1`, parse_epochs.py:409-413: `pack("<II", ...)` raises `struct.error` if the event is negative
or needs more than 64 bits.  Timestamps are Python integers; other elements are in `Model/EpochWrite.lean`. -/
def t1Event (timestampEpoch timestamp detector : Int) : Except PyErr Bytes :=
  let event := (timestampEpoch + timestamp) * 2 ^ 10 + detector
  if 0 ≤ event ∧ event < 2 ^ 64 then
    .ok (leBytes 4 (event.toNat / 2 ^ 32) ++ leBytes 4 (event.toNat % 2 ^ 32))
  else .error .structError

/-- The event loop of `write_T1`, parse_epochs.py:408-413: bytes written and the exception that ended it. -/
def t1Events (timestampEpoch : Int) : List (Int × Int) → Bytes × Option PyErr
  | [] => ([], none)
  | (t, d) :: rest =>
    match t1Event timestampEpoch t d with
    | .error e => ([], some e)
    | .ok b =>
      let r := t1Events timestampEpoch rest
      (b ++ r.1, r.2)

/-- `write_T1`, parse_epochs.py:388-418.  `.error`: raised before the file was opened.  Otherwise the name of the file in
the directory, its contents and the exception that ended the writing, if any.  A scalar detector goes through a float64
array (line 397); exact below 2^53. -/
def writeT1 (fullEpoch : Int) (timestamps : List Int) (detectors : Detectors) :
    Except PyErr (List Char × Bytes × Option PyErr) :=
  let epoch := (fullEpoch % 2 ^ 32).toNat
  let name := hexOf epoch
  let body (ds : List Int) : List Char × Bytes × Option PyErr :=
    if timestamps.length < 2 ^ 32 then
      let header := leBytes 4 0x101 ++ leBytes 4 epoch ++ leBytes 4 timestamps.length ++ leBytes 4 49 ++ leBytes 4 4
      let timestampEpoch : Int := (((epoch &&& ((1 <<< 17) - 1)) <<< (32 + 5) : Nat) : Int)
      let r := t1Events timestampEpoch (timestamps.zip ds)
      match r.2 with
      | some e => (name, header ++ r.1, some e)
      | none => (name, header ++ r.1 ++ (leBytes 4 0 ++ leBytes 4 0), none)
    else (name, [], some .structError)
  match detectors with
  | .scalar d => .ok (body (List.replicate timestamps.length d))
  | .list ds => if ds.length ≠ timestamps.length then .error .valueError else .ok (body ds)

/-! ## Bit extraction, T2 and T4 -/

/-- `extract_bits` without a file, parse_epochs.py:271-276: `ValueError` (negative shift count) if the buffer is too
short.  Returns (msb, buffer, size). -/
def extractMsb (msbSize : Int) (buffer size : Nat) : Except PyErr (Nat × Nat × Nat) :=
  let d := (size : Int) - msbSize
  if d < 0 then .error .valueError
  else .ok (buffer >>> d.toNat, buffer &&& ((1 <<< d.toNat) - 1), d.toNat)

/-- The state of a bit reader: `buffer`, `size` and the unread rest of the file. -/
structure BitState where
  buffer : Nat
  size : Nat
  rest : Bytes

/-- `extract_bits` with a file, parse_epochs.py:240-276. -/
def extractBits (msbSize : Int) (s : BitState) : Except PyErr (Nat × BitState) :=
  let s' : BitState := if (s.size : Int) < msbSize then
      { buffer := (s.buffer <<< 32) + leNat (s.rest.take 4), size := s.size + 32, rest := s.rest.drop 4 }
    else s
  match extractMsb msbSize s'.buffer s'.size with
  | .error e => .error e
  | .ok (m, b, k) => .ok (m, { buffer := b, size := k, rest := s'.rest })

/-- The part of the loops of `read_T2` and `read_T4` that reads one entry, parse_epochs.py:321-338,346 and
539-556,565: `none` for the terminator, else the timing value and the base bits.  (In the code the accumulators are
updated between the two extractions; they do not influence the second one, and an exception discards them.) -/
def readEntry (timeorder baseBits : Int) (s : BitState) : Except PyErr (Option (Nat × Nat) × BitState) := do
  let (timing, s) ← extractBits timeorder s
  if timing = 1 then
    let (base, s) ← extractBits baseBits s
    if base ≠ 0 then .error .valueError
    else return (none, s)
  else
    let (timing, s) ← if timing = 0 then extractBits 32 s else pure (timing, s)
    let (base, s) ← extractBits baseBits s
    return (some (timing, base), s)

/-- Loop state of `read_T2`: bits, current timestamp and the lists (as pairs, in order). -/
structure T2State where
  bits : BitState
  timestamp : ℚ
  acc : List (ℚ × Nat)

/-- One iteration of the loop of `read_T2`, parse_epochs.py:317-347.  `np.uint64 += int` gives a float64 in numpy < 2, so
`timestamp` is a float64 from the first event on.  Simplification: timing values below 2^63. -/
def t2Step (timeorder baseBits : Int) (s : T2State) : T2State ⊕ Except PyErr (List (ℚ × Nat)) :=
  match readEntry timeorder baseBits s.bits with
  | .error e => .inr (.error e)
  | .ok (none, _) => .inr (.ok s.acc)
  | .ok (some (timing, base), b) =>
    let ts := fl 53 (fl 53 s.timestamp + fl 53 (timing : ℚ))
    .inl { bits := b, timestamp := ts, acc := s.acc ++ [(ts, base)] }

/-- The conversion at the end of `read_T2`, parse_epochs.py:353-385, on the list of float64 timestamps.  In the 4 ps
integer mode the object array holds `np.float64` objects, which have no `<<`: `TypeError` unless it is empty. -/
def t2Convert (epoch : Nat) (fullEpoch : Bool) (res : Tsres) (fractional : Bool) (ts : List ℚ) :
    Except PyErr (List ENum) :=
  let epochMsb := epoch >>> 17
  if fractional then
    let ratio : ℚ := (Tsres.ps125.value : ℚ) / res.value
    let em := fl 64 (fl 64 ((epochMsb <<< 49 : Nat) : ℚ) / ratio)
    .ok (ts.map fun t => .flt (if fullEpoch then fl 64 (fl 64 (t / ratio) + em) else fl 64 (t / ratio)))
  else if res.value > Tsres.ps125.value then
    if ts = [] then .ok [] else .error .typeError
  else
    let bd := bitdiff Tsres.ps125.value res.value
    let em := (epochMsb <<< (49 - bd)) % 2 ^ 64
    .ok (ts.map fun t =>
      .u64 (if fullEpoch then ((⌊t⌋.toNat % 2 ^ 64) >>> bd + em) % 2 ^ 64 else (⌊t⌋.toNat % 2 ^ 64) >>> bd))

/-- `read_T2`, parse_epochs.py:279-385, with `fuel` loop iterations. -/
def readT2 (fuel : Nat) (fullEpoch : Bool) (res : Tsres) (fractional : Bool) (file : Bytes) :
    Option (Except PyErr (List (ENum × Nat))) :=
  match readT2Header file with
  | .error e => some (.error e)
  | .ok header =>
    let epochLsb := header.epoch &&& ((1 <<< 17) - 1)
    match runLoop (t2Step header.timeorder header.baseBits) fuel
        { bits := { buffer := 0, size := 0, rest := file.drop 24 }, timestamp := ((epochLsb <<< 32 : Nat) : ℚ), acc := [] } with
    | none => none
    | some (.error e) => some (.error e)
    | some (.ok events) =>
      if header.length ≠ 0 ∧ events.length ≠ header.length then some (.error .valueError)
      else some (do
        let ts ← t2Convert header.epoch fullEpoch res fractional (events.map Prod.fst)
        return ts.zip (events.map Prod.snd))

/-- Loop state of `read_T4`. -/
structure T4State where
  bits : BitState
  timeIndex : Int
  acc : List (Int × Nat)

/-- One iteration of the loop of `read_T4`, parse_epochs.py:535-566. -/
def t4Step (timeorder baseBits : Int) (s : T4State) : T4State ⊕ Except PyErr (List (Int × Nat)) :=
  match readEntry timeorder baseBits s.bits with
  | .error e => .inr (.error e)
  | .ok (none, _) => .inr (.ok s.acc)
  | .ok (some (dindex, base), b) =>
    let ti := s.timeIndex + ((dindex : Int) - 2)
    .inl { bits := b, timeIndex := ti, acc := s.acc ++ [(ti, base)] }

/-- `read_T4`, parse_epochs.py:510-572, with `fuel` loop iterations.  (`np.array` of the indices: they fit into int64.) -/
def readT4 (fuel : Nat) (file : Bytes) : Option (Except PyErr (List (Int × Nat))) :=
  match readT4Header file with
  | .error e => some (.error e)
  | .ok header =>
    match runLoop (t4Step header.timeorder header.baseBits) fuel
        { bits := { buffer := 0, size := 0, rest := file.drop 20 }, timeIndex := 0, acc := [] } with
    | none => none
    | some (.error e) => some (.error e)
    | some (.ok events) =>
      if header.length ≠ 0 ∧ events.length ≠ header.length then some (.error .valueError)
      else some (.ok events)

/-! ## T3 -/

/-- `ServiceT3`, parse_epochs.py:420-437 (without the header). -/
structure ServiceT3 where
  coincMatrix : List Nat
  garbage0 : Nat
  garbage1 : Nat
  okcount : Nat
  qber : ℚ
  deriving DecidableEq

/-- `decode`, parse_epochs.py:457; `none` is -1. -/
def t3Decode : List (Option Nat) :=
  [none, some 0, some 1, none, some 2, none, none, none, some 3, none, none, none, none, none, none, none]

/-- The reading loop of `read_T3`, parse_epochs.py:473-482: `struct.error` for an incomplete word; the bytes of every word
in big-endian order. -/
def t3Detections : Bytes → Except PyErr (List Nat)
  | [] => .ok []
  | a :: b :: c :: d :: rest => do
    let r ← t3Detections rest
    let data := leNat [a, b, c, d]
    return (leBytes 4 data).reverse.map UInt8.toNat ++ r
  | _ => .error .structError

/-- One pass of the counting loop of `read_T3`, parse_epochs.py:490-500. -/
def t3Tally (s : ServiceT3) (detection : Nat) : ServiceT3 :=
  let a := (t3Decode[(detection >>> 4) &&& 0xF]?).join
  let b := (t3Decode[detection &&& 0xF]?).join
  match a, b with
  | some a, some b =>
    { s with coincMatrix := s.coincMatrix.set (a * 4 + b) ((s.coincMatrix[a * 4 + b]?).getD 0 + 1), okcount := s.okcount + 1 }
  | a, b =>
    { s with garbage0 := if a = none then s.garbage0 + 1 else s.garbage0,
             garbage1 := if b = none then s.garbage1 + 1 else s.garbage1 }

/-- `round(x, 3)` of a float64: correctly rounded to three decimals, result a float64. -/
def round3 (x : ℚ) : ℚ := fl 53 ((rne (x * 1000) : ℚ) / 1000)

/-- `read_T3`, parse_epochs.py:440-508. -/
def readT3 (file : Bytes) : Except PyErr ServiceT3 := do
  let header ← readT3Header file
  let detections ← t3Detections (file.drop 16)
  -- lines 489-490: `detections[i]` for `i` in `range(length_entry)`
  if detections.length < header.length then .error .indexError
  else
    let s := (detections.take header.length).foldl t3Tally
      { coincMatrix := List.replicate 16 0, garbage0 := 0, garbage1 := 0, okcount := 0, qber := 1 / 2 }
    let at' (i : Nat) : Nat := (s.coincMatrix[i]?).getD 0
    let er := at' 0 + at' 5 + at' 10 + at' 15
    let gd := at' 2 + at' 7 + at' 8 + at' 13
    if er + gd ≠ 0 then return { s with qber := round3 (fl 53 ((er : ℚ) / ((er + gd : Nat) : ℚ))) }
    else return s

/-! ## Epoch names -/

/-- `epoch2int`, parse_epochs.py:132-133. -/
def epoch2int (epoch : List Char) : Except PyErr Int :=
  match pyInt16 epoch with
  | some v => .ok v
  | none => .error .valueError

/-- `int2epoch`, parse_epochs.py:135-136: `hex(value)[2:]`; `hex` of a negative number starts with `-0x`. -/
def int2epoch (value : Int) : List Char :=
  if 0 ≤ value then hexOf value.toNat else 'x' :: hexOf (-value).toNat

/-- `datetime.timestamp()` (CPython, naive `datetime` with a local time zone without offset) of the date `us` microseconds
after 1970-01-01: whole seconds plus `microsecond / 1e6` in float64. -/
def dateTimestamp (us : Nat) : ℚ := fl 53 (((us / 10 ^ 6 : Nat) : ℚ) + fl 53 (((us % 10 ^ 6 : Nat) : ℚ) / 10 ^ 6))

/-- `date2epoch`, parse_epochs.py:105-118, for the date `us` microseconds after 1970-01-01: `int()` of the time stamp, then a
float64 division by the double nearest to 125e-12. -/
def date2epoch (us : Nat) : List Char :=
  hexPad 8 (⌊fl 53 ((⌊dateTimestamp us⌋.toNat : ℚ) / fl 53 (125 / 10 ^ 12))⌋.toNat >>> 32)

/-- `datetime.fromtimestamp(x)` (CPython, no time zone offset) for `x ≥ 0`: microseconds after 1970-01-01, the fraction
multiplied by 1e6 in float64 and rounded half to even.  Dates after the year 9999 (`ValueError`) are not modelled. -/
def fromTimestamp (x : ℚ) : Nat := ⌊x⌋.toNat * 10 ^ 6 + (rne (fl 53 ((x - ⌊x⌋) * 10 ^ 6))).toNat

/-- `epoch2date`, parse_epochs.py:121-130, for epochs ≥ 0.  Python converts the integer to float64 before multiplying. -/
def epoch2date (epoch : List Char) : Except PyErr Nat :=
  match pyInt16 epoch with
  | some v => .ok (fromTimestamp (fl 53 (fl 53 ((v : ℚ) * 2 ^ 32) * fl 53 (125 / 10 ^ 12))))
  | none => .error .valueError

/-! ## Directories of epochs (utils.py) -/

/-- The `while` loop of `get_first_overlapping_epoch`, utils.py:394-396, with `fuel` iterations. -/
def contiguousLoop (epochs : List Int) (minEpoch : Int) (fuel numEpochs : Nat) : Option Nat :=
  runLoop (fun n : Nat => if (minEpoch + (n : Int)) ∈ epochs then .inl (n + 1) else .inr n) fuel numEpochs

/-- `get_first_overlapping_epoch`, utils.py:370-401 (`return_length=True`), for the names of the directory entries.  A
set is a list.  `none` = still running after `fuel` iterations. -/
def getFirstOverlappingEpoch (fuel : Nat) (names1 names2 : List (List Char)) (firstEpoch : Option (List Char)) :
    Option (Except PyErr (Option (List Char) × Nat)) :=
  match names1.mapM epoch2int, names2.mapM epoch2int, (match firstEpoch with
      | none => .ok none
      | some f => (epoch2int f).map some : Except PyErr (Option Int)) with
  | .ok e1, .ok e2, .ok first =>
    let epochs := e1.filter (fun v => decide (v ∈ e2))
    let epochs := match first with
      | none => epochs
      | some f => epochs.filter (fun v => decide (f ≤ v))
    match epochs with
    | [] => some (.ok (none, 0))
    | v :: vs =>
      let m := vs.foldl min v
      (contiguousLoop (v :: vs) m fuel 1).map fun n => .ok (some (int2epoch m), n)
  | .error e, _, _ => some (.error e)
  | _, .error e, _ => some (.error e)
  | _, _, .error e => some (.error e)

/-- `get_timestamp`, utils.py:404-411.  The directory is a partial function from names to file contents; `fuel` loop
iterations for each file.  The result is a float128 array (`np.append` copies). -/
def getTimestamp (fuel : Nat) (dir : List Char → Option Bytes) (isT1 : Bool) (firstEpoch : List Char) (skipEpoch : Int)
    (numEpochs : Nat) : Option (Except PyErr (List ENum)) :=
  (List.range numEpochs).foldl (fun acc (i : Nat) =>
    match acc with
    | some (.ok ts) =>
      match epoch2int firstEpoch with
      | .error e => some (.error e)
      | .ok f =>
        match dir (int2epoch (f + skipEpoch + (i : Int))) with
        | none => some (.error .fileNotFound)
        | some file =>
          match (if isT1 then readT1 fuel false .ns1 true file else readT2 fuel false .ns1 true file) with
          | none => none
          | some (.error e) => some (.error e)
          | some (.ok evs) => some (.ok (ts ++ evs.map Prod.fst))
    | other => other) (some (.ok []))

end Fp
