import Verif.Model.Py

/-!
# Model of `src/fpfind/freqcd.c`

The program as built by the Makefile (gcc without optimisation, x86-64 Linux): `int` is a 32-bit and `long`, `long long` a
64-bit two's complement number, overflowing arithmetic wraps around.  Every access to one of the three heap buffers is
checked in the model: an access outside of the buffer is the outcome `Fault`.

The environment (the kernel) is an arbitrary list of rounds, one for each pass of the main loop, that tells what `select`,
the two `read` calls and `write` return.  The data come from two byte strings, the contents of the input stream and of the
frequency channel; a read returns any number of bytes the environment likes, up to the size asked for.  Messages on stderr
are not modelled.
-/
namespace Fp

/-- A memory access outside of one of the buffers. -/
inductive Fault
  | inbuffer
  | outbuffer
  | freqbuffer
  deriving DecidableEq, Repr

/-- Size of the input and of the output buffer, freqcd.c:85-86 and 162-163. -/
def bufSize : Nat := 1024 * 8

/-- FREQBUFSIZE, freqcd.c:87. -/
def freqBufSize : Nat := 100

/-- FCORR_MAX, freqcd.c:164: `1 << (-13 + 34)`. -/
def fcorrMax : BitVec 32 := 1 <<< 21

/-- `b[i]`, checked. -/
def bget (f : Fault) (b : Bytes) (i : Nat) : Except Fault UInt8 :=
  match b[i]? with
  | some x => .ok x
  | none => .error f

/-- `b[i] = x`, checked. -/
def bset (f : Fault) (b : Bytes) (i : Nat) (x : UInt8) : Except Fault Bytes :=
  if i < b.length then .ok (b.set i x) else .error f

/-- Read `len` bytes at offset `off`, checked. -/
def bread (f : Fault) (b : Bytes) (off len : Nat) : Except Fault Bytes :=
  if off + len ≤ b.length then .ok ((b.drop off).take len) else .error f

/-- Store `data` at offset `off`, checked. -/
def bwrite (f : Fault) (b : Bytes) (off : Nat) (data : Bytes) : Except Fault Bytes :=
  if off + data.length ≤ b.length then .ok (b.take off ++ data ++ b.drop (off + data.length)) else .error f

/-- The loops `for (i = src, j = 0; j < n; i++, j++) b[j] = b[i]`, freqcd.c:289-291 and 429-431; here with `n` passes left. -/
def copyLoop (f : Fault) (src : Nat) : Nat → Nat → Bytes → Except Fault Bytes
  | 0, _, b => .ok b
  | n + 1, j, b => do
    let x ← bget f b (src + j)
    let b ← bset f b j x
    copyLoop f src n (j + 1) b

/-- The first word of an event in memory (`low` of `struct rawevent`), freqcd.c:96-99. -/
def firstWord (ev : Bytes) : BitVec 32 := BitVec.ofNat 32 (leNat (ev.take 4))

/-- The second word of an event in memory (`high` of `struct rawevent`), freqcd.c:96-99. -/
def secondWord (ev : Bytes) : BitVec 32 := BitVec.ofNat 32 (leNat (ev.drop 4))

/-- The bytes of an event with the given words. -/
def eventBytes (w1 w2 : BitVec 32) : Bytes := leBytes 4 w1.toNat ++ leBytes 4 w2.toNat

/-- Time of an event, freqcd.c:332-342 and 351-358: `((ull)high << 22) | (low >> 10)` after the swap of legacy mode. -/
def evMeas (legacy : Bool) (ev : Bytes) : BitVec 64 :=
  let low := if legacy then secondWord ev else firstWord ev
  let high := if legacy then firstWord ev else secondWord ev
  (high.setWidth 64 <<< 22) ||| (low >>> 10).setWidth 64

/-- The correction of a time, freqcd.c:361: `((ll)((tsmeas - tsref) >> 12) * fcorr) >> 22`. -/
def tsCorr (fcorr : BitVec 32) (tsref tsmeas : BitVec 64) : BitVec 64 :=
  (((tsmeas - tsref) >>> 12) * fcorr.signExtend 64).sshiftRight 22

/-- The corrected event, freqcd.c:362-377. -/
def evCorrect (legacy : Bool) (fcorr : BitVec 32) (tsref ovf : BitVec 64) (ev : Bytes) : Bytes :=
  let low := if legacy then secondWord ev else firstWord ev
  let ts := evMeas legacy ev + tsCorr fcorr tsref (evMeas legacy ev) + ovf
  let high' : BitVec 32 := (ts >>> 22).setWidth 32
  let low' : BitVec 32 := ((ts <<< 10) ||| (low &&& 0x3ff).setWidth 64).setWidth 32
  if legacy then eventBytes high' low' else eventBytes low' high'

/-- What one pass of the main loop gets from the kernel: whether `select` succeeds; whether the input (the frequency channel)
is ready, and if so whether `read` fails (`some none`) or how many bytes are available at most (0 is the end of the stream);
whether `write` fails (`none`) or how many bytes it accepts at most. -/
structure Round where
  selectOk : Bool
  inRead : Option (Option Nat)
  freqRead : Option (Option Nat)
  write : Option Nat
  deriving DecidableEq

/-- Reasons to leave the main loop, freqcd.c:305, 316, 322, 406, 448. -/
inductive Stop
  | selectError
  | inputClosed
  | inputError
  | freqError
  | writeError
  deriving DecidableEq, Repr

/-- The variables of `main` that live across passes of the main loop, freqcd.c:228-279 (`freqOpen` is `freqhandle != 0`,
`freqNext` the offset of `freqbuffer_next`), what is left in the two streams, and the bytes written so far. -/
structure FState where
  inbuf : Bytes
  outbuf : Bytes
  freqbuf : Bytes
  inbytesread : Nat
  outevents : Nat
  freqPartial : Nat
  freqNext : Nat
  freqOpen : Bool
  fcorr : BitVec 32
  tsref : BitVec 64
  isset : Bool
  tsmeas : BitVec 64
  tscorr : BitVec 64
  ovf : BitVec 64
  src : Bytes
  freqSrc : Bytes
  out : Bytes
  deriving DecidableEq

/-- Variables of the event loop, freqcd.c:347-380. -/
structure Digest where
  inbuf : Bytes
  outbuf : Bytes
  outevents : Nat
  tsmeas : BitVec 64
  tscorr : BitVec 64

/-- The event loop, freqcd.c:347-380, with `n` passes left; `i` is the index of `eventptr`. -/
def digestLoop (legacy : Bool) (fcorr : BitVec 32) (tsref ovf : BitVec 64) : Nat → Nat → Digest → Except Fault Digest
  | 0, _, d => .ok d
  | n + 1, i, d => do
    let ev ← bread .inbuffer d.inbuf (8 * i) 8
    let tsmeas := evMeas legacy ev
    let tscorr := tsCorr fcorr tsref tsmeas
    let ev' := evCorrect legacy fcorr tsref ovf ev
    let inbuf ← bwrite .inbuffer d.inbuf (8 * i) ev'
    let outbuf ← bwrite .outbuffer d.outbuf (8 * d.outevents) ev'
    digestLoop legacy fcorr tsref ovf n (i + 1)
      { inbuf := inbuf, outbuf := outbuf, outevents := d.outevents + 1, tsmeas := tsmeas, tscorr := tscorr }

/-- The reference time, set by the first event, freqcd.c:331-344. -/
def initRef (legacy isset : Bool) (tsref : BitVec 64) (inbuf : Bytes) (eventnum : Nat) : Except Fault (BitVec 64) :=
  if !isset && decide (0 < eventnum) then (bread .inbuffer inbuf 0 8).map (evMeas legacy) else .ok tsref

/-- The part of a pass that deals with the input, freqcd.c:308-385.  Returns `eventnum`. -/
def fInput (legacy : Bool) (r : Option (Option Nat)) (s : FState) : Except Fault (FState × Nat × Option Stop) :=
  match r with
  | none => .ok (s, 0, none)
  | some none => .ok (s, 0, some .inputError)
  | some (some k) =>
    let inbytespartial := s.inbytesread % 8
    let data := s.src.take (min k (bufSize - inbytespartial))
    if data.length = 0 then .ok (s, 0, some .inputClosed)
    else do
      let inbuf ← bwrite .inbuffer s.inbuf inbytespartial data
      let inbytesread := inbytespartial + data.length
      let eventnum := inbytesread / 8
      let tsref ← initRef legacy s.isset s.tsref inbuf eventnum
      let d ← digestLoop legacy s.fcorr tsref s.ovf eventnum 0
        { inbuf := inbuf, outbuf := s.outbuf, outevents := s.outevents, tsmeas := s.tsmeas, tscorr := s.tscorr }
      return ({ s with inbuf := d.inbuf, outbuf := d.outbuf, outevents := d.outevents, inbytesread := inbytesread,
                       isset := s.isset || decide (0 < eventnum), tsmeas := d.tsmeas, tscorr := d.tscorr,
                       tsref := d.tsmeas, ovf := s.ovf + d.tscorr, src := s.src.drop data.length }, eventnum, none)

/-- C's `abs` of an `int`; `abs(INT_MIN)` is `INT_MIN`. -/
def cabs (v : BitVec 32) : BitVec 32 := if v.slt 0 then -v else v

/-- C's `isspace` in the C locale. -/
def isCSpace (c : UInt8) : Bool := c = 32 ∨ (9 ≤ c ∧ c ≤ 13)

/-- C's `isdigit`. -/
def isCDigit (c : UInt8) : Bool := 48 ≤ c ∧ c ≤ 57

/-- Value of a string of decimal digits. -/
def decValue (ds : Bytes) : Nat := ds.foldl (fun acc d => acc * 10 + (d.toNat - 48)) 0

/-- A number clamped to `long`, as by `strtol` on overflow. -/
def clampLong (v : Int) : Int := max (-2 ^ 63) (min v (2 ^ 63 - 1))

/-- C's `strtol(s, &end, 10)`: the value and the rest of the string, or `none` if there is no number (`end == s`). -/
def strtol (s : Bytes) : Option (Int × Bytes) :=
  let t := s.dropWhile isCSpace
  let (neg, t) := match t with
    | 45 :: t => (true, t)
    | 43 :: t => (false, t)
    | t => (false, t)
  let digits := t.takeWhile isCDigit
  if digits = [] then none
  else some (clampLong (if neg then -(decValue digits : Int) else decValue digits), t.dropWhile isCDigit)

/-- `readint`, freqcd.c:127-135; the string is given without its terminating zero.  `abs(value)` converts to `int`. -/
def readint (s : Bytes) : BitVec 32 :=
  match strtol s with
  | some (value, []) =>
    let v := BitVec.ofInt 32 value
    if (cabs v).slt 2147483647 then v else 2147483647
  | _ => 2147483647

/-- The zero-terminated string at offset `off`, checked: there has to be a terminating zero. -/
def cstring (f : Fault) (b : Bytes) (off : Nat) : Except Fault Bytes :=
  if (b.drop off).contains 0 then .ok ((b.drop off).takeWhile (· ≠ 0)) else .error f

/-- Acceptance of a value from the frequency channel, freqcd.c:418. -/
def fcorrUpdate (fcorr : BitVec 32) (line : Bytes) : BitVec 32 :=
  if (cabs (readint line)).slt fcorrMax then readint line else fcorr

/-- The search for values, freqcd.c:413-424, with `n` passes left: buffer, `next_num_idx` and `fcorr`. -/
def freqScan : Nat → Nat → Bytes × Nat × BitVec 32 → Except Fault (Bytes × Nat × BitVec 32)
  | 0, _, st => .ok st
  | n + 1, i, (buf, next, fcorr) => do
    let c ← bget .freqbuffer buf i
    if c = 10 then
      let buf ← bset .freqbuffer buf i 0
      let str ← cstring .freqbuffer buf next
      freqScan n (i + 1) (buf, i + 1, fcorrUpdate fcorr str)
    else freqScan n (i + 1) (buf, next, fcorr)

/-- The part of a pass that deals with the frequency channel, freqcd.c:392-434. -/
def fFreq (r : Option (Option Nat)) (s : FState) : Except Fault (FState × Option Stop) :=
  if !s.freqOpen then .ok (s, none)
  else match r with
  | none => .ok (s, none)
  | some none => .ok (s, some .freqError)
  | some (some k) => do
    let data := s.freqSrc.take (min k (freqBufSize - s.freqPartial - 1))
    let buf ← bwrite .freqbuffer s.freqbuf s.freqNext data
    let total := s.freqPartial + data.length
    let (buf, next, fcorr) ← freqScan total 0 (buf, 0, s.fcorr)
    let s := { s with freqOpen := decide (data.length ≠ 0), fcorr := fcorr, freqSrc := s.freqSrc.drop data.length }
    if 0 < next then
      let rest := total - next
      let buf ← copyLoop .freqbuffer (total - rest) rest 0 buf
      return ({ s with freqbuf := buf, freqPartial := rest, freqNext := rest }, none)
    else return ({ s with freqbuf := buf }, none)

/-- The end of a pass: write the events, freqcd.c:440-453. -/
def fWrite (r : Option Nat) (eventnum : Nat) (s : FState) : Except Fault (FState × Option Stop) := do
  let data ← bread .outbuffer s.outbuf 0 (8 * eventnum)
  match r with
  | none => return (s, some .writeError)
  | some k =>
    let s := { s with out := s.out ++ data.take k }
    if (data.take k).length ≠ 8 * eventnum then return (s, some .writeError)
    else return ({ s with outevents := 0 }, none)

/-- One pass of the main loop, freqcd.c:282-454. -/
def fStep (legacy : Bool) (r : Round) (s : FState) : Except Fault (FState × Option Stop) := do
  let inbytespartial := s.inbytesread % 8
  let inbuf ← copyLoop .inbuffer (s.inbytesread - inbytespartial) inbytespartial 0 s.inbuf
  let s := { s with inbuf := inbuf }
  if !r.selectOk then return (s, some .selectError)
  else
    let (s, eventnum, stop) ← fInput legacy r.inRead s
    if stop ≠ none then return (s, stop)
    else
      let (s, stop) ← fFreq r.freqRead s
      if stop ≠ none then return (s, stop)
      else fWrite r.write eventnum s

/-- The main loop over a list of rounds; `none` means that the loop has not been left (the program is still running, or has
been killed). -/
def fRun (legacy : Bool) : List Round → FState → Except Fault (FState × Option Stop)
  | [], s => .ok (s, none)
  | r :: rs, s => do
    let (s, stop) ← fStep legacy r s
    if stop ≠ none then return (s, stop) else fRun legacy rs s

/-- Start of the main loop, freqcd.c:215-279.  The contents of the freshly allocated buffers and of the uninitialised
variables `tsmeas` and `tscorr` (lines 274-275) are arbitrary. -/
def fInit (inbuf outbuf freqbuf : Bytes) (tsmeas tscorr : BitVec 64) (fcorr : BitVec 32) (freqOpen : Bool)
    (src freqSrc : Bytes) : FState :=
  { inbuf := inbuf, outbuf := outbuf, freqbuf := freqbuf, inbytesread := 0, outevents := 0, freqPartial := 0, freqNext := 0,
    freqOpen := freqOpen, fcorr := fcorr, tsref := 0, isset := false, tsmeas := tsmeas, tscorr := tscorr, ovf := 0,
    src := src, freqSrc := freqSrc, out := [] }

end Fp
