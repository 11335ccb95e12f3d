import Verif.Spec.Raw
import Verif.Model.Epoch

/-!
# Specification vocabulary for epoch files (C14-C25)

Written from the epoch file specification cited in parse_epochs.py (qcrypto documentation), not from the code.
-/
namespace Fp.Spec
open Fp

/-- A program given enough loop iterations returns `r`. -/
def Returns {α : Type} (prog : Nat → Option α) (r : α) : Prop := ∃ N, ∀ fuel, N ≤ fuel → prog fuel = some r

/-- A program that never returns, however long it runs. -/
def Diverges {α : Type} (prog : Nat → Option α) : Prop := ∀ fuel, prog fuel = none

/-- The time stored in a T1 event, in units of 4 ps: the lowest 17 epoch bits above 37 bits of time in the epoch. -/
def t1Time (epoch : Nat) (t : Nat) : Nat := epoch % 2 ^ 17 * 2 ^ 37 + t

/-- The full time in units of 4 ps: the 32-bit epoch above 37 bits of time in the epoch. -/
def fullTime (epoch : Nat) (t : Nat) : Nat := epoch * 2 ^ 37 + t

/-- The T1 file of an epoch: a header of five 32-bit words (tag 0x101, epoch, number of events, 49, 4), for each event the
high and the low word of `time * 2^10 + detectors`, and a zero event as terminator. -/
def t1File (epoch : Nat) (evs : List (Nat × Nat)) : Bytes :=
  (leBytes 4 0x101 ++ leBytes 4 epoch ++ leBytes 4 evs.length ++ leBytes 4 49 ++ leBytes 4 4) ++
    evs.flatMap (fun e => leBytes 4 ((t1Time epoch e.1 * 2 ^ 10 + e.2) / 2 ^ 32) ++
      leBytes 4 ((t1Time epoch e.1 * 2 ^ 10 + e.2) % 2 ^ 32)) ++
    (leBytes 4 0 ++ leBytes 4 0)

/-- Events of one epoch: 37-bit times, 4-bit detector patterns. -/
def T1Valid (e : Nat × Nat) : Prop := e.1 < 2 ^ 37 ∧ e.2 < 16

/-- The event that looks like the terminator. -/
def ZeroEvent (epoch : Nat) (e : Nat × Nat) : Prop := epoch % 2 ^ 17 = 0 ∧ e.1 = 0 ∧ e.2 = 0

/-- Value a reader should return: exact, or the integer part, in the unit of `res`. -/
def eValue (res : Tsres) (fractional : Bool) (raw : Nat) : ENum :=
  if fractional then .flt (timeIn res raw) else .u64 ⌊timeIn res raw⌋.toNat

/-! ## Bit streams (T2, T4) -/

/-- The bit stream of a file: its 32-bit little-endian words one after the other, most significant bit first; zero after
the end of the file. -/
def bitAt (body : Bytes) (i : Nat) : Bool := (leNat ((body.drop (4 * (i / 32))).take 4)).testBit (31 - i % 32)

/-- The number formed by `w` bits of the stream starting at `pos`, most significant bit first. -/
def field (body : Bytes) (pos : Nat) : Nat → Nat
  | 0 => 0
  | w + 1 => 2 * field body pos w + (bitAt body (pos + w)).toNat

/-- The `w` bits of a number, most significant bit first. -/
def toBits (w n : Nat) : List Bool := (List.range w).map fun i => n.testBit (w - 1 - i)

/-- The stream of `body` starts with the given bits; anything may follow. -/
def Starts (body : Bytes) (bits : List Bool) : Prop := ∀ i (h : i < bits.length), bitAt body i = bits[i]

/-- One T2/T4 entry: a time difference and detector bits. -/
structure Entry where
  extended : Bool
  dt : Nat
  base : Nat

/-- Entries that the format can hold with timing width `tw` and detector width `bb`: a short entry holds differences from
2 to 2^tw - 1, an extended entry any 32-bit difference. -/
def Entry.Ok (tw bb : Nat) (e : Entry) : Prop :=
  e.base < 2 ^ bb ∧ (if e.extended then e.dt < 2 ^ 32 else 2 ≤ e.dt ∧ e.dt < 2 ^ tw)

/-- Short entry: `tw` bits of difference, `bb` bits of detectors.  Extended entry: `tw` zero bits, 32 bits of difference,
`bb` bits of detectors. -/
def Entry.bits (tw bb : Nat) (e : Entry) : List Bool :=
  (if e.extended then toBits tw 0 ++ toBits 32 e.dt else toBits tw e.dt) ++ toBits bb e.base

/-- The terminator: the number 1 in `tw` bits and zero detector bits. -/
def terminator (tw bb : Nat) : List Bool := toBits tw 1 ++ toBits bb 0

/-- Running sums of the time differences: the absolute time of every entry. -/
def runningSums (start : Nat) : List Entry → List (Nat × Nat)
  | [] => []
  | e :: es => (start + e.dt, e.base) :: runningSums (start + e.dt) es

/-- Running sums of index differences, which T4 files store increased by 2. -/
def runningIndex (start : Int) : List Entry → List (Int × Nat)
  | [] => []
  | e :: es => (start + ((e.dt : Int) - 2), e.base) :: runningIndex (start + ((e.dt : Int) - 2)) es

/-- The consecutive fields of the given widths in the bit stream of a file. -/
def fields (body : Bytes) (pos : Nat) : List Nat → List Nat
  | [] => []
  | w :: ws => field body pos w :: fields body (pos + w) ws

/-- A T2 file: header words (tag, epoch, number of events or 0, timing width, detector width, protocol), then the body. -/
def t2File (tag epoch len tw bb proto : Nat) (body : Bytes) : Bytes :=
  [tag, epoch, len, tw, bb, proto].flatMap (leBytes 4) ++ body

/-- A T4 file: header words (tag, epoch, number of events or 0, timing width, detector width), then the body. -/
def t4File (tag epoch len tw bb : Nat) (body : Bytes) : Bytes :=
  [tag, epoch, len, tw, bb].flatMap (leBytes 4) ++ body

/-! ### T3 files -/

/-- A T3 file: header words (tag, epoch, number of entries, bits per entry), then the body. -/
def t3File (tag epoch len bpe : Nat) (body : Bytes) : Bytes := [tag, epoch, len, bpe].flatMap (leBytes 4) ++ body

/-- Entry `i` of the body of a T3 file: the bytes of every 32-bit word, most significant byte first. -/
def t3Entry (body : Bytes) (i : Nat) : Nat := ((body[4 * (i / 4) + (3 - i % 4)]?).getD 0).toNat

/-- The first `n` entries. -/
def t3Entries (body : Bytes) (n : Nat) : List Nat := (List.range n).map (t3Entry body)

/-- Exactly one of four detectors. -/
def oneBit (n : Nat) : Bool := n = 1 ∨ n = 2 ∨ n = 4 ∨ n = 8

/-- Exactly one detector on each of the two sides. -/
def validPair (x : Nat) : Bool := oneBit (x / 16) && oneBit (x % 16)

/-- Number of entries with detector `a` on the first and detector `b` on the second side. -/
def pairs (entries : List Nat) (a b : Nat) : Nat := entries.countP fun x => decide (x / 16 = 2 ^ a ∧ x % 16 = 2 ^ b)

/-- Equal detectors on both sides (V, A, H, D being detectors 0 to 3). -/
def sameBasisSame (entries : List Nat) : Nat := pairs entries 0 0 + pairs entries 1 1 + pairs entries 2 2 + pairs entries 3 3

/-- Opposite detectors of the same basis. -/
def sameBasisOpposite (entries : List Nat) : Nat := pairs entries 0 2 + pairs entries 1 3 + pairs entries 2 0 + pairs entries 3 1

/-! ### Epoch names and directories -/

/-- Canonical names: lower-case hexadecimal digits without leading zeros. -/
def Canonical (s : List Char) : Prop :=
  s ≠ [] ∧ (∀ c ∈ s, c ∈ ['0', '1', '2', '3', '4', '5', '6', '7', '8', '9', 'a', 'b', 'c', 'd', 'e', 'f']) ∧
    (s.head? = some '0' → s = ['0'])

/-- The number a list of digit characters stands for. -/
def digitsValue (s : List Char) : Nat :=
  s.foldl (fun acc c => acc * 16 + ['0', '1', '2', '3', '4', '5', '6', '7', '8', '9', 'a', 'b', 'c', 'd', 'e', 'f'].idxOf c) 0

/-- The epochs `vs` of a directory with entries `names`. -/
def EpochsOf (names : List (List Char)) (vs : List Int) : Prop := names.map epoch2int = vs.map Except.ok

/-- Epoch `v` exists in both directories and is not before `first`. -/
def Common (e1 e2 : List Int) (first : Option Int) (v : Int) : Prop := v ∈ e1 ∧ v ∈ e2 ∧ ∀ f, first = some f → f ≤ v

/-- The interval of an epoch in nanoseconds, as read without `full_epoch`. -/
def InEpoch (e : Int) (x : ℚ) : Prop := ((e % 2 ^ 17 : Int) : ℚ) * 2 ^ 29 ≤ x ∧ x < (((e % 2 ^ 17 : Int) : ℚ) + 1) * 2 ^ 29

/-- The number of the epoch that contains the date `us` microseconds after 1970: epochs last 2^32 units of 125 ps, and there are
8000 such units per microsecond. -/
def epochAt (us : Nat) : Nat := us * 8000 / 2 ^ 32

end Fp.Spec
