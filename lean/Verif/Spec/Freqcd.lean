import Verif.Model.Freqcd

/-! Specification vocabulary for `freqcd`. -/
namespace Fp.Spec

/-- The complete 8-byte events of a byte string. -/
def events (b : Bytes) : List Bytes := (List.range (b.length / 8)).map fun i : Nat => (b.drop (8 * i)).take 8

/-- An event as a 64-bit number: little-endian, in legacy order with the 32-bit words exchanged. -/
def word (legacy : Bool) (ev : Bytes) : Nat := if legacy then leNat (ev.take 4) * 2 ^ 32 + leNat (ev.drop 4) else leNat ev

/-- The 54-bit time of an event, in units of 4 ps. -/
def evTime (legacy : Bool) (ev : Bytes) : Nat := word legacy ev / 2 ^ 10

/-- The detector and flag bits of an event. -/
def evFlags (legacy : Bool) (ev : Bytes) : Nat := word legacy ev % 2 ^ 10

/-- A state at the beginning of the main loop: any contents of the fresh buffers (of the right size) and of the
uninitialised variables. -/
def Initial (s : FState) (fcorr : BitVec 32) (freqOpen : Bool) (src freqSrc : Bytes) : Prop :=
  ∃ inbuf outbuf freqbuf tsmeas tscorr, inbuf.length = 8192 ∧ outbuf.length = 8192 ∧ freqbuf.length = 100 ∧
    s = fInit inbuf outbuf freqbuf tsmeas tscorr fcorr freqOpen src freqSrc

/-- `P` holds at the beginning of every pass of the main loop. -/
def Throughout (legacy : Bool) (rs : List Round) (s : FState) (P : FState → Prop) : Prop :=
  ∀ rs1 r s1, rs1 ++ [r] <+: rs → fRun legacy rs1 s = .ok (s1, none) → P s1

/-- Number of reads of the input stream. -/
def reads (rs : List Round) : Nat := rs.countP fun r : Round => r.inRead.isSome

/-- Every read that delivers data completes at least one event (and so leads to output). -/
def NoStall (legacy : Bool) (rs : List Round) (s : FState) : Prop :=
  ∀ rs1 r s1 s2, rs1 ++ [r] <+: rs → fRun legacy rs1 s = .ok (s1, none) → fRun legacy (rs1 ++ [r]) s = .ok (s2, none) →
    s2.src ≠ s1.src → s2.out ≠ s1.out

/-- The times of the complete events of a byte string. -/
def times (legacy : Bool) (b : Bytes) : List Nat := (events b).map (evTime legacy)

/-- The detector and flag bits of the complete events of a byte string. -/
def flags (legacy : Bool) (b : Bytes) : List Nat := (events b).map (evFlags legacy)

/-- An event with its two 32-bit words exchanged. -/
def swapEvent (ev : Bytes) : Bytes := ev.drop 4 ++ ev.take 4

/-- A byte string with the words of every complete event exchanged. -/
def swapWords (b : Bytes) : Bytes := (events b).flatMap swapEvent ++ b.drop (8 * (b.length / 8))

/-- What each pass has read from the frequency channel. -/
def freqReads (legacy : Bool) : List Round → FState → List Bytes
  | [], _ => []
  | r :: rs, s => match fRun legacy [r] s with
    | .ok (s', none) => s.freqSrc.take (s.freqSrc.length - s'.freqSrc.length) :: freqReads legacy rs s'
    | _ => []

/-- `b` consists of the lines `ls`, each ended by a newline, and the text `rest` without newline. -/
def Lines (b : Bytes) (ls : List Bytes) (rest : Bytes) : Prop :=
  b = ls.flatMap (· ++ [10]) ++ rest ∧ (∀ l ∈ ls, (10 : UInt8) ∉ l) ∧ (10 : UInt8) ∉ rest

/-- A decimal number in the form `strtol` knows: white space, an optional sign, and digits. -/
def Numeral (b : Bytes) (v : Int) : Prop :=
  ∃ ws sign ds : Bytes, b = ws ++ sign ++ ds ∧ (∀ c ∈ ws, c = 32 ∨ (9 ≤ c ∧ c ≤ 13)) ∧ ds ≠ [] ∧ (∀ c ∈ ds, 48 ≤ c ∧ c ≤ 57) ∧
    ((sign = [] ∧ v = ds.foldl (fun (n : Int) c => 10 * n + (c.toNat - 48 : Nat)) 0) ∨
     (sign = [43] ∧ v = ds.foldl (fun (n : Int) c => 10 * n + (c.toNat - 48 : Nat)) 0) ∨
     (sign = [45] ∧ v = -ds.foldl (fun (n : Int) c => 10 * n + (c.toNat - 48 : Nat)) 0))

end Fp.Spec
