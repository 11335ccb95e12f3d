import Verif.Spec.Epoch

/-! # Specification vocabulary for writing T1 files (C107-C109) -/
namespace Fp.Spec
open Fp

/-- The 64-bit word of an event: 17 bits of the epoch, 37 bits of time, 6 unused bits, 4 bits of detectors, as a sum. -/
def t1Word (epoch t d : Int) : Int := (epoch % 2 ^ 17 * 2 ^ 37 + t) * 2 ^ 10 + d

/-- The word fits into 64 bits. -/
def T1Fits (epoch : Int) (e : Int × Int) : Prop := 0 ≤ t1Word epoch e.1 e.2 ∧ t1Word epoch e.1 e.2 < 2 ^ 64

/-- A T1 file of an epoch with the words of the events; `n` is the number of events in the header. -/
def t1Start (epoch n : Nat) (words : List Nat) : Bytes :=
  (leBytes 4 0x101 ++ leBytes 4 epoch ++ leBytes 4 n ++ leBytes 4 49 ++ leBytes 4 4) ++
    words.flatMap fun w => leBytes 4 (w / 2 ^ 32) ++ leBytes 4 (w % 2 ^ 32)

/-- The terminator of a T1 file. -/
def t1End : Bytes := leBytes 4 0 ++ leBytes 4 0

end Fp.Spec
