import Verif.Model.Raw

/-!
# Specification vocabulary for raw timestamp files (C01-C08)

Written from the documented file formats (module docstring of parse_timestamps.py, docs of the S-Fifteen timestamp
card), not from the code: an event is a 54-bit time in units of 4 ps (1/256 ns) and a 4-bit detector pattern.
-/
namespace Fp.Spec
open Fp

/-- The time `raw` (units of 4 ps) expressed in the unit of `res` (`res.value` units per nanosecond). -/
def timeIn (res : Tsres) (raw : Nat) : ℚ := (raw : ℚ) * res.value / 256

/-- What a reader has to return for the time `raw`: the exact value, or its integer part. -/
def readValue (res : Tsres) (fractional : Bool) (raw : Nat) : Num :=
  if fractional then .flt (timeIn res raw) else .u64 ⌊timeIn res raw⌋.toNat

/-- A raw event that the formats can hold. -/
def Valid (e : Nat × Nat) : Prop := e.1 < 2 ^ 54 ∧ e.2 < 16

/-- The eight bytes of an a1 event: the low word holds the lower 22 time bits above 10 flag bits, the high word the upper
32 time bits; the normal order is low word first, the legacy order high word first; words are little-endian. -/
def a1Event (legacy : Bool) (e : Nat × Nat) : Bytes :=
  let low := leBytes 4 (e.1 % 2 ^ 22 * 2 ^ 10 + e.2)
  let high := leBytes 4 (e.1 / 2 ^ 22)
  if legacy then high ++ low else low ++ high

/-- The two lines of an a0 event: low word, then high word, as 8 lower-case hexadecimal digits each. -/
def a0Event (e : Nat × Nat) : List Char :=
  hexPad 8 (e.1 % 2 ^ 22 * 2 ^ 10 + e.2) ++ ['\n'] ++ (hexPad 8 (e.1 / 2 ^ 22) ++ ['\n'])

/-- The line of an a2 event: the 64-bit value as 16 lower-case hexadecimal digits. -/
def a2Event (e : Nat × Nat) : List Char := hexPad 16 (e.1 * 2 ^ 10 + e.2) ++ ['\n']

/-- Clear the flag bits 4..9 of every event of an a1 file. -/
def clearFlags (legacy : Bool) : Bytes → Bytes
  | b0 :: b1 :: b2 :: b3 :: b4 :: b5 :: b6 :: b7 :: rest =>
    (if legacy then [b0, b1, b2, b3, b4 &&& 0x0F, b5 &&& 0xFC, b6, b7]
     else [b0 &&& 0x0F, b1 &&& 0xFC, b2, b3, b4, b5, b6, b7]) ++ clearFlags legacy rest
  | _ => []

/-- Exchange the two words of every event of an a1 file. -/
def swapHalves : Bytes → Bytes
  | b0 :: b1 :: b2 :: b3 :: b4 :: b5 :: b6 :: b7 :: rest =>
    [b4, b5, b6, b7, b0, b1, b2, b3] ++ swapHalves rest
  | _ => []

/-- Consecutive groups of `b` elements, the last one possibly shorter. -/
def IsBatching {α : Type} (b : Nat) (xs : List α) (batches : List (List α)) : Prop :=
  batches.flatten = xs ∧ (∀ x ∈ batches, x ≠ [] ∧ x.length ≤ b) ∧ (∀ x ∈ batches.dropLast, x.length = b)

/-- Every element has the same dtype (a numpy array is homogeneous). -/
def Homogeneous (t : List Num) : Prop := (∀ x ∈ t, ∃ n, x = .u64 n) ∨ (∀ x ∈ t, ∃ q, x = .flt q)

end Fp.Spec
