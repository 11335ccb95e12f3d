import Verif.Spec.RawMain
import Verif.Spec.TextDamage

/-! # Specification vocabulary for conversions that fail (C117) -/
namespace Fp.Spec
open Fp

/-- Bytes (characters) of one event in a file of the given format. -/
def recordSize : Fmt → Nat
  | .a0 => 18
  | .a1 => 8
  | .a2 => 17

/-- ASCII text without carriage returns. -/
def PlainText (b : Bytes) : Prop := ∀ x ∈ b, x.toNat < 128 ∧ x.toNat ≠ 13

/-- Something that stands in the place of the next event and is not one: for a1 files too few bytes (the file ends there), for
text files anything with a character that is no part of a number in the place of this event. -/
def NoEvent : Fmt → Bytes → Prop
  | .a1, d => 0 < d.length ∧ d.length < 8
  | fmt, d => PlainText d ∧ ∃ (before : Bytes) (x : UInt8) (after : Bytes), d = before ++ x :: after ∧
      before.length < recordSize fmt ∧ Foreign (Char.ofNat x.toNat)

/-- The whole batches of 100000 events. -/
def wholeBatches (raws : List (Nat × Nat)) : List (Nat × Nat) := raws.take (100000 * (raws.length / 100000))

end Fp.Spec
