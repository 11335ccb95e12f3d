import Verif.Spec.Epoch
import Verif.Spec.Decimal

/-! # Specification of epoch file headers and the warnings about them -/
namespace Fp.Spec
open Fp

/-- `name` is the last component of a path. -/
def LastComponent (path name : List Char) : Prop :=
  '/' ∉ name ∧ (path = name ∨ ∃ dir, path = dir ++ '/' :: name)

/-- A file name says epoch `n`: lower-case hexadecimal digits, no leading zeros. -/
def NameOf (name : List Char) (n : Nat) : Prop := Canonical name ∧ digitsValue name = n

/-- The warning that a file is not of type `n`. -/
def WrongType (n : Nat) (path w : List Char) : Prop :=
  ∃ t, t ≠ [] ∧ Digits t n ∧ w = path ++ " is not a Type".toList ++ t ++ " header file".toList

/-- The warning that the epoch `n` of the header is not that of the name. -/
def WrongEpoch (n : Nat) (path w : List Char) : Prop :=
  ∃ t, t ≠ [] ∧ Digits t n ∧ w = "Epoch in header ".toList ++ t ++ " does not match epoc filename ".toList ++ path

/-- The warnings about a file of type `n`, if wrong types are reported as not being of type `shown`. -/
def Warnings (n shown : Nat) (path name : List Char) (tag : Int) (epoch : Nat) (ws : List (List Char)) : Prop :=
  ∃ a b, ws = a ++ b ∧
    ((tag = n ∨ tag = 256 + (n : Int)) ∧ a = [] ∨ ¬ (tag = n ∨ tag = 256 + (n : Int)) ∧ ∃ w, a = [w] ∧ WrongType shown path w) ∧
    (NameOf name epoch ∧ b = [] ∨ ¬ NameOf name epoch ∧ ∃ w, b = [w] ∧ WrongEpoch epoch path w)

/-- The four bytes of a signed or unsigned 32-bit field, least significant first. -/
def headField (v : Int) : List UInt8 :=
  [UInt8.ofNat (v % 256).toNat, UInt8.ofNat (v / 256 % 256).toNat, UInt8.ofNat (v / 65536 % 256).toNat,
   UInt8.ofNat (v / 16777216 % 256).toNat]

/-- Values of signed and unsigned fields. -/
def I32 (v : Int) : Prop := -2 ^ 31 ≤ v ∧ v < 2 ^ 31
@[inherit_doc I32] def U32 (v : Nat) : Prop := v < 2 ^ 32

end Fp.Spec
