import Verif.Model.RawMain
import Verif.Spec.Raw
import Verif.Spec.RawFilter

/-! # Specification vocabulary for the conversion command (C84, C85) -/
namespace Fp.Spec
open Fp

/-- The file of the given format that holds the given events. -/
def fileOf (fmt : Fmt) (legacy : Bool) (raws : List (Nat × Nat)) : Bytes :=
  match fmt with
  | .a0 => (raws.flatMap a0Event).map fun c => UInt8.ofNat c.toNat
  | .a1 => raws.flatMap (a1Event legacy)
  | .a2 => (raws.flatMap a2Event).map fun c => UInt8.ofNat c.toNat

/-- Do the filters let the event through? -/
def passes (a : FilterArgs) (r : Nat × Nat) : Bool :=
  (match a.pattern with | none => true | some pat => patKeep pat a.mask a.invert r.2) &&
    decide (InWindow .ps4 a.start a.stop r.1)

/-- The detector bits the filters leave. -/
def leftBits (a : FilterArgs) (x : Nat) : Nat :=
  match a.pattern with | none => x | some pat => ofBits4 (patBit pat a.mask a.invert x)

/-- The events that the filters let through, with the detector bits they leave. -/
def filtered (a : FilterArgs) (raws : List (Nat × Nat)) : List (Nat × Nat) :=
  (raws.filter (passes a)).map fun r => (r.1, leftBits a r.2)

/-- Times that survive the arithmetic of the reader: a0 readers compute in double precision, a2 readers refuse a file with
times on both sides of 2^53. -/
def Representable (fmt : Fmt) (raws : List (Nat × Nat)) : Prop :=
  match fmt with
  | .a0 => ∀ r ∈ raws, r.1 < 2 ^ 53 ∨ r.1 % 2 = 0
  | .a1 => True
  | .a2 => (∀ r ∈ raws, r.1 < 2 ^ 53) ∨ ∀ r ∈ raws, 2 ^ 53 ≤ r.1

/-- Number of events below which `numpy.genfromtxt` does not give an array the reader can use. -/
def fewest : Fmt → Nat
  | .a0 => 1
  | .a1 => 0
  | .a2 => 2

/-- The arguments of a timing filter are given. -/
def Timed (a : FilterArgs) : Prop := a.start.isSome ∨ a.stop.isSome

/-- The report describes the given events: their number, the number with each detector bit, with several and with none, the
first and the last time in nanoseconds, and the patterns that occur, in increasing order. -/
def Describes (r : Report) (raws : List (Nat × Nat)) : Prop :=
  let p := raws.map Prod.snd
  r.numEvents = raws.length ∧
  r.ch1 = p.countP (fun x => x.testBit 0) ∧ r.ch2 = p.countP (fun x => x.testBit 1) ∧
  r.ch3 = p.countP (fun x => x.testBit 2) ∧ r.ch4 = p.countP (fun x => x.testBit 3) ∧
  r.multi = p.countP (fun x => 2 ≤ ((List.range 4).filter fun i => x.testBit i).length) ∧
  r.non = p.countP (fun x => ((List.range 4).filter fun i => x.testBit i).length = 0) ∧
  r.start = raws.head?.map (fun e => (e.1 : ℚ) / 256) ∧
  r.stop = raws.getLast?.map (fun e => (e.1 : ℚ) / 256) ∧
  r.patterns.Pairwise (· < ·) ∧ ∀ x, x ∈ r.patterns ↔ x ∈ p

end Fp.Spec
