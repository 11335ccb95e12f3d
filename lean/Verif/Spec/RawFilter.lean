import Verif.Model.RawFilter

/-! # Specification vocabulary for the filters and statistics (C09-C13) -/
namespace Fp.Spec
open Fp

/-- Does the documented filter keep an event with detector bits `x`? -/
def patKeep (pattern : Nat) (mask invert : Bool) (x : Nat) : Bool :=
  match mask, invert with
  | false, false => decide (x = pattern)
  | false, true => decide (x ≠ pattern)
  | true, false => (List.range 4).any fun i => x.testBit i && pattern.testBit i
  | true, true => decide (x = 0) || (List.range 4).any fun i => x.testBit i && !pattern.testBit i

/-- The detector bits reported for a kept event. -/
def patBit (pattern : Nat) (mask invert : Bool) (x i : Nat) : Bool :=
  match mask, invert with
  | false, _ => x.testBit i
  | true, false => x.testBit i && pattern.testBit i
  | true, true => x.testBit i && !pattern.testBit i

/-- The number with the given four bits. -/
def ofBits4 (b : Nat → Bool) : Nat := (if b 0 then 1 else 0) + (if b 1 then 2 else 0) + (if b 2 then 4 else 0) + (if b 3 then 8 else 0)

/-- A bound of `s` seconds expressed in the unit of `res`, as the nearest double. -/
def bound (res : Tsres) (s : ℚ) : ℚ := fl 53 (s * (1000000000 * res.value))

/-- The time `x` lies within the (closed, possibly open-ended) window. -/
def InWindow (res : Tsres) (start stop : Option ℚ) (x : ℚ) : Prop :=
  (∀ s, start = some s → bound res s ≤ x) ∧ (∀ e, stop = some e → x ≤ bound res e)

instance (res : Tsres) (start stop : Option ℚ) (x : ℚ) : Decidable (InWindow res start stop x) := by
  unfold InWindow
  cases start <;> cases stop <;> simp <;> infer_instance

/-- Times in non-decreasing order. -/
def Chronological (t : List Num) : Prop := t.Pairwise (fun a b => a.val ≤ b.val)

end Fp.Spec
