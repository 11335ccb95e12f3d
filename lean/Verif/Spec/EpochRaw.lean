import Verif.Spec.Epoch
import Verif.Spec.Raw
import Verif.Spec.FpMain
import Verif.Spec.FpShift
import Verif.Model.Epoch

/-! # Specification of a stream of events cut into epoch files

Events are pairs of a time in units of 4 ps, counted from the beginning of epoch 0, and a detector pattern. -/
namespace Fp.Spec
open Fp

/-- The events of the epoch `e`. -/
def eventsOf (e : Nat) (evs : List (Nat × Nat)) : List (Nat × Nat) := evs.filter fun x => x.1 / 2 ^ 37 = e

/-- The events of the epochs `lo` to `lo + n - 1`, with the times that a timestamp file can hold. -/
def eventsFrom (lo n : Nat) (evs : List (Nat × Nat)) : List (Nat × Nat) :=
  (evs.filter fun x => lo ≤ x.1 / 2 ^ 37 ∧ x.1 / 2 ^ 37 < lo + n).map fun x => (x.1 % 2 ^ 54, x.2)

/-- The T1 file of the epoch `e`, as written by `write_T1` for the events of this epoch. -/
def IsT1 (e : Nat) (evs : List (Nat × Nat)) (file : Bytes) : Prop :=
  ∃ name, writeT1 (e : Int) ((eventsOf e evs).map fun x => ((x.1 % 2 ^ 37 : Nat) : Int)) (.list ((eventsOf e evs).map fun x => (x.2 : Int))) =
    .ok (name, file, none)

/-- A T2 file of the epoch `e`: the differences of the times (in units of 125 ps) of the events of this epoch. -/
def IsT2 (e : Nat) (evs : List (Nat × Nat)) (file : Bytes) : Prop :=
  ∃ tag len tw bb proto es body, file = t2File tag e len tw bb proto body ∧ tag < 2 ^ 32 ∧ len < 2 ^ 32 ∧ 1 ≤ tw ∧ tw ≤ 32 ∧ bb ≤ 32 ∧
    proto < 2 ^ 32 ∧ (∀ x ∈ es, Entry.Ok tw bb x) ∧ (len = 0 ∨ len = es.length) ∧
    Starts body (es.flatMap (Entry.bits tw bb) ++ terminator tw bb) ∧
    (eventsOf e evs).map (fun x => (x.1 % 2 ^ 54, x.2)) = (runningSums (e % 2 ^ 17 * 2 ^ 32) es).map fun x => (32 * x.1, x.2)

end Fp.Spec
