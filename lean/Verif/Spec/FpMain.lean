import Verif.Model.FpMain
import Verif.Spec.Epoch
import Verif.Spec.Utils

/-! # Specifications for the input part of fpfind -/
namespace Fp.Spec

/-- A directory of epoch files `vs`: each under its usual name, nothing else, and every file readable. -/
def EpochDirOk (d : EpochDir) (isT1 : Bool) (vs : List Nat) : Prop :=
  d.names = vs.map (fun v : Nat => int2epoch (v : Int)) ∧ (∀ v : Nat, d.file (int2epoch (v : Int)) ≠ none ↔ v ∈ vs) ∧
    ∀ name file, d.file name = some file →
      ∃ evs, Returns (fun fuel => if isT1 then readT1 fuel false .ns1 true file else readT2 fuel false .ns1 true file) (.ok evs)

/-- The epoch `v` is in both directories and not before `first`. -/
def CommonNat (e1 e2 : List Nat) (first : Option Nat) (v : Nat) : Prop := v ∈ e1 ∧ v ∈ e2 ∧ ∀ f, first = some f → f ≤ v

/-- The common epochs start with `m`, and exactly `n` follow each other from there. -/
def FirstRun (e1 e2 : List Nat) (first : Option Nat) (m n : Nat) : Prop :=
  IsLeast {v | CommonNat e1 e2 first v} m ∧ (∀ i < n, CommonNat e1 e2 first (m + i)) ∧ ¬ CommonNat e1 e2 first (m + n)

end Fp.Spec
