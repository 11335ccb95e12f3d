import Verif.Spec.FreqcdProgram
import Verif.Spec.Raw
import Verif.Model.TestGen

/-! Specification vocabulary for the exact output of `freqcd` on regular files. -/
namespace Fp.Spec

/-- By how much an event at `t` is moved relative to the reference time `ref`, in units of 4 ps, with the correction `n`. -/
def moveOf (n : ℤ) (ref t : ℕ) : ℤ := ⌊(⌊((t : ℚ) - ref) / 2 ^ 12⌋ * n : ℚ) / 2 ^ 22⌋

/-- The corrected events, given in blocks: the events of a block are moved relative to the last event of the block before, in
addition to the move `x` of that event. -/
def correctedBlocks (n : ℤ) : List (List (ℕ × ℕ)) → ℕ → ℤ → List (ℕ × ℕ)
  | [], _, _ => []
  | b :: bs, ref, x =>
    (b.map fun e => (((e.1 + (x + moveOf n ref e.1)) % 2 ^ 54).toNat, e.2)) ++
      correctedBlocks n bs ((b.getLast?.map Prod.fst).getD ref) (x + moveOf n ref ((b.getLast?.map Prod.fst).getD ref))

/-- The bytes on the standard output. -/
def outBytes (l : List Out) : Bytes := l.flatMap fun
  | .raw b => b
  | .num _ => []

/-- `generate_freqcd_testcase.py -t ts | freqcd args | generate_freqcd_testcase.py -` prints the numbers `nums`: `args` are the
arguments of `freqcd`, `m` and `rounds` its memory and the answers of the kernel; `temp` is the random file name of the third
program. -/
def PipelinePrints (fw : Nat) (ts : List Int) (argv : List Bytes) (m : FMemory) (rounds : List Round) (temp : List Char) (nums : List Int) : Prop :=
  ∃ o, Outcome ⟨fun _ => none, fun _ => false,
      outBytes (genMain fw { o := none, t := some ts, x := false, infile := none } [] [] [] ⟨fun _ => none, []⟩).1.out⟩ argv m rounds o ∧
    o.status = some 0 ∧
    genMain fw { o := none, t := none, x := false, infile := some ['-'] } temp o.stdout [] ⟨fun _ => none, []⟩ = (⟨fun _ => none, nums.map .num⟩, none)

end Fp.Spec
