import Verif.Spec.Shell
import Verif.Spec.RawMain
import Verif.Spec.FreqcdExact
import Verif.Spec.FreqcdProgram

/-! # Specifications for converted recordings in the other programs -/
namespace Fp.Spec

/-- `parse_timestamps OPTIONS inp out OPTIONS` asks for a conversion from the format `f` (with `-X` if `X`) to the format `g` (with `-x` if
`x`) with the filters `F`. -/
structure ConvertCall (l l2 : List Setting) (f : Fmt) (X : Bool) (g : Fmt) (x : Bool) (F : FilterArgs) (inp out : Word) : Prop where
  ok : ∀ s ∈ l ++ l2, s.Ok tsSpec
  input : InFormat (l ++ l2) f X
  output : OutFormat (l ++ l2) g x
  filters : FilterMeaning (l ++ l2) F
  pattern : ∀ pat, F.pattern = some pat → pat < 16
  noPrint : ¬ Given (l ++ l2) "print"
  noMemory : ¬ Given (l ++ l2) "inmemory"
  plain : PlainWord inp ∧ PlainWord out
  names : out ≠ [] ∧ inp ≠ out

/-- The words of that call. -/
def convertWords (l l2 : List Setting) (inp out : Word) : List Word := cmdWords l ++ [inp, out] ++ cmdWords l2

/-- Events that can be converted from the format `f` with the filters `F`. -/
def Convertible (f : Fmt) (F : FilterArgs) (raws : List (Nat × Nat)) : Prop :=
  (∀ r ∈ raws, Valid r) ∧ Representable f raws ∧ (Timed F → raws.Pairwise (fun x y => x.1 ≤ y.1) ∧ ∀ r ∈ raws, r.1 < 2 ^ 53)

/-- Two command lines give the same options, apart from some. -/
def SameApart (ds : List String) (l l' : List Setting) : Prop :=
  ∀ d, d ∉ ds → lastSet l d = lastSet l' d ∧ (Given l d ↔ Given l' d)

/-- A call of `fpfind` for two timestamp files that hold the events `a` and `b`. -/
structure FpOn (files : Files) (l : List Setting) (a b : List (Nat × Nat)) : Prop where
  call : FpCall files l
  files : ∃ A B x, lastSet l "reference" = some A ∧ lastSet l "target" = some B ∧ (x = true ↔ Given l "legacy") ∧
    files A = some (fileOf .a1 x a) ∧ files B = some (fileOf .a1 x b)
  nodirs : lastSet l "sendfiles" = none ∧ lastSet l "t1files" = none

/-- The duration to skip that is asked for is the given number of nanoseconds. -/
def SkipsNs (l : List Setting) (k : ℤ) : Prop := ∀ x, FloatSet l "skip_duration" (some 0) (some x) → x * 10 ^ 9 = k

/-- The event `e'` is the event `e`, corrected by `n` (in units of 2^-34) relative to the time `t0`, up to the error `err` of the time. -/
def CorrectedEvent (n : ℤ) (t0 : ℕ) (err : ℚ) (e e' : ℕ × ℕ) : Prop :=
  e'.2 = e.2 ∧ ∃ c : ℤ, (e'.1 : ℤ) = (e.1 + c) % 2 ^ 54 ∧ |(c : ℚ) - ((e.1 : ℚ) - t0) * n / 2 ^ 34| ≤ err

/-- `parse_timestamps first`, then `freqcd [-x] -i A1 -o B1 -f v` on the file `A1` (read in at most `blocks` blocks), then
`parse_timestamps second` all succeed, whatever the memory of `freqcd` contains, and leave `content` in the file `B`. -/
def ThreeSteps (fw : Nat) (files : Files) (first : List Word) (prog : Bytes) (x : Bool) (A1 B1 : Word) (v : Bytes) (blocks : ℕ)
    (second : List Word) (B : Word) (content : Bytes) : Prop :=
  ∃ files1, tsCli fw first files = .ran ⟨files1, none, none⟩ ∧
    ∀ (W : FWorld), W.files (textBytes A1) = files1 A1 → W.writable (textBytes B1) = true → ∀ (m : FMemory) (rounds : List Round),
      FMemory.Sized m → (∀ r ∈ rounds, FullRound r) → blocks < rounds.length →
      ∃ o, Outcome W ([prog] ++ (if x then [[45, 120]] else []) ++ [[45, 105], textBytes A1, [45, 111], textBytes B1, [45, 102], v]) m rounds o ∧
        o.status = some 0 ∧ ∀ files2 : Files, files2 B1 = some (FOutcome.output o (textBytes B1)) →
          tsCli fw second files2 = .ran ⟨files2.set B content, none, none⟩

end Fp.Spec
