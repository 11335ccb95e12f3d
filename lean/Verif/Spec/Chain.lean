import Verif.Spec.RawMain

/-! # C128: splitting recordings with `parse_timestamps` -/
namespace Fp.Spec

/-- A conversion in batches of the file `inp` to the file `out`. -/
structure Converts (args : TsArgs) (inp out : List Char) : Prop where
  infile : args.infile = inp
  outfile : args.outfile = some out
  named : out ≠ []
  different : inp ≠ out
  print : args.print = false
  inmemory : args.inmemory = false
  pattern : ∀ pat, args.filter.pattern = some pat → pat < 16

/-- A recording: valid events in the order of time, with times below 2^53 units (25 days). -/
structure Recording (raws : List (Nat × Nat)) : Prop where
  valid : ∀ r ∈ raws, Valid r
  sorted : raws.Pairwise fun x y => x.1 ≤ y.1
  small : ∀ r ∈ raws, r.1 < 2 ^ 53

/-- The number of events with the bit of a detector. -/
def detections (i : Nat) (raws : List (Nat × Nat)) : Nat := raws.countP fun r => r.2.testBit i

end Fp.Spec
