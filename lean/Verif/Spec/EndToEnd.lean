import Verif.Spec.Freqcd
import Verif.Spec.FpFind

/-! # Specification of `fpfind` and `freqcd` used together -/
namespace Fp.Spec

/-- The situation of C65: `freqcd` corrects the events `src` with the number `n` printed by `fpfind --output 2` (`inv = false`)
or `fpfind --output 3` (`inv = true`) for the result `dt`, `df`; the i-th event goes in at time `t` and comes out at time `o`. -/
structure Corrects (inv : Bool) (dt df : ℚ) (rs : List Round) (src : Bytes) (i t0 t o : ℕ) : Prop where
  /-- the compensation is within the bound of `time_freq` (2^-13), or somewhat larger -/
  bound : |df| ≤ 1 / 2 ^ 12
  run : ∃ (legacy : Bool) (n : ℤ) (s s' : FState) (fo : Bool) (fsrc : Bytes) (stop : Option Stop),
    (fpOutput (fl 53) (if inv then 3 else 2) dt df).df = .inr n ∧ freqcdAccepts n ∧
    Initial s (BitVec.ofInt 32 n) fo src fsrc ∧ fRun legacy rs s = .ok (s', stop) ∧
    Throughout legacy rs s (fun s1 => s1.fcorr = BitVec.ofInt 32 n) ∧ NoStall legacy rs s ∧
    (times legacy src).Pairwise (· ≤ ·) ∧ (times legacy src).head? = some t0 ∧
    (times legacy src)[i]? = some t ∧ (times legacy s'.out)[i]? = some o

end Fp.Spec
