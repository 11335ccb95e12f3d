import Verif.Model.FpFind

/-! # Specification of the option `-V` of fpfind -/
namespace Fp.Spec

/-- The time and frequency compensation with reference and target exchanged (`inverted`), or as found. -/
def exchanged (inverted : Bool) (dt df : ℚ) : ℚ × ℚ := if inverted then (-dt * (1 + df), 1 / (1 + df) - 1) else (dt, df)

/-- What the bits of `-V` mean for the output: bit 0 exchanges the roles of the sides, bit 1 shows the frequency as an integer
in units of 2^-34, bit 2 removes the time, bit 3 shows it in units of 1/8 ns.  `e` bounds the relative rounding error of the
exchange. -/
structure ShownAs (flag : Nat) (e dt df : ℚ) (o : FpOutput) : Prop where
  /-- An absolute frequency. -/
  absolute : flag.testBit 1 = false → ∃ x, o.df = .inl x ∧ |x - (exchanged (flag.testBit 0) dt df).2| ≤ e
  /-- A number of units. -/
  units : flag.testBit 1 = true → ∃ n : ℤ, o.df = .inr n ∧ |n - (exchanged (flag.testBit 0) dt df).2 * 2 ^ 34| ≤ 1 / 2 + e * 2 ^ 34
  /-- No time. -/
  removed : flag.testBit 2 = true → o.dt = none
  /-- The time in ns, or in 1/8 ns. -/
  time : flag.testBit 2 = false → ∃ n : ℤ, o.dt = some n ∧
    |n - (exchanged (flag.testBit 0) dt df).1 * (if flag.testBit 3 then 8 else 1)| ≤
      1 / 2 + e * |(exchanged (flag.testBit 0) dt df).1| * (if flag.testBit 3 then 8 else 1)

end Fp.Spec
