import Verif.Props.EpochT1
import Verif.Props.Freqcd
import Verif.Props.FreqcdChannel

/-! # C16 for the files of `write_T1`, C41 for the corrections that freqcd accepts -/
namespace Fp
open Spec

/-- **C16** for what `write_T1` writes: cut anywhere but inside the last event, the file is refused or read completely; cut inside the last
event it is refused, or the number of events and all others are right. -/
theorem C16_written_partial (epoch : Int) (evs : List (Nat × Nat)) (hv : ∀ e ∈ evs, T1Valid e) (hlen : evs.length < 2 ^ 32)
    (hz : ∀ e ∈ evs, ¬ ZeroEvent (epoch % 2 ^ 32).toNat e) (full : Bool) (res : Tsres) (frac : Bool) :
    ∃ name file, writeT1 epoch (evs.map fun e => (e.1 : Int)) (.list (evs.map fun e => (e.2 : Int))) = .ok (name, file, none) ∧
      ∀ k, (∃ e, Returns (fun fuel => readT1 fuel full res frac (file.take k)) (.error e)) ∨
        ∃ out, Returns (fun fuel => readT1 fuel full res frac (file.take k)) (.ok out) ∧ out.length = evs.length ∧
          out.dropLast = (evs.map fun e => (t1Convert (epoch % 2 ^ 32).toNat full res frac (t1Time (epoch % 2 ^ 32).toNat e.1), e.2)).dropLast ∧
          (¬ (20 + 8 * (evs.length - 1) < k ∧ k < 20 + 8 * evs.length) →
            out = evs.map fun e => (t1Convert (epoch % 2 ^ 32).toNat full res frac (t1Time (epoch % 2 ^ 32).toNat e.1), e.2)) := by
  have he : (epoch % 2 ^ 32).toNat < 2 ^ 32 := by omega
  exact ⟨_, _, C14_t1_file epoch evs hv hlen, fun k => C16_interrupted_partial _ he evs hv hlen hz full res frac k⟩

/-- Instance of C16_written_partial: two events. -/
example : (∀ e ∈ [(2 ^ 21, 1), (2 ^ 30 + 7, 8)], T1Valid e) ∧ ∀ e ∈ [(2 ^ 21, 1), (2 ^ 30 + 7, 8)], ¬ ZeroEvent ((5 : Int) % 2 ^ 32).toNat e := by
  simp [T1Valid, ZeroEvent]

/-- **C41** for a correction that freqcd has accepted from a line of the frequency channel, other than -2^31 (C46): no overflow. -/
theorem C41_accepted (f : BitVec 32) (line : Bytes) (hf : |f.toInt| < 2 ^ 21) (hne : (fcorrUpdate f line).toInt ≠ -2 ^ 31)
    (tsref tsmeas : BitVec 64) (hle : tsref.toNat ≤ tsmeas.toNat) (hm : tsmeas.toNat < 2 ^ 54) :
    (tsCorr (fcorrUpdate f line) tsref tsmeas).toInt =
        ⌊(⌊((tsmeas.toNat : ℚ) - tsref.toNat) / 2 ^ 12⌋ * (fcorrUpdate f line).toInt : ℚ) / 2 ^ 22⌋ ∧
    |(⌊((tsmeas.toNat : ℚ) - tsref.toNat) / 2 ^ 12⌋ * (fcorrUpdate f line).toInt : ℤ)| < 2 ^ 63 := by
  refine C41_no_overflow _ tsref tsmeas hle hm ?_
  revert hne
  unfold fcorrUpdate
  split
  · rename_i hc
    rw [cabs_slt _ _ (by decide), show fcorrMax.toInt = 2 ^ 21 by decide] at hc
    intro hne
    rcases hc with h | h
    · exact absurd h hne
    · exact h
  · exact fun _ => hf

/-- **C41** fails for -2^31, which freqcd accepts (C46): the product overflows. -/
theorem C41_smallest_violated : ∃ line, (fcorrUpdate 0 line).toInt = -2 ^ 31 ∧
    (tsCorr (fcorrUpdate 0 line) 0 (BitVec.ofNat 64 (2 ^ 54 - 1))).toInt ≠ ((2 ^ 54 - 1) / 2 ^ 12 * (-2 ^ 31)) / 2 ^ 22 :=
  ⟨"-2147483648".toList.map fun c => UInt8.ofNat c.toNat, by decide +kernel, by decide +kernel⟩

/-- Instance of C41_accepted: the line 1000. -/
example : (fcorrUpdate 0 [49, 48, 48, 48]).toInt = 1000 := by decide +kernel

end Fp
