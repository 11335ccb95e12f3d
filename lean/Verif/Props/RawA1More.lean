import Verif.Lemmas.RawA1More

/-! # C04 for files with an incomplete event at the end -/
namespace Fp
open Spec

/-- **C04**, complete description for files that end inside an event: `sread_a1` yields the full batches and then raises
`ValueError`; the events after the last full batch, though complete, are lost. -/
theorem C04_stream_incomplete (fw : Nat) (legacy : Bool) (res : Tsres) (frac : Bool) (bufferSize : Nat) (hb : 0 < bufferSize)
    (file : Bytes) (h8 : file.length % 8 ≠ 0) :
    ∃ evs, readA1 fw legacy res frac (file.take (file.length / (bufferSize * 8) * (bufferSize * 8))) = .ok evs ∧
      IsBatching bufferSize evs (sreadA1 fw legacy res frac bufferSize file).1.1 ∧
      (sreadA1 fw legacy res frac bufferSize file).1.2 = some .valueError := by
  have hle : file.length / (bufferSize * 8) * (bufferSize * 8) ≤ file.length := Nat.div_mul_le_self _ _
  obtain ⟨evs, h1, h2, -, -⟩ := C04_stream_partial fw legacy res frac bufferSize hb
    (file.take (file.length / (bufferSize * 8) * (bufferSize * 8))) (by
      rw [List.length_take, Nat.min_eq_left hle, ← Nat.mul_assoc, Nat.mul_mod_left])
  have key := streamLoop_broken fw legacy res frac bufferSize hb file.length file rfl h8
  refine ⟨evs, h1, ?_, ?_⟩
  · show IsBatching _ _ (streamLoop _ _ file).1
    rw [key]
    exact h2
  · show (streamLoop _ _ file).2 = _
    rw [key]

/-- Instance of `C04_stream_incomplete`: three events and two more bytes, read with a buffer of two events; the third event is lost. -/
example : ((List.range 26).map UInt8.ofNat).length % 8 ≠ 0 ∧
    (((List.range 26).map UInt8.ofNat).take (((List.range 26).map UInt8.ofNat).length / (2 * 8) * (2 * 8))).length = 16 := by
  decide

end Fp
