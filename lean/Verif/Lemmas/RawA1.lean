import Verif.Lemmas.Raw

/-! Helper lemmas for `Verif/Props/RawA1.lean`. -/
namespace Fp
open Spec

theorem consolidateEvents_eq (fw : Nat) (hfw : 54 ≤ fw) (res : Tsres) (events : List (Num × Nat))
    (raws : List (Nat × Nat))
    (h : List.Forall₂ (fun e r => e.1.val = timeIn res r.1 ∧ e.2 = r.2 ∧ Valid r) events raws) :
    consolidateEvents fw res false events = raws.map (fun r => r.1 * 1024 + r.2) := by
  unfold consolidateEvents
  simp only [Bool.false_eq_true, if_false]
  induction h with
  | nil => rfl
  | @cons e r es rs he hs ih =>
    rw [List.map_cons, List.map_cons, ih]
    obtain ⟨x, p⟩ := e
    obtain ⟨h1, h2, h3⟩ := he
    simp only at h1 h2
    subst h2
    rw [consolidate_eq fw hfw res x r.1 r.2 h1 h3.1 (lt_trans h3.2 (by norm_num))]

theorem encode_eq_a1Event (legacy : Bool) (r : Nat × Nat) (h : Valid r) :
    encodeA1 legacy (r.1 * 1024 + r.2) = a1Event legacy r := by
  obtain ⟨t, p⟩ := r
  obtain ⟨h1, h2⟩ := h
  simp only at h1 h2
  have e1 : (t * 1024 + p) / 2 ^ 32 = t / 2 ^ 22 := by omega
  have e2 : (t * 1024 + p) % 2 ^ 32 = t % 2 ^ 22 * 2 ^ 10 + p := by omega
  rw [encodeA1_eq legacy _ (by omega)]
  unfold a1Event rowOf rowBytes
  simp only [e1, e2]
  cases legacy <;> simp

theorem byte_and_0F (n : Nat) : UInt8.ofNat n &&& 0x0F = UInt8.ofNat (n % 16) := by
  apply UInt8.toNat_inj.mp
  rw [UInt8.toNat_and, UInt8.toNat_ofNat', UInt8.toNat_ofNat']
  have : (0x0F : UInt8).toNat = 15 := rfl
  rw [this, and15]
  omega

theorem byte_and_FC (n : Nat) : UInt8.ofNat n &&& 0xFC = UInt8.ofNat (n / 4 * 4) := by
  apply UInt8.toNat_inj.mp
  rw [UInt8.toNat_and, UInt8.toNat_ofNat', UInt8.toNat_ofNat']
  have h0 : (0xFC : UInt8).toNat = 252 := rfl
  have h1 : ∀ m : Fin 256, m.val &&& 252 = m.val / 4 * 4 := by decide +kernel
  rw [h0]
  have h2 := h1 ⟨n % 2 ^ 8, Nat.mod_lt _ (by norm_num)⟩
  simp only at h2
  rw [h2]
  omega

/-- the value with bits 4..9 cleared -/
def clearLine (n : Nat) : Nat := n / 1024 * 1024 + n % 16

theorem leBytes4_clear (n : Nat) :
    leBytes 4 (clearLine n) = [UInt8.ofNat (n % 256) &&& 0x0F, UInt8.ofNat (n / 256 % 256) &&& 0xFC,
      UInt8.ofNat (n / 256 / 256 % 256), UInt8.ofNat (n / 256 / 256 / 256 % 256)] := by
  rw [byte_and_0F, byte_and_FC]
  simp only [leBytes, clearLine]
  have e1 : (n / 1024 * 1024 + n % 16) % 256 = n % 256 % 16 := by omega
  have e2 : (n / 1024 * 1024 + n % 16) / 256 = n / 1024 * 4 := by omega
  rw [e1, e2, show n / 1024 * 4 % 256 = n / 256 % 256 / 4 * 4 by omega, show n / 1024 * 4 / 256 = n / 256 / 256 by omega]

theorem clearFlags_encode (legacy : Bool) (n : Nat) (h : n < 2 ^ 64) (rest : Bytes) :
    clearFlags legacy (encodeA1 legacy n ++ rest) = encodeA1 legacy (clearLine n) ++ clearFlags legacy rest := by
  have hc : clearLine n < 2 ^ 64 := by unfold clearLine; omega
  have e1 : clearLine n / 2 ^ 32 = n / 2 ^ 32 := by unfold clearLine; omega
  have e2 : clearLine n % 2 ^ 32 = clearLine (n % 2 ^ 32) := by unfold clearLine; omega
  rw [encodeA1_eq legacy n h, encodeA1_eq legacy _ hc]
  unfold rowOf rowBytes
  rw [e1, e2]
  cases legacy
  · simp only [Bool.false_eq_true, if_false]
    rw [leBytes4_clear]
    simp only [leBytes, List.cons_append, List.nil_append, clearFlags, Bool.false_eq_true, if_false]
  · simp only [if_true]
    rw [leBytes4_clear]
    simp only [leBytes, List.cons_append, List.nil_append, clearFlags, if_true]

theorem clearFlags_lines (legacy : Bool) (lines : List Nat) (h : ∀ n ∈ lines, n < 2 ^ 64) :
    clearFlags legacy (lines.flatMap (encodeA1 legacy)) = (lines.map clearLine).flatMap (encodeA1 legacy) := by
  induction lines with
  | nil => rfl
  | cons n ns ih =>
    rw [List.flatMap_cons, clearFlags_encode legacy n (h n (by simp)), ih (fun n hn => h n (by simp [hn])),
      List.map_cons, List.flatMap_cons]

theorem consolidate_back (fw : Nat) (hfw : 54 ≤ fw) (lines : List Nat) (h : ∀ n ∈ lines, n < 2 ^ 64) :
    consolidateEvents fw .ps4 false
      (lines.map (fun n => (formatTimestamp fw .ps4 false (.u64 (n / 1024)), n % 16))) = lines.map clearLine := by
  unfold consolidateEvents
  simp only [Bool.false_eq_true, if_false, List.map_map]
  apply List.map_congr_left
  intro n hn
  have := h n hn
  simp only [Function.comp]
  rw [consolidate_eq fw hfw .ps4 _ (n / 1024) (n % 16) _ (by omega) (by omega), clearLine]
  simp [formatTimestamp, Num.val, timeIn, Tsres.value]

theorem lines_of_file (legacy : Bool) (file : Bytes) (h8 : file.length % 8 = 0) :
    ∃ lines : List Nat, (∀ n ∈ lines, n < 2 ^ 64) ∧ file = lines.flatMap (encodeA1 legacy) := by
  obtain ⟨lines, rest, h1, h2, h3⟩ := exists_lines legacy file
  rw [h8] at h2
  have : rest = [] := List.length_eq_zero_iff.mp h2
  subst this
  exact ⟨lines, h1, by simpa using h3⟩

theorem swapHalves_encode (n : Nat) (h : n < 2 ^ 64) (legacy : Bool) (rest : Bytes) :
    swapHalves (encodeA1 legacy n ++ rest) = encodeA1 (!legacy) n ++ swapHalves rest := by
  rw [encodeA1_eq legacy n h, encodeA1_eq (!legacy) n h]
  cases legacy <;> simp [rowOf, rowBytes, leBytes, swapHalves]

theorem decodeBuffer_lines (fw : Nat) (legacy : Bool) (res : Tsres) (frac : Bool) (lines : List Nat)
    (h : ∀ n ∈ lines, n < 2 ^ 64) :
    decodeBuffer fw legacy res frac (lines.flatMap (encodeA1 legacy)) =
      .ok (lines.map (fun n => (formatTimestamp fw res frac (.u64 (n / 1024)), n % 16))) := by
  unfold decodeBuffer frombuffer32
  have hlen : (lines.flatMap (encodeA1 legacy)).length % 4 = 0 := by
    rw [flatMap_length_const _ 8 (encodeA1_length legacy)]; omega
  rw [if_pos hlen]
  have := readA1_lines fw legacy res frac lines h [] (by simp)
  rw [List.append_nil] at this
  unfold readA1 at this
  exact this

theorem foldl_append {α β : Type} (f : β → List α) (stream : List β) (acc : List α) :
    stream.foldl (fun a b => a ++ f b) acc = acc ++ stream.flatMap f := by
  induction stream generalizing acc with
  | nil => simp
  | cons b bs ih => rw [List.foldl_cons, ih, List.flatMap_cons, List.append_assoc]

theorem flatMap_flatten' {α β : Type} (f : β → List α) (stream : List (List β)) :
    stream.flatMap (fun b => b.flatMap f) = stream.flatten.flatMap f := by
  induction stream with
  | nil => rfl
  | cons b bs ih => rw [List.flatMap_cons, ih, List.flatten_cons, List.flatMap_append]

end Fp
