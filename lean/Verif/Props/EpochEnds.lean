import Verif.Lemmas.EpochEnds

/-! # C20 for T2 and T4 files: which files are read to an end -/
namespace Fp
open Spec

/-- **C20** for T2 files, complete: whatever bytes follow the header, reading ends (with events or an exception) exactly if the
bits are entries followed by the number 1 in the timing bits; otherwise it never ends. -/
theorem C20_t2_exact (tag epoch len tw bb proto : Nat) (h1 : tag < 2 ^ 32) (h2 : epoch < 2 ^ 32) (h3 : len < 2 ^ 32) (h4 : 1 ≤ tw)
    (h5 : tw ≤ 32) (h6 : bb ≤ 32) (h7 : proto < 2 ^ 32) (body : Bytes) (full : Bool) (res : Tsres) (frac : Bool) :
    ((∃ es : List Entry, (∀ e ∈ es, e.Ok tw bb) ∧ Starts body (es.flatMap (Entry.bits tw bb) ++ toBits tw 1)) ∧
      ∃ r, Returns (fun fuel => readT2 fuel full res frac (Spec.t2File tag epoch len tw bb proto body)) r) ∨
    ((¬ ∃ es : List Entry, (∀ e ∈ es, e.Ok tw bb) ∧ Starts body (es.flatMap (Entry.bits tw bb) ++ toBits tw 1)) ∧
      Diverges (fun fuel => readT2 fuel full res frac (Spec.t2File tag epoch len tw bb proto body))) := by
  obtain ⟨hd, g1, g2, g3, g4, g5, g6⟩ := t2_header tag epoch len tw bb proto h1 h2 h3 h5 h6 h7 body
  have hf : Spec.t2File tag epoch len tw bb proto body = [tag, epoch, len, tw, bb, proto].flatMap (leBytes 4) ++ body := rfl
  simp only [starts_iff]
  by_cases h : ∃ es : List Entry, (∀ e ∈ es, e.Ok tw bb) ∧ StartsAt body 0 (es.flatMap (Entry.bits tw bb) ++ toBits tw 1)
  · refine Or.inl ⟨h, ?_⟩
    obtain ⟨es, hes, hst⟩ := h
    obtain ⟨N, r, hN⟩ := loop_ends (t2_reads tw bb) body h4 h5 h6 es hes 0
      { bits := { buffer := 0, size := 0, rest := body }, timestamp := (((hd.epoch &&& ((1 <<< 17) - 1)) <<< 32 : Nat) : ℚ), acc := [] }
      (at_init body) hst
    have key : ∀ fuel, N ≤ fuel → readT2 fuel full res frac (Spec.t2File tag epoch len tw bb proto body) =
        readT2 N full res frac (Spec.t2File tag epoch len tw bb proto body) := by
      intro fuel hf'
      unfold readT2
      rw [hf, g1]
      simp only [g6, g4, g5]
      rw [hN, runLoop_more _ N fuel hf' _ _ hN]
    have hs : ∃ x, readT2 N full res frac (Spec.t2File tag epoch len tw bb proto body) = some x := by
      unfold readT2
      rw [hf, g1]
      simp only [g6, g4, g5]
      rw [hN]
      cases r with
      | error e => exact ⟨_, rfl⟩
      | ok ev =>
        simp only
        split
        · exact ⟨_, rfl⟩
        · exact ⟨_, rfl⟩
    obtain ⟨x, hx⟩ := hs
    exact ⟨x, N, fun fuel hf' => by show readT2 fuel _ _ _ _ = _; rw [key fuel hf', hx]⟩
  · refine Or.inr ⟨h, fun fuel => ?_⟩
    show readT2 fuel _ _ _ _ = _
    unfold readT2
    rw [hf, g1]
    simp only [g6, g4, g5]
    rw [loop_runs (t2_reads tw bb) body h5 h6 fuel 0 _ (at_init body) h]

/-- **C20** for T4 files, complete: as `C20_t2_exact`. -/
theorem C20_t4_exact (tag epoch len tw bb : Nat) (h1 : tag < 2 ^ 32) (h2 : epoch < 2 ^ 32) (h3 : len < 2 ^ 32) (h4 : 1 ≤ tw)
    (h5 : tw ≤ 32) (h6 : bb ≤ 32) (body : Bytes) :
    ((∃ es : List Entry, (∀ e ∈ es, e.Ok tw bb) ∧ Starts body (es.flatMap (Entry.bits tw bb) ++ toBits tw 1)) ∧
      ∃ r, Returns (fun fuel => readT4 fuel (Spec.t4File tag epoch len tw bb body)) r) ∨
    ((¬ ∃ es : List Entry, (∀ e ∈ es, e.Ok tw bb) ∧ Starts body (es.flatMap (Entry.bits tw bb) ++ toBits tw 1)) ∧
      Diverges (fun fuel => readT4 fuel (Spec.t4File tag epoch len tw bb body))) := by
  obtain ⟨hd, g1, g2, g3, g4, g5, g6⟩ := t4_header tag epoch len tw bb h1 h2 h3 h5 h6 body
  have hf : Spec.t4File tag epoch len tw bb body = [tag, epoch, len, tw, bb].flatMap (leBytes 4) ++ body := rfl
  simp only [starts_iff]
  by_cases h : ∃ es : List Entry, (∀ e ∈ es, e.Ok tw bb) ∧ StartsAt body 0 (es.flatMap (Entry.bits tw bb) ++ toBits tw 1)
  · refine Or.inl ⟨h, ?_⟩
    obtain ⟨es, hes, hst⟩ := h
    obtain ⟨N, r, hN⟩ := loop_ends (t4_reads tw bb) body h4 h5 h6 es hes 0
      { bits := { buffer := 0, size := 0, rest := body }, timeIndex := 0, acc := [] } (at_init body) hst
    have key : ∀ fuel, N ≤ fuel → readT4 fuel (Spec.t4File tag epoch len tw bb body) = readT4 N (Spec.t4File tag epoch len tw bb body) := by
      intro fuel hf'
      unfold readT4
      rw [hf, g1]
      simp only [g6, g4, g5]
      rw [hN, runLoop_more _ N fuel hf' _ _ hN]
    have hs : ∃ x, readT4 N (Spec.t4File tag epoch len tw bb body) = some x := by
      unfold readT4
      rw [hf, g1]
      simp only [g6, g4, g5]
      rw [hN]
      cases r with
      | error e => exact ⟨_, rfl⟩
      | ok ev =>
        simp only
        split
        · exact ⟨_, rfl⟩
        · exact ⟨_, rfl⟩
    obtain ⟨x, hx⟩ := hs
    exact ⟨x, N, fun fuel hf' => by show readT4 fuel _ = _; rw [key fuel hf', hx]⟩
  · refine Or.inr ⟨h, fun fuel => ?_⟩
    show readT4 fuel _ = _
    unfold readT4
    rw [hf, g1]
    simp only [g6, g4, g5]
    rw [loop_runs (t4_reads tw bb) body h5 h6 fuel 0 _ (at_init body) h]


/-- Instances of the two cases, with 8 timing bits and 8 detector bits: the terminator follows an entry of 5 time units, and a
file with that entry only. -/
example : (∃ es : List Entry, (∀ e ∈ es, e.Ok 8 8) ∧ Starts [0, 1, 3, 5] (es.flatMap (Entry.bits 8 8) ++ toBits 8 1)) ∧
    ¬ ∃ es : List Entry, (∀ e ∈ es, e.Ok 8 8) ∧ Starts [0, 0, 3, 5] (es.flatMap (Entry.bits 8 8) ++ toBits 8 1) := by
  constructor
  · refine ⟨[⟨false, 5, 3⟩], by simp [Entry.Ok], ?_⟩
    have : ∀ i : Fin 24, bitAt [0, 1, 3, 5] i = ([⟨false, 5, 3⟩].flatMap (Entry.bits 8 8) ++ toBits 8 1)[i.val]'(by
      have := i.isLt; exact this) := by decide +kernel
    exact fun i hi => this ⟨i, hi⟩
  · rcases C20_t4_exact 0 0 0 8 8 (by norm_num) (by norm_num) (by norm_num) (by norm_num) (by norm_num) (by norm_num) [0, 0, 3, 5] with ⟨-, r, N, hN⟩ | h
    · have := C20_t4_negation 0 0 0 8 8 (by norm_num) (by norm_num) (by norm_num) (by norm_num) (by norm_num) [⟨false, 5, 3⟩]
        (by simp [Entry.Ok]) [0, 0, 3, 5] (fun i hi => by
          have : ∀ i : Fin 16, bitAt [0, 0, 3, 5] i = ([⟨false, 5, 3⟩].flatMap (Entry.bits 8 8))[i.val]'(by
            have := i.isLt; exact this) := by decide +kernel
          exact this ⟨i, hi⟩) (fun i hi => ?_) N
      · have h2 := hN N le_rfl
        rw [this] at h2
        simp at h2
      · have hi' : 16 ≤ i := hi
        by_cases h32 : i < 32
        · have : ∀ i : Fin 32, 16 ≤ i.val → bitAt [0, 0, 3, 5] i = false := by decide +kernel
          exact this ⟨i, h32⟩ hi'
        · unfold bitAt
          rw [List.drop_of_length_le (by simp; omega)]
          simp [leNat]
    · exact h.1

end Fp
