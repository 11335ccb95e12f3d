import Verif.Lemmas.EpochBits

/-! # Properties of the bit-packed epoch files T2 and T4: C17-C21 -/
namespace Fp
open Spec

/-! ## C17 -/

/-- Successive calls of `extract_bits` on one file. -/
def extractAll : List Nat → BitState → Except PyErr (List Nat × BitState)
  | [], s => .ok ([], s)
  | w :: ws, s => do
    let (x, s) ← extractBits (w : Int) s
    let (xs, s) ← extractAll ws s
    return (x :: xs, s)

/-- **C17**.  Successive calls with any widths up to 32 return the consecutive fields of the bit stream of the file (zeros
after its end), and the number of words consumed from the file is exactly what is needed to cover the bits returned. -/
theorem C17_bit_stream (body : Bytes) (ws : List Nat) (hw : ∀ w ∈ ws, w ≤ 32) :
    ∃ s, extractAll ws { buffer := 0, size := 0, rest := body } = .ok (Spec.fields body 0 ws, s) ∧
      s.rest = body.drop (4 * ((ws.sum + 31) / 32)) := by
  have key : ∀ (ws : List Nat) (pos : Nat) (s : BitState), (∀ w ∈ ws, w ≤ 32) → At body pos s →
      ∃ s', extractAll ws s = .ok (Spec.fields body pos ws, s') ∧ At body (pos + ws.sum) s' := by
    intro ws
    induction ws with
    | nil => intro pos s _ h; exact ⟨s, rfl, by simpa using h⟩
    | cons w ws ih =>
      intro pos s hw h
      obtain ⟨s1, h1, h2⟩ := extractBits_at body pos w (hw w (by simp)) s h
      obtain ⟨s2, h3, h4⟩ := ih (pos + w) s1 (fun w hw' => hw w (by simp [hw'])) h2
      refine ⟨s2, ?_, ?_⟩
      · simp only [extractAll, h1, bind, Except.bind, h3, pure, Except.pure, Spec.fields]
      · rw [List.sum_cons, ← Nat.add_assoc]; exact h4
  obtain ⟨s, h1, hlt, _, c, hc, hr⟩ := key ws 0 _ hw (at_init body)
  refine ⟨s, h1, ?_⟩
  rw [hr]
  congr 2
  omega

/-- Instance of C17: fields that straddle words. -/
example : (extractAll [4, 30, 30] { buffer := 0, size := 0, rest := [0x78, 0x56, 0x34, 0x12, 0xff, 0xff, 0xff, 0xff] }).toOption.map Prod.fst =
    some [1, 0x2345678 * 4 + 3, 2 ^ 30 - 1] := by decide +kernel

/-! ## Decoding entries -/

/-! ## C18 -/

/-- **C18**.  For every list of entries, all widths and anything after the terminator, `read_T2` returns (default mode, in
every unit) exactly the running sums of the time differences, starting from the 17-bit epoch prefix, with the detector
bits in order; with `full_epoch` the upper 15 epoch bits are added. The times fit into the 49-bit format (without
`full_epoch`, 53 bits suffice). -/
theorem C18_t2_decode (tag epoch len tw bb proto : Nat) (h1 : tag < 2 ^ 32) (h2 : epoch < 2 ^ 32) (h3 : len < 2 ^ 32)
    (h4 : 1 ≤ tw) (h5 : tw ≤ 32) (h6 : bb ≤ 32) (h7 : proto < 2 ^ 32) (es : List Entry) (hes : ∀ e ∈ es, e.Ok tw bb)
    (hlen : len = 0 ∨ len = es.length) (body : Bytes) (hs : Starts body (es.flatMap (Entry.bits tw bb) ++ terminator tw bb))
    (full : Bool) (hsum : ∀ x ∈ runningSums (epoch % 2 ^ 17 * 2 ^ 32) es, x.1 < if full then 2 ^ 49 else 2 ^ 53) (res : Tsres) :
    Returns (fun fuel => readT2 fuel full res true (Spec.t2File tag epoch len tw bb proto body))
      (.ok ((runningSums (epoch % 2 ^ 17 * 2 ^ 32) es).map fun x =>
        (.flt (((if full then epoch / 2 ^ 17 * 2 ^ 49 + x.1 else x.1 : Nat) : ℚ) * res.value / 8), x.2))) := by
  have hsum53 : ∀ x ∈ runningSums (epoch % 2 ^ 17 * 2 ^ 32) es, x.1 < 2 ^ 53 := by
    intro x hx
    have := hsum x hx
    cases full <;> simp at this <;> omega
  have h := readT2_decoded tag epoch len tw bb proto h1 h2 h3 h4 h5 h6 h7 es hes hlen body hs hsum53 full res true
  unfold Spec.t2File
  convert h using 1
  generalize runningSums (epoch % 2 ^ 17 * 2 ^ 32) es = xs at hsum hsum53
  have hmsb : epoch / 2 ^ 17 < 2 ^ 15 := by omega
  -- scaling by the power of two res/8
  obtain ⟨z, hz⟩ : ∃ z : ℤ, (Tsres.ps125.value : ℚ) / res.value = 2 ^ (-z) := by
    cases res
    · exact ⟨-3, by norm_num [Tsres.value]⟩
    · exact ⟨0, by norm_num [Tsres.value]⟩
    · exact ⟨5, by norm_num [Tsres.value]⟩
  have hz2 : (res.value : ℚ) / 8 = 2 ^ z := by
    have hv : (res.value : ℚ) ≠ 0 := by cases res <;> simp [Tsres.value]
    rw [zpow_neg] at hz
    have : (Tsres.ps125.value : ℚ) = 8 := by norm_num [Tsres.value]
    rw [this] at hz
    rw [← inv_inj, inv_div, hz]
  have hscale : ∀ n : Nat, n < 2 ^ 64 → fl 64 ((n : ℚ) / ((Tsres.ps125.value : ℚ) / res.value)) = (n : ℚ) * 2 ^ z := by
    intro n hn
    rw [hz, zpow_neg, div_inv_eq_mul, fl_mul_zpow, fl_nat 64 n hn]
  unfold t2Convert
  simp only [if_true, bind, Except.bind, pure, Except.pure, List.map_map]
  rw [List.zip_map']
  congr 1
  apply List.map_congr_left
  intro x hx
  have hx1 := hsum x hx
  have hx2 := hsum53 x hx
  simp only [Function.comp, Prod.mk.injEq, and_true]
  congr 1
  rw [mul_div_assoc, hz2]
  cases full
  · simp only [Bool.false_eq_true, if_false]
    rw [hscale _ (by omega)]
  · simp only [if_true] at hx1 ⊢
    rw [shr_eq, shl_eq]
    have hb : epoch / 2 ^ 17 * 2 ^ 49 + x.1 < 2 ^ 64 := by omega
    generalize epoch / 2 ^ 17 * 2 ^ 49 = m at hb ⊢
    have hem : m < 2 ^ 64 := by omega
    have hs := fl_nat 64 (m + x.1) hb
    rw [fl_nat 64 _ hem, hscale _ hem, hscale _ (by omega), ← add_mul, fl_mul_zpow, ← hs, Nat.cast_add, add_comm (x.1 : ℚ) (m : ℚ)]

/-- Instance of C18: an extended and a short entry with 4-bit fields, followed by the terminator and other bytes. -/
example : Starts [0, 0, 0, 0, 0x10, 0x51, 0x91, 0x50, 0xff]
    ((([⟨true, 5, 0⟩, ⟨false, 9, 1⟩, ⟨false, 5, 1⟩] : List Entry).flatMap (Entry.bits 4 4)) ++ terminator 4 4) := by
  unfold Starts
  decide +kernel

/-! ## C19 -/

/-- **C19**.  For every list of entries, all widths and anything after the terminator, `read_T4` returns the running sums
of the index differences (stored increased by 2) and the detector bits. -/
theorem C19_t4_decode (tag epoch len tw bb : Nat) (h1 : tag < 2 ^ 32) (h2 : epoch < 2 ^ 32) (h3 : len < 2 ^ 32)
    (h4 : 1 ≤ tw) (h5 : tw ≤ 32) (h6 : bb ≤ 32) (es : List Entry) (hes : ∀ e ∈ es, e.Ok tw bb)
    (hlen : len = 0 ∨ len = es.length) (body : Bytes) (hs : Starts body (es.flatMap (Entry.bits tw bb) ++ terminator tw bb)) :
    Returns (fun fuel => readT4 fuel (Spec.t4File tag epoch len tw bb body)) (.ok (runningIndex 0 es)) := by
  refine ⟨es.length + 1, fun fuel hf => ?_⟩
  obtain ⟨hd, g1, g2, g3, g4, g5, g6⟩ := t4_header tag epoch len tw bb h1 h2 h3 h5 h6 body
  unfold readT4 Spec.t4File
  rw [g1]
  simp only []
  rw [g6, g3, g4, g5]
  rw [t4_loop body tw bb h4 h5 h6 es hes 0 (startsAt_zero body _ hs) _ (at_init body) 0 [] fuel (by omega)]
  simp only [List.nil_append, runningIndex_length]
  rw [if_neg (by omega)]

/-- T2 and T4 readers check the number of events: a different non-zero number in the header is refused. -/
theorem C19_t4_length_checked (tag epoch len tw bb : Nat) (h1 : tag < 2 ^ 32) (h2 : epoch < 2 ^ 32) (h3 : len < 2 ^ 32)
    (h4 : 1 ≤ tw) (h5 : tw ≤ 32) (h6 : bb ≤ 32) (es : List Entry) (hes : ∀ e ∈ es, e.Ok tw bb)
    (hlen : len ≠ 0 ∧ len ≠ es.length) (body : Bytes) (hs : Starts body (es.flatMap (Entry.bits tw bb) ++ terminator tw bb)) :
    Returns (fun fuel => readT4 fuel (Spec.t4File tag epoch len tw bb body)) (.error .valueError) := by
  refine ⟨es.length + 1, fun fuel hf => ?_⟩
  obtain ⟨hd, g1, g2, g3, g4, g5, g6⟩ := t4_header tag epoch len tw bb h1 h2 h3 h5 h6 body
  unfold readT4 Spec.t4File
  rw [g1]
  simp only []
  rw [g6, g3, g4, g5]
  rw [t4_loop body tw bb h4 h5 h6 es hes 0 (startsAt_zero body _ hs) _ (at_init body) 0 [] fuel (by omega)]
  simp only [List.nil_append, runningIndex_length]
  rw [if_pos (by omega)]

/-! ## C20 -/

/-- **C20** is violated by *every* T2 file cut after a whole number of entries (and possibly padded with zeros): the reader
never returns. -/
theorem C20_t2_negation (tag epoch len tw bb proto : Nat) (h1 : tag < 2 ^ 32) (h2 : epoch < 2 ^ 32) (h3 : len < 2 ^ 32)
    (h5 : tw ≤ 32) (h6 : bb ≤ 32) (h7 : proto < 2 ^ 32) (es : List Entry) (hes : ∀ e ∈ es, e.Ok tw bb) (body : Bytes)
    (hs : Starts body (es.flatMap (Entry.bits tw bb)))
    (hz : ∀ i, (es.flatMap (Entry.bits tw bb)).length ≤ i → bitAt body i = false) (full : Bool) (res : Tsres) (frac : Bool) :
    Diverges (fun fuel => readT2 fuel full res frac (Spec.t2File tag epoch len tw bb proto body)) := by
  intro fuel
  obtain ⟨hd, g1, g2, g3, g4, g5, g6⟩ := t2_header tag epoch len tw bb proto h1 h2 h3 h5 h6 h7 body
  unfold readT2 Spec.t2File
  rw [g1]
  simp only []
  rw [g6, g4, g5]
  rw [t2_diverge body tw bb h5 h6 es hes 0 (startsAt_zero body _ hs) (fun i hi => hz i (by omega)) _ (at_init body) fuel]

/-- **C20** is violated by every T4 file cut after a whole number of entries. -/
theorem C20_t4_negation (tag epoch len tw bb : Nat) (h1 : tag < 2 ^ 32) (h2 : epoch < 2 ^ 32) (h3 : len < 2 ^ 32)
    (h5 : tw ≤ 32) (h6 : bb ≤ 32) (es : List Entry) (hes : ∀ e ∈ es, e.Ok tw bb) (body : Bytes)
    (hs : Starts body (es.flatMap (Entry.bits tw bb)))
    (hz : ∀ i, (es.flatMap (Entry.bits tw bb)).length ≤ i → bitAt body i = false) :
    Diverges (fun fuel => readT4 fuel (Spec.t4File tag epoch len tw bb body)) := by
  intro fuel
  obtain ⟨hd, g1, g2, g3, g4, g5, g6⟩ := t4_header tag epoch len tw bb h1 h2 h3 h5 h6 body
  unfold readT4 Spec.t4File
  rw [g1]
  simp only []
  rw [g6, g4, g5]
  rw [t4_diverge body tw bb h5 h6 es hes 0 (startsAt_zero body _ hs) (fun i hi => hz i (by omega)) _ (at_init body) fuel]

/-- The hypotheses of the C20 negations hold for a file cut right after its header. -/
example : Starts [] (([] : List Entry).flatMap (Entry.bits 8 4)) ∧ ∀ i, 0 ≤ i → bitAt [] i = false := by
  constructor
  · intro i hi; simp at hi
  · intro i _; simp [bitAt, leNat]

/-! ## C21 -/

/-- **C21** for 1 ns and 125 ps: the integer mode returns the integer part of the time in that unit (with or without full
epoch, no wrap-around).  Missing: 4 ps, where the code fails (`C21_t2_integer_negation`). -/
theorem C21_t2_integer_partial (tag epoch len tw bb proto : Nat) (h1 : tag < 2 ^ 32) (h2 : epoch < 2 ^ 32) (h3 : len < 2 ^ 32)
    (h4 : 1 ≤ tw) (h5 : tw ≤ 32) (h6 : bb ≤ 32) (h7 : proto < 2 ^ 32) (es : List Entry) (hes : ∀ e ∈ es, e.Ok tw bb)
    (hlen : len = 0 ∨ len = es.length) (body : Bytes) (hs : Starts body (es.flatMap (Entry.bits tw bb) ++ terminator tw bb))
    (full : Bool) (hsum : ∀ x ∈ runningSums (epoch % 2 ^ 17 * 2 ^ 32) es, x.1 < 2 ^ 49) (res : Tsres) (hres : res ≠ .ps4) :
    Returns (fun fuel => readT2 fuel full res false (Spec.t2File tag epoch len tw bb proto body))
      (.ok ((runningSums (epoch % 2 ^ 17 * 2 ^ 32) es).map fun x =>
        (.u64 ((if full then epoch / 2 ^ 17 * 2 ^ 49 + x.1 else x.1) * res.value / 8), x.2))) := by
  have h := readT2_decoded tag epoch len tw bb proto h1 h2 h3 h4 h5 h6 h7 es hes hlen body hs
    (fun x hx => lt_trans (hsum x hx) (by norm_num)) full res false
  unfold Spec.t2File
  convert h using 1
  generalize runningSums (epoch % 2 ^ 17 * 2 ^ 32) es = xs at hsum
  have hmsb : epoch / 2 ^ 17 < 2 ^ 15 := by omega
  have hv : ¬ res.value > Tsres.ps125.value := by cases res <;> simp [Tsres.value] at hres ⊢
  unfold t2Convert
  simp only [Bool.false_eq_true, if_false, bind, Except.bind, pure, Except.pure, List.map_map]
  rw [if_neg hv]
  simp only []
  rw [List.zip_map']
  congr 1
  apply List.map_congr_left
  intro x hx
  have hx1 := hsum x hx
  simp only [Function.comp, Prod.mk.injEq, and_true]
  congr 1
  rw [show ((x.1 : ℚ)) = (((x.1 : ℤ)) : ℚ) by simp, Int.floor_intCast, Int.toNat_natCast, Nat.mod_eq_of_lt (show x.1 < 2 ^ 64 by omega), shr_eq, shl_eq, shr_eq]
  generalize epoch / 2 ^ 17 = m at *
  generalize x.1 = t at *
  cases res
  · have hb : bitdiff Tsres.ps125.value Tsres.ns1.value = 3 := rfl
    rw [hb]
    cases full <;> simp only [Tsres.value, Bool.false_eq_true, if_false, if_true] <;> omega
  · have hb : bitdiff Tsres.ps125.value Tsres.ps125.value = 0 := rfl
    rw [hb]
    cases full <;> simp only [Tsres.value, Bool.false_eq_true, if_false, if_true] <;> omega
  · exact absurd rfl hres

/-- **C21** is violated by every non-empty file in the 4 ps integer mode: `TypeError`. -/
theorem C21_t2_integer_negation (tag epoch len tw bb proto : Nat) (h1 : tag < 2 ^ 32) (h2 : epoch < 2 ^ 32) (h3 : len < 2 ^ 32)
    (h4 : 1 ≤ tw) (h5 : tw ≤ 32) (h6 : bb ≤ 32) (h7 : proto < 2 ^ 32) (es : List Entry) (hes : ∀ e ∈ es, e.Ok tw bb)
    (hne : es ≠ []) (hlen : len = 0 ∨ len = es.length) (body : Bytes)
    (hs : Starts body (es.flatMap (Entry.bits tw bb) ++ terminator tw bb))
    (full : Bool) (hsum : ∀ x ∈ runningSums (epoch % 2 ^ 17 * 2 ^ 32) es, x.1 < 2 ^ 53) :
    Returns (fun fuel => readT2 fuel full .ps4 false (Spec.t2File tag epoch len tw bb proto body)) (.error .typeError) := by
  have h := readT2_decoded tag epoch len tw bb proto h1 h2 h3 h4 h5 h6 h7 es hes hlen body hs hsum full .ps4 false
  unfold Spec.t2File
  convert h using 1
  have hne' : (runningSums (epoch % 2 ^ 17 * 2 ^ 32) es).map (fun x => (x.1 : ℚ)) ≠ [] := by
    intro hc
    have := congrArg List.length hc
    rw [List.length_map, runningSums_length] at this
    exact hne (List.length_eq_zero_iff.mp this)
  generalize (runningSums (epoch % 2 ^ 17 * 2 ^ 32) es).map (fun x => (x.1 : ℚ)) = ts at hne' ⊢
  unfold t2Convert
  simp only [Bool.false_eq_true, if_false, bind, Except.bind]
  rw [if_pos (by simp [Tsres.value]), if_neg hne']

/-- The hypotheses of C18, C19 and C21 on the entries are satisfiable. -/
example : (∀ e ∈ ([⟨true, 5, 0⟩, ⟨false, 9, 1⟩, ⟨false, 5, 1⟩] : List Entry), e.Ok 4 4) ∧
    (∀ x ∈ runningSums (5 % 2 ^ 17 * 2 ^ 32) [⟨true, 5, 0⟩, ⟨false, 9, 1⟩, ⟨false, 5, 1⟩], x.1 < 2 ^ 49) := by
  simp [Entry.Ok, runningSums]

end Fp
