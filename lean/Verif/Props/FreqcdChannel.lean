import Verif.Lemmas.FreqcdChannel

/-! # Properties of the frequency channel of `freqcd`: C45, C46 -/
namespace Fp
open Spec

/-! ## C45 -/

/-- What the frequency channel does exactly: the corrections applied are those of the complete lines of the text made of the
reads that contain a newline; a read without newline is dropped. -/
theorem C45_exact (legacy : Bool) (rs : List Round) (s s1 : FState) (fcorr : BitVec 32) (fo : Bool) (src fsrc : Bytes)
    (h : Initial s fcorr fo src fsrc) (h1 : fRun legacy rs s = .ok (s1, none)) (ls : List Bytes) (rest : Bytes)
    (hl : Lines ((freqReads legacy rs s).filter (fun c : Bytes => (10 : UInt8) ∈ c)).flatten ls rest) :
    s1.fcorr = ls.foldl (fun f l => fcorrUpdate f (l.takeWhile (· ≠ 0))) fcorr ∧ fsrc = (freqReads legacy rs s).flatten ++ s1.freqSrc := by
  obtain ⟨hw, ho, hp, -, hfc, -⟩ := initial_wf h
  have A := run_abst hw ho h1
  have h0 : ((abst s).fcorr, (abst s).fpend) = aLines fcorr [] [] := by
    obtain ⟨_, _, _, _, _, -, -, -, rfl⟩ := h
    simp [abst, fInit, aLines]
  have hs : (abst s).freqSrc = fsrc := by
    obtain ⟨_, _, _, _, _, -, -, -, rfl⟩ := h
    rfl
  obtain ⟨k1, k2⟩ := freq_run (legacy := legacy) (rs := rs) (abst s) (abst s) 0 hp [] fcorr h0 _ A
  rw [aReads_eq hw ho] at hl ⊢
  rw [List.nil_append, aLines_lines _ _ _ _ hl] at k1
  exact ⟨congrArg Prod.fst k1, by rw [← hs]; exact k2⟩

/-- **C45** (when every read of the channel that delivers anything contains a newline): the correction in force results from
applying the complete lines of the update stream consumed so far in order, however the stream is split into reads. -/
theorem C45_lines_partial (legacy : Bool) (rs : List Round) (s s1 : FState) (fcorr : BitVec 32) (fo : Bool) (src fsrc : Bytes)
    (h : Initial s fcorr fo src fsrc) (h1 : fRun legacy rs s = .ok (s1, none))
    (hread : ∀ c ∈ freqReads legacy rs s, c = [] ∨ (10 : UInt8) ∈ c) (ls : List Bytes) (rest : Bytes)
    (hl : Lines (fsrc.take (fsrc.length - s1.freqSrc.length)) ls rest) :
    s1.fcorr = ls.foldl (fun f l => fcorrUpdate f (l.takeWhile (· ≠ 0))) fcorr := by
  have hflat : ((freqReads legacy rs s).filter (fun c : Bytes => (10 : UInt8) ∈ c)).flatten = (freqReads legacy rs s).flatten := by
    generalize freqReads legacy rs s = l at *
    induction l with
    | nil => rfl
    | cons c l ih =>
      have := ih (fun x hx => hread x (by simp [hx]))
      rcases hread c (by simp) with hc | hc
      · rw [hc, List.filter_cons_of_neg (by simp), this]; rfl
      · rw [List.filter_cons_of_pos (by simpa using hc), List.flatten_cons, this, List.flatten_cons]
  obtain ⟨ls', rest', hl'⟩ := lines_exist ((freqReads legacy rs s).filter (fun c : Bytes => (10 : UInt8) ∈ c)).flatten
  obtain ⟨k1, k2⟩ := C45_exact legacy rs s s1 fcorr fo src fsrc h h1 ls' rest' hl'
  have hcons : fsrc.take (fsrc.length - s1.freqSrc.length) = (freqReads legacy rs s).flatten := by
    rw [k2, List.length_append, Nat.add_sub_cancel, List.take_left]
  rw [hcons, ← hflat] at hl
  have e1 := aLines_lines fcorr _ _ _ hl
  have e2 := aLines_lines fcorr _ _ _ hl'
  rw [e1] at e2
  rw [k1]
  exact (congrArg Prod.fst e2).symm

/-- **C45 fails**: the update "12" read in two pieces sets the correction to 2. -/
theorem C45_violated : ∃ (s s1 : FState) (rs : List Round), Initial s 0 true [] [49, 50, 10] ∧ fRun false rs s = .ok (s1, none) ∧
    freqReads false rs s = [[49], [50, 10]] ∧ s1.fcorr = 2 := by
  obtain ⟨s1, h1, h2, h3, h4⟩ := demo_run false [{ selectOk := true, inRead := none, freqRead := some (some 1), write := some 8192 },
    { selectOk := true, inRead := none, freqRead := some (some 9), write := some 8192 }] 0 0 true [] [49, 50, 10] _ _ _ none ⟨rfl, rfl, rfl, by decide +kernel⟩
  obtain ⟨hw, ho, -⟩ := initial_wf (demo_initial 0 0 true [] [49, 50, 10])
  refine ⟨_, s1, _, demo_initial 0 _ _ _ _, h1, ?_, by rw [h4]; decide +kernel⟩
  rw [aReads_eq hw ho, demo_abst]
  decide +kernel

/-- The update stream "12\n5\n-7\n", read as "12\n5\n-" and "7\n". -/
example : ∃ (s s1 : FState) (rs : List Round), Initial s 0 true [] [49, 50, 10, 53, 10, 45, 55, 10] ∧ fRun false rs s = .ok (s1, none) ∧
    freqReads false rs s = [[49, 50, 10, 53, 10, 45], [55, 10]] ∧ s1.fcorr = -7 ∧
    Lines [49, 50, 10, 53, 10, 45, 55, 10] [[49, 50], [53], [45, 55]] [] := by
  obtain ⟨s1, h1, h2, h3, h4⟩ := demo_run false [{ selectOk := true, inRead := none, freqRead := some (some 6), write := some 8192 },
    { selectOk := true, inRead := none, freqRead := some (some 9), write := some 8192 }] 0 0 true [] [49, 50, 10, 53, 10, 45, 55, 10] _ _ _ none ⟨rfl, rfl, rfl, by decide +kernel⟩
  obtain ⟨hw, ho, -⟩ := initial_wf (demo_initial 0 0 true [] [49, 50, 10, 53, 10, 45, 55, 10])
  refine ⟨_, s1, _, demo_initial 0 _ _ _ _, h1, ?_, by rw [h4]; decide +kernel, by simp [Lines]⟩
  rw [aReads_eq hw ho, demo_abst]
  decide +kernel

/-! ## C46 -/

/-- The correction in force, exactly: in range or -2^31, if it was so in the beginning. -/
theorem C46_range (legacy : Bool) (rs : List Round) (s s1 : FState) (fcorr : BitVec 32) (fo : Bool) (src fsrc : Bytes)
    (h : Initial s fcorr fo src fsrc) (h0 : |fcorr.toInt| < 2 ^ 21 ∨ fcorr.toInt = -2 ^ 31) (h1 : fRun legacy rs s = .ok (s1, none)) :
    |s1.fcorr.toInt| < 2 ^ 21 ∨ s1.fcorr.toInt = -2 ^ 31 := by
  obtain ⟨ls, rest, hl⟩ := lines_exist ((freqReads legacy rs s).filter (fun c : Bytes => (10 : UInt8) ∈ c)).flatten
  obtain ⟨k, -⟩ := C45_exact legacy rs s s1 fcorr fo src fsrc h h1 ls rest hl
  rw [k]
  clear k hl h
  induction ls generalizing fcorr with
  | nil => exact h0
  | cons l ls ih =>
    rw [List.foldl_cons]
    apply ih
    unfold fcorrUpdate
    split
    · rename_i hc
      rw [cabs_slt _ _ (by decide)] at hc
      rcases hc with hc | hc
      · exact Or.inr hc
      · exact Or.inl hc
    · exact h0

/-- **C46** (for numbers that fit in an `int` and are not the smallest one): a value in range is applied, one out of range
leaves the correction unchanged. -/
theorem C46_update_partial (f : BitVec 32) (b : Bytes) (v : Int) (h : Numeral b v) (hv : -2 ^ 31 < v ∧ v < 2 ^ 31) :
    fcorrUpdate f b = if |v| < 2 ^ 21 then BitVec.ofInt 32 v else f := by
  have hti : (BitVec.ofInt 32 v).toInt = v := by
    rw [BitVec.toInt_ofInt]
    exact Int.bmod_eq_of_le (by omega) (by omega)
  have hr : readint b = BitVec.ofInt 32 v ∨ (readint b = 2147483647 ∧ v.natAbs = 2 ^ 31 - 1) := by
    rw [readint_numeral b v h, clamp_id v (by omega)]
    split
    · exact Or.inl rfl
    · rename_i hc
      rw [cabs_slt _ _ (by decide), hti] at hc
      refine Or.inr ⟨rfl, ?_⟩
      have : ((2147483647 : BitVec 32)).toInt = 2147483647 := by decide
      rw [this, abs_lt] at hc
      omega
  unfold fcorrUpdate
  have hmax : fcorrMax.toInt = 2 ^ 21 := by decide
  rcases hr with hr | ⟨hr, hv2⟩
  · rw [hr]
    by_cases hlt : |v| < 2 ^ 21
    · rw [if_pos hlt, if_pos]
      rw [cabs_slt _ _ (by decide), hti, hmax]
      exact Or.inr hlt
    · rw [if_neg hlt, if_neg]
      rw [cabs_slt _ _ (by decide), hti, hmax]
      rintro (hc | hc)
      · omega
      · exact hlt hc
  · rw [hr, if_neg (by decide), if_neg]
    rw [abs_lt]
    omega

/-- "-2097151" is applied, "2097152" is not. -/
example : Numeral [45, 50, 48, 57, 55, 49, 53, 49] (-2097151) ∧ fcorrUpdate 7 [45, 50, 48, 57, 55, 49, 53, 49] = BitVec.ofInt 32 (-2097151) ∧
    Numeral [50, 48, 57, 55, 49, 53, 50] 2097152 ∧ fcorrUpdate 7 [50, 48, 57, 55, 49, 53, 50] = 7 := by
  refine ⟨⟨[], [45], [50, 48, 57, 55, 49, 53, 49], rfl, by simp, by simp, by decide, Or.inr (Or.inr ⟨rfl, by decide⟩)⟩, by decide +kernel,
    ⟨[], [], [50, 48, 57, 55, 49, 53, 50], rfl, by simp, by simp, by decide, Or.inl ⟨rfl, by decide⟩⟩, by decide +kernel⟩

/-- **C46**: a line that is not a decimal number leaves the correction unchanged. -/
theorem C46_malformed (f : BitVec 32) (b : Bytes) (h : ∀ v, ¬ Numeral b v) : fcorrUpdate f b = f := by
  have hr : readint b = 2147483647 := by
    unfold readint
    split
    · rename_i x hx
      obtain ⟨v, hv, -⟩ := numeral_strtol b _ hx
      exact absurd hv (h v)
    · rfl
  unfold fcorrUpdate
  rw [hr, if_neg (by decide)]

/-- "12x" is not a number. -/
example : ∀ v, ¬ Numeral [49, 50, 120] v := by
  intro v hv
  have := strtol_numeral _ _ hv
  have h2 : strtol [49, 50, 120] = some (12, [120]) := by decide +kernel
  rw [h2] at this
  simp at this

/-- **C46** (as long as no number outside of (-2^31, 2^31) arrives): the correction in force is always in range. -/
theorem C46_in_range_partial (legacy : Bool) (rs : List Round) (s s1 : FState) (fcorr : BitVec 32) (fo : Bool) (src fsrc : Bytes)
    (h : Initial s fcorr fo src fsrc) (h0 : |fcorr.toInt| < 2 ^ 21) (h1 : fRun legacy rs s = .ok (s1, none)) (ls : List Bytes) (rest : Bytes)
    (hl : Lines ((freqReads legacy rs s).filter (fun c : Bytes => (10 : UInt8) ∈ c)).flatten ls rest)
    (hls : ∀ l ∈ ls, ∀ v, Numeral (l.takeWhile (· ≠ 0)) v → -2 ^ 31 < v ∧ v < 2 ^ 31) : |s1.fcorr.toInt| < 2 ^ 21 := by
  obtain ⟨k, -⟩ := C45_exact legacy rs s s1 fcorr fo src fsrc h h1 ls rest hl
  rw [k]
  clear k hl h
  induction ls generalizing fcorr with
  | nil => exact h0
  | cons l ls ih =>
    rw [List.foldl_cons]
    apply ih _ _ (fun x hx => hls x (by simp [hx]))
    by_cases hn : ∃ v, Numeral (l.takeWhile (· ≠ 0)) v
    · obtain ⟨v, hv⟩ := hn
      have hb := hls l (by simp) v hv
      rw [C46_update_partial _ _ v hv hb]
      split
      · rename_i hlt
        rw [BitVec.toInt_ofInt, Int.bmod_eq_of_le (by omega) (by omega)]
        exact hlt
      · exact h0
    · rw [C46_malformed _ _ (fun v hv => hn ⟨v, hv⟩)]
      exact h0

/-- **C46 fails**: the update -2147483648 is applied. -/
theorem C46_violated : ∃ (s s1 : FState) (rs : List Round), Initial s 0 true [] [45, 50, 49, 52, 55, 52, 56, 51, 54, 52, 56, 10] ∧
    fRun false rs s = .ok (s1, none) ∧ s1.fcorr.toInt = -2147483648 := by
  obtain ⟨s1, h1, h2, h3, h4⟩ := demo_run false [{ selectOk := true, inRead := none, freqRead := some (some 99), write := some 8192 }] 0 0 true []
    [45, 50, 49, 52, 55, 52, 56, 51, 54, 52, 56, 10] _ _ _ none ⟨rfl, rfl, rfl, by decide +kernel⟩
  exact ⟨_, s1, _, demo_initial 0 _ _ _ _, h1, by rw [h4]; decide +kernel⟩

/-- **C46 fails**, for every number that does not fit in an `int` but its lower 32 bits are in range: the lower 32 bits are
applied. -/
theorem C46_wraps (f : BitVec 32) (b : Bytes) (v w : Int) (h : Numeral b v) (hv : -2 ^ 63 ≤ v ∧ v < 2 ^ 63) (hw : |w| < 2 ^ 21)
    (hvw : v % 2 ^ 32 = w % 2 ^ 32) : fcorrUpdate f b = BitVec.ofInt 32 w := by
  have hbv : BitVec.ofInt 32 v = BitVec.ofInt 32 w := by
    apply BitVec.eq_of_toInt_eq
    rw [BitVec.toInt_ofInt, BitVec.toInt_ofInt]
    norm_num
    rw [← Int.emod_bmod v, ← Int.emod_bmod w]
    norm_num at hvw ⊢
    rw [hvw]
  have hti : (BitVec.ofInt 32 w).toInt = w := by
    rw [BitVec.toInt_ofInt]
    rw [abs_lt] at hw
    exact Int.bmod_eq_of_le (by omega) (by omega)
  have hr : readint b = BitVec.ofInt 32 w := by
    rw [readint_numeral b v h, clamp_id v hv, hbv, if_pos]
    rw [cabs_slt _ _ (by decide), hti]
    have : ((2147483647 : BitVec 32)).toInt = 2147483647 := by decide
    rw [this]
    exact Or.inr (lt_trans hw (by norm_num))
  unfold fcorrUpdate
  rw [hr, if_pos]
  rw [cabs_slt _ _ (by decide), hti, show fcorrMax.toInt = 2 ^ 21 by decide]
  exact Or.inr hw

/-- "4294967301", i.e. 2^32 + 5, is applied as 5. -/
example : Numeral [52, 50, 57, 52, 57, 54, 55, 51, 48, 49] 4294967301 ∧ fcorrUpdate 7 [52, 50, 57, 52, 57, 54, 55, 51, 48, 49] = 5 := by
  refine ⟨⟨[], [], [52, 50, 57, 52, 57, 54, 55, 51, 48, 49], rfl, by simp, by simp, by decide, Or.inl ⟨rfl, by decide⟩⟩, by decide +kernel⟩

/-- **C46 fails** for every number that does not fit in 64 bits: one above is applied as -1, one below as 0. -/
theorem C46_huge (f : BitVec 32) (b : Bytes) (v : Int) (h : Numeral b v) :
    (2 ^ 63 ≤ v → fcorrUpdate f b = -1) ∧ (v < -2 ^ 63 → fcorrUpdate f b = 0) := by
  refine ⟨fun hv => ?_, fun hv => ?_⟩
  · have hc : clampLong v = 2 ^ 63 - 1 := by unfold clampLong; omega
    unfold fcorrUpdate
    rw [readint_numeral b v h, hc, if_pos (by decide), if_pos (by decide)]
    rfl
  · have hc : clampLong v = -2 ^ 63 := by unfold clampLong; omega
    unfold fcorrUpdate
    rw [readint_numeral b v h, hc, if_pos (by decide), if_pos (by decide)]
    rfl

/-- "99999999999999999999" is applied as -1. -/
example : Numeral (List.replicate 20 57) (10 ^ 20 - 1) ∧ fcorrUpdate 7 (List.replicate 20 57) = -1 :=
  ⟨⟨[], [], List.replicate 20 57, rfl, by simp, by simp, by decide, Or.inl ⟨rfl, by decide⟩⟩, by decide +kernel⟩

/-- **C46 fails** for malformed lines with a zero byte: "5", a zero byte and "x" is applied as 5. -/
theorem C46_violated_by_zero_byte : ∃ (s s1 : FState) (rs : List Round), Initial s 0 true [] [53, 0, 120, 10] ∧
    fRun false rs s = .ok (s1, none) ∧ s1.fcorr = 5 ∧ ∀ v, ¬ Numeral [53, 0, 120] v := by
  obtain ⟨s1, h1, h2, h3, h4⟩ := demo_run false [{ selectOk := true, inRead := none, freqRead := some (some 99), write := some 8192 }] 0 0 true []
    [53, 0, 120, 10] _ _ _ none ⟨rfl, rfl, rfl, by decide +kernel⟩
  refine ⟨_, s1, _, demo_initial 0 _ _ _ _, h1, by rw [h4]; decide +kernel, ?_⟩
  intro v hv
  have := strtol_numeral _ _ hv
  have h2 : strtol [53, 0, 120] = some (5, [0, 120]) := by decide +kernel
  rw [h2] at this
  simp at this

end Fp
