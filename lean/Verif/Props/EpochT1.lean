import Verif.Lemmas.EpochT1

/-! # Properties of T1 epoch files: C14, C15, C16 and the T1 part of C20 -/
namespace Fp
open Spec

/-! ## The loop -/

/-! ## C14 -/

/-- **C14** (file contents): `write_T1` creates the file named after the epoch with the specified contents. -/
theorem C14_t1_file (epoch : Int) (evs : List (Nat × Nat)) (hv : ∀ e ∈ evs, T1Valid e) (hlen : evs.length < 2 ^ 32) :
    writeT1 epoch (evs.map fun e => (e.1 : Int)) (.list (evs.map fun e => (e.2 : Int))) =
      .ok (int2epoch (epoch % 2 ^ 32), t1File (epoch % 2 ^ 32).toNat evs, none) := by
  have hep : 0 ≤ epoch % 2 ^ 32 := Int.emod_nonneg _ (by norm_num)
  have hlt : epoch % 2 ^ 32 < 2 ^ 32 := Int.emod_lt_of_pos _ (by norm_num)
  have hmask : ((epoch % 2 ^ 32).toNat &&& ((1 <<< 17) - 1)) <<< (32 + 5) = (epoch % 2 ^ 32).toNat % 2 ^ 17 * 2 ^ 37 := by
    rw [shl_eq, show ((1 <<< 17) - 1 : Nat) = 2 ^ 17 - 1 from rfl, Nat.and_two_pow_sub_one_eq_mod, show 32 + 5 = 37 from rfl]
  unfold writeT1
  simp only [List.length_map, ne_eq, not_true_eq_false, if_false, hlen, if_true, hmask, int2epoch, hep]
  generalize (epoch % 2 ^ 32).toNat = ep
  have hb : ∀ e ∈ evs, (ep % 2 ^ 17 * 2 ^ 37 + e.1) * 2 ^ 10 + e.2 < 2 ^ 64 := fun e he => (lineT1_props ep e (hv e he)).1
  unfold t1File t1Time
  generalize ep % 2 ^ 17 * 2 ^ 37 = m at hb ⊢
  rw [t1Events_eq m _ evs (fun e he => t1Event_eq m e.1 e.2 (hb e he))]

/-- **C14** (one detector for all events): a single detector gives the file in which every event has that detector. -/
theorem C14_t1_broadcast (epoch : Int) (ts : List Nat) (d : Nat) (hv : ∀ t ∈ ts, T1Valid (t, d)) (hlen : ts.length < 2 ^ 32) :
    writeT1 epoch (ts.map fun t : Nat => (t : Int)) (.scalar d) =
      .ok (int2epoch (epoch % 2 ^ 32), t1File (epoch % 2 ^ 32).toNat (ts.map fun t => (t, d)), none) := by
  have h := C14_t1_file epoch (ts.map fun t => (t, d)) (by
    intro e he
    obtain ⟨t, ht, rfl⟩ := List.mem_map.mp he
    exact hv t ht) (by rwa [List.length_map])
  have hr : ∀ (ts : List Int) (d : Int), writeT1 epoch ts (.scalar d) = writeT1 epoch ts (.list (List.replicate ts.length d)) := by
    intro ts d
    unfold writeT1
    simp only [List.length_replicate, ne_eq, not_true_eq_false, if_false]
  rw [← h, hr]
  simp only [List.map_map, Function.comp_def, List.length_map, List.map_const']

/-- **C14** (mismatch): with a list of detectors of another length than the list of times, `write_T1` raises
`ValueError` before a file is created. -/
theorem C14_t1_mismatch (epoch : Int) (ts ds : List Int) (h : ds.length ≠ ts.length) :
    writeT1 epoch ts (.list ds) = .error .valueError := by
  simp [writeT1, h]

example : (∀ t ∈ [0, 5, 2 ^ 37 - 1], T1Valid (t, 8)) ∧ [1, 2].length ≠ [5, 6, 7].length := by
  unfold T1Valid; decide

/-- **C14** for every list of events none of which looks like the terminator (an event at the very start of an epoch that
is a multiple of 2^17, without detector bits): in every output mode, reading returns exactly the written times (with the
17-bit epoch prefix) and detectors.  Missing: that event, where the code fails (`C14_t1_zero_event`). -/
theorem C14_t1_roundtrip_partial (epoch : Int) (evs : List (Nat × Nat)) (hv : ∀ e ∈ evs, T1Valid e)
    (hlen : evs.length < 2 ^ 32) (hz : ∀ e ∈ evs, ¬ ZeroEvent (epoch % 2 ^ 32).toNat e) (res : Tsres) (frac : Bool) :
    ∃ name file, writeT1 epoch (evs.map fun e => (e.1 : Int)) (.list (evs.map fun e => (e.2 : Int))) = .ok (name, file, none) ∧
      Returns (fun fuel => readT1 fuel false res frac file)
        (.ok (evs.map fun e => (eValue res frac (t1Time (epoch % 2 ^ 32).toNat e.1), e.2))) := by
  refine ⟨_, _, C14_t1_file epoch evs hv hlen, ?_⟩
  have hlt : (epoch % 2 ^ 32).toNat < 2 ^ 32 := by
    have := Int.emod_lt_of_pos epoch (show (0 : Int) < 2 ^ 32 by norm_num)
    have := Int.emod_nonneg epoch (show (2 ^ 32 : Int) ≠ 0 by norm_num)
    omega
  generalize (epoch % 2 ^ 32).toNat = ep at *
  rw [t1File_eq]
  have := readT1_run ep hlt evs.length hlen (evs.map (lineT1 ep)) (by
      intro n hn
      obtain ⟨e, he, rfl⟩ := List.mem_map.mp hn
      have hp := lineT1_props ep e (hv e he)
      exact ⟨fun hc => hz e he (hp.2.1.mp hc), hp.1⟩) (leBytes 4 0 ++ leBytes 4 0)
    (fun acc => by have := t1Step_zeros 8 acc [] (Or.inl le_rfl); simpa [leBytes] using this) false res frac
  rw [if_neg (by simp)] at this
  convert this using 2
  rw [List.map_map]
  apply List.map_congr_left
  intro e he
  have hp := lineT1_props ep e (hv e he)
  simp only [Function.comp, hp.2.2.1, hp.2.2.2, Prod.mk.injEq, and_true]
  have h54 : t1Time ep e.1 < 2 ^ 54 := by
    have h3 : ep % 2 ^ 17 < 2 ^ 17 := Nat.mod_lt _ (by norm_num)
    have := (hv e he).1
    unfold t1Time; omega
  unfold eValue t1Convert
  cases frac
  · simp only [Bool.false_eq_true, if_false, and_false]
    rw [floor_timeIn]
    congr 1
    cases res <;> simp only [bitdiff, Tsres.value, Tsres.shift, shr_eq] <;> rfl
  · simp only [if_true, Bool.false_eq_true, if_false]
    rw [fl_nat 64 _ (by omega), Tsres.ratioQ, fl_nat_div 64 _ _ (by omega), timeIn_eq]

/-- **C14** is violated by *every* list containing the event that looks like the terminator: the written file cannot be
read back. -/
theorem C14_t1_zero_event (epoch : Int) (evs : List (Nat × Nat)) (hv : ∀ e ∈ evs, T1Valid e)
    (hlen : evs.length < 2 ^ 32) (hz : ∃ e ∈ evs, ZeroEvent (epoch % 2 ^ 32).toNat e) (full : Bool) (res : Tsres) (frac : Bool) :
    ∃ name file, writeT1 epoch (evs.map fun e => (e.1 : Int)) (.list (evs.map fun e => (e.2 : Int))) = .ok (name, file, none) ∧
      Returns (fun fuel => readT1 fuel full res frac file) (.error .valueError) := by
  refine ⟨_, _, C14_t1_file epoch evs hv hlen, ?_⟩
  have hlt : (epoch % 2 ^ 32).toNat < 2 ^ 32 := by
    have := Int.emod_lt_of_pos epoch (show (0 : Int) < 2 ^ 32 by norm_num)
    have := Int.emod_nonneg epoch (show (2 ^ 32 : Int) ≠ 0 by norm_num)
    omega
  generalize (epoch % 2 ^ 32).toNat = ep at *
  -- split at the first zero event
  obtain ⟨pre, z, post, hsplit, hzz, hpre⟩ : ∃ pre z post, evs = pre ++ z :: post ∧ ZeroEvent ep z ∧
      ∀ e ∈ pre, ¬ ZeroEvent ep e := by
    clear hlen
    induction evs with
    | nil => simp at hz
    | cons e es ih =>
      by_cases h : ZeroEvent ep e
      · exact ⟨[], e, es, rfl, h, by simp⟩
      · obtain ⟨pre, z, post, h1, h2, h3⟩ := ih (fun e he => hv e (by simp [he])) (by
          obtain ⟨x, hx, hx2⟩ := hz
          simp only [List.mem_cons] at hx
          rcases hx with rfl | hx
          · exact absurd hx2 h
          · exact ⟨x, hx, hx2⟩)
        refine ⟨e :: pre, z, post, by rw [h1]; rfl, h2, ?_⟩
        intro x hx
        simp only [List.mem_cons] at hx
        rcases hx with rfl | hx
        · exact h
        · exact h3 x hx
  have hzline : lineT1 ep z = 0 := (lineT1_props ep z (hv z (by rw [hsplit]; simp))).2.1.mpr hzz
  have hfile : t1File ep evs = (leBytes 4 0x101 ++ leBytes 4 ep ++ leBytes 4 evs.length ++ leBytes 4 49 ++ leBytes 4 4) ++
      ((pre.map (lineT1 ep)).flatMap encT1 ++ (List.replicate 8 0 ++
        ((post.map (lineT1 ep)).flatMap encT1 ++ (leBytes 4 0 ++ leBytes 4 0)))) := by
    rw [t1File_eq]
    congr 1
    rw [hsplit, List.map_append, List.map_cons, List.flatMap_append, List.flatMap_cons, hzline]
    simp [encT1, leBytes]
  rw [hfile]
  have := readT1_run ep hlt evs.length hlen (pre.map (lineT1 ep)) (by
      intro n hn
      obtain ⟨e, he, rfl⟩ := List.mem_map.mp hn
      have hp := lineT1_props ep e (hv e (by rw [hsplit]; simp [he]))
      exact ⟨fun hc => hpre e he (hp.2.1.mp hc), hp.1⟩)
    (List.replicate 8 0 ++ ((post.map (lineT1 ep)).flatMap encT1 ++ (leBytes 4 0 ++ leBytes 4 0)))
    (fun acc => t1Step_zeros 8 acc _ (Or.inl le_rfl)) full res frac
  rw [if_pos (by rw [hsplit]; simp)] at this
  exact this

/-- The hypotheses of C14 are satisfiable, with an event at time 0. -/
example : (∀ e ∈ [((0 : Nat), (1 : Nat)), (5, 8), (5, 0)], T1Valid e) ∧
    (∀ e ∈ [((0 : Nat), (1 : Nat)), (5, 8), (5, 0)], ¬ ZeroEvent 0 e) ∧ (∃ e ∈ [((0 : Nat), (0 : Nat))], ZeroEvent (2 ^ 17) e) := by
  refine ⟨?_, ?_, ?_⟩ <;> simp [T1Valid, ZeroEvent]

/-! ## C15 -/

/-- **C15** (integer modes): with `full_epoch` the result is the integer part of the full 69-bit time, without any
wrap-around. -/
theorem C15_full_epoch_int (epoch t : Nat) (he : epoch < 2 ^ 32) (ht : t < 2 ^ 37) (res : Tsres) :
    (t1Convert epoch true res false (t1Time epoch t)).val = (⌊timeIn res (fullTime epoch t)⌋ : ℚ) := by
  have hf : ⌊timeIn res (fullTime epoch t)⌋ = ((fullTime epoch t / 2 ^ res.shift : Nat) : ℤ) := by
    rw [timeIn_eq, floor_div_nat]
  rw [hf]
  unfold t1Convert
  have hfull : fullTime epoch t = t1Time epoch t + epoch / 2 ^ 17 * 2 ^ 54 := by
    unfold fullTime t1Time
    omega
  have h54 : t1Time epoch t < 2 ^ 54 := by
    have h3 : epoch % 2 ^ 17 < 2 ^ 17 := Nat.mod_lt _ (by norm_num)
    unfold t1Time; omega
  have hmsb : epoch / 2 ^ 17 < 2 ^ 15 := by omega
  rw [hfull, shr_eq]
  generalize t1Time epoch t = x at *
  generalize epoch / 2 ^ 17 = m at *
  cases res
  · have hb : bitdiff Tsres.ps4.value Tsres.ns1.value = 8 := rfl
    simp only [Bool.false_eq_true, if_false, reduceCtorEq, false_and, if_true, hb, shl_eq, shr_eq, ENum.val, Tsres.shift]
    have : ((x / 2 ^ 8 + m * 2 ^ (54 - 8) % 2 ^ 64) % 2 ^ 64 : Nat) = (x + m * 2 ^ 54) / 2 ^ 8 := by omega
    rw [this, Int.cast_natCast]
  · have hb : bitdiff Tsres.ps4.value Tsres.ps125.value = 5 := rfl
    simp only [Bool.false_eq_true, if_false, reduceCtorEq, false_and, if_true, hb, shl_eq, shr_eq, ENum.val, Tsres.shift]
    have : ((x / 2 ^ 5 + m * 2 ^ (54 - 5) % 2 ^ 64) % 2 ^ 64 : Nat) = (x + m * 2 ^ 54) / 2 ^ 5 := by omega
    rw [this, Int.cast_natCast]
  · simp [Tsres.shift, ENum.val, shl_eq]

theorem t1Convert_full_frac (epoch t : Nat) (he : epoch < 2 ^ 32) (ht : t < 2 ^ 37) (res : Tsres) :
    (t1Convert epoch true res true (t1Time epoch t)).val = fl 64 (timeIn res (fullTime epoch t)) := by
  have hfull : fullTime epoch t = t1Time epoch t + epoch / 2 ^ 17 * 2 ^ 54 := by
    unfold fullTime t1Time
    omega
  have h54 : t1Time epoch t < 2 ^ 54 := by
    have h3 : epoch % 2 ^ 17 < 2 ^ 17 := Nat.mod_lt _ (by norm_num)
    unfold t1Time; omega
  have hmsb : epoch / 2 ^ 17 < 2 ^ 15 := by omega
  have hm : fl 64 ((epoch / 2 ^ 17 * 2 ^ 54 : Nat) : ℚ) = ((epoch / 2 ^ 17 * 2 ^ 54 : Nat) : ℚ) := by
    have := fl_exact 64 (epoch / 2 ^ 17 : Nat) 54 (by
      rw [abs_of_nonneg (by positivity)]; exact_mod_cast (by omega : epoch / 2 ^ 17 < 2 ^ 64))
    push_cast at this ⊢
    exact_mod_cast this
  unfold t1Convert
  simp only [if_true, ENum.val]
  rw [shr_eq, shl_eq, fl_nat 64 _ (by omega), hm, Tsres.ratioQ, fl_nat_div 64 _ _ (by omega)]
  have h2 : fl 64 (((epoch / 2 ^ 17 * 2 ^ 54 : Nat) : ℚ) / 2 ^ res.shift) = ((epoch / 2 ^ 17 * 2 ^ 54 : Nat) : ℚ) / 2 ^ res.shift := by
    have := fl_mul_zpow 64 ((epoch / 2 ^ 17 * 2 ^ 54 : Nat) : ℚ) (-(res.shift : ℤ))
    rw [zpow_neg, zpow_natCast, ← div_eq_mul_inv, hm, ← div_eq_mul_inv] at this
    exact this
  rw [h2, timeIn_eq, hfull]
  congr 1
  push_cast
  ring

/-- **C15** (fractional mode, 80-bit floats): the relative error is at most 2^-64 and the absolute error at most 16 units of
4 ps. -/
theorem C15_full_epoch_frac (epoch t : Nat) (he : epoch < 2 ^ 32) (ht : t < 2 ^ 37) (res : Tsres) :
    |(t1Convert epoch true res true (t1Time epoch t)).val - timeIn res (fullTime epoch t)| ≤
        timeIn res (fullTime epoch t) * 2 ^ (-(64 : ℤ)) ∧
      |(t1Convert epoch true res true (t1Time epoch t)).val - timeIn res (fullTime epoch t)| ≤ timeIn res 16 := by
  have hval := t1Convert_full_frac epoch t he ht res
  have hnn : 0 ≤ timeIn res (fullTime epoch t) :=
    div_nonneg (mul_nonneg (Nat.cast_nonneg _) (Nat.cast_nonneg _)) (by norm_num)
  rw [hval]
  constructor
  · have := fl_err 64 (timeIn res (fullTime epoch t))
    rw [abs_of_nonneg hnn] at this
    exact_mod_cast this
  · have h69 : (fullTime epoch t : ℚ) < 2 ^ 69 := by
      have : fullTime epoch t < 2 ^ 69 := by unfold fullTime; omega
      have h3 : ((fullTime epoch t : Nat) : ℚ) < ((2 ^ 69 : Nat) : ℚ) := Nat.cast_lt.mpr this
      rwa [Nat.cast_pow, Nat.cast_ofNat] at h3
    have := fl_err_abs 64 (timeIn res (fullTime epoch t)) (68 - res.shift) (by
      rw [abs_of_nonneg hnn, timeIn_eq, div_lt_iff₀ (by positivity), ← zpow_natCast (2 : ℚ) res.shift, ← zpow_add₀ (by norm_num)]
      refine lt_of_lt_of_eq h69 ?_
      rw [← zpow_natCast]
      congr 1
      push_cast
      ring)
    refine this.trans (le_of_eq ?_)
    cases res <;> norm_num [timeIn, Tsres.value, Tsres.shift]

/-- Boundary instance: largest epoch and time; the 1 ns integer result uses 61 bits, the 125 ps result all 64. -/
example : (t1Convert (2 ^ 32 - 1) true .ps125 false (t1Time (2 ^ 32 - 1) (2 ^ 37 - 1))) = .u64 (2 ^ 64 - 1) := by
  decide +kernel

/-- **C15** for `read_T1`: with `full_epoch` it returns the detectors and, for every time, the integer part of the full time in the
integer modes, and in the fractional mode a number within 2^-64 of it, relatively, and within 16 units of 4 ps. -/
theorem C15_read_T1 (epoch : Nat) (he : epoch < 2 ^ 32) (evs : List (Nat × Nat)) (hv : ∀ e ∈ evs, T1Valid e) (hlen : evs.length < 2 ^ 32)
    (hz : ∀ e ∈ evs, ¬ ZeroEvent epoch e) (res : Tsres) :
    (∃ out, Returns (fun fuel => readT1 fuel true res false (t1File epoch evs)) (.ok out) ∧
      out.map (fun e => (e.1.val, e.2)) = evs.map fun e => ((⌊timeIn res (fullTime epoch e.1)⌋ : ℚ), e.2)) ∧
    ∃ out, Returns (fun fuel => readT1 fuel true res true (t1File epoch evs)) (.ok out) ∧
      List.Forall₂ (fun x e => x.2 = e.2 ∧ |x.1.val - timeIn res (fullTime epoch e.1)| ≤ timeIn res (fullTime epoch e.1) * 2 ^ (-(64 : ℤ)) ∧
        |x.1.val - timeIn res (fullTime epoch e.1)| ≤ timeIn res 16) out evs := by
  have key : ∀ frac, Returns (fun fuel => readT1 fuel true res frac (t1File epoch evs))
      (.ok (evs.map fun e => (t1Convert epoch true res frac (t1Time epoch e.1), e.2))) := by
    intro frac
    rw [t1File_eq]
    have := readT1_run epoch he evs.length hlen (evs.map (lineT1 epoch)) (by
        intro n hn
        obtain ⟨e, he', rfl⟩ := List.mem_map.mp hn
        have hp := lineT1_props epoch e (hv e he')
        exact ⟨fun hc => hz e he' (hp.2.1.mp hc), hp.1⟩) (leBytes 4 0 ++ leBytes 4 0)
      (fun acc => by have := t1Step_zeros 8 acc [] (Or.inl le_rfl); simpa [leBytes] using this) true res frac
    rw [if_neg (by simp)] at this
    convert this using 2
    rw [List.map_map]
    apply List.map_congr_left
    intro e he'
    have hp := lineT1_props epoch e (hv e he')
    simp only [Function.comp, hp.2.2.1, hp.2.2.2]
  refine ⟨⟨_, key false, ?_⟩, _, key true, ?_⟩
  · rw [List.map_map]
    exact List.map_congr_left fun e he' => by
      simp only [Function.comp, C15_full_epoch_int epoch e.1 he (hv e he').1]
  · rw [List.forall₂_map_left_iff, List.forall₂_same]
    intro e he'
    exact ⟨rfl, C15_full_epoch_frac epoch e.1 he (hv e he').1 res⟩

/-- An instance: two events in the last epoch. -/
example : (∀ e ∈ [((2 ^ 37 - 1 : Nat), (1 : Nat)), (5, 8)], T1Valid e) ∧
    (∀ e ∈ [((2 ^ 37 - 1 : Nat), (1 : Nat)), (5, 8)], ¬ ZeroEvent (2 ^ 32 - 1) e) := by
  simp [T1Valid, ZeroEvent]

/-! ## C16 -/

/-- **C16**: for every crash point `k` the reader raises, or returns as many events as were written, with all events but
possibly the last one correct; and the last one is correct too unless the crash happened inside it.  Missing: a crash
inside the last event, where the code is wrong (`C16_negation`). -/
theorem C16_interrupted_partial (epoch : Nat) (he : epoch < 2 ^ 32) (evs : List (Nat × Nat)) (hv : ∀ e ∈ evs, T1Valid e)
    (hlen : evs.length < 2 ^ 32) (hz : ∀ e ∈ evs, ¬ ZeroEvent epoch e) (full : Bool) (res : Tsres) (frac : Bool) (k : Nat) :
    (∃ e, Returns (fun fuel => readT1 fuel full res frac ((t1File epoch evs).take k)) (.error e)) ∨
    ∃ out, Returns (fun fuel => readT1 fuel full res frac ((t1File epoch evs).take k)) (.ok out) ∧
      out.length = evs.length ∧
      out.dropLast = (evs.map fun e => (t1Convert epoch full res frac (t1Time epoch e.1), e.2)).dropLast ∧
      (¬ (20 + 8 * (evs.length - 1) < k ∧ k < 20 + 8 * evs.length) →
        out = evs.map fun e => (t1Convert epoch full res frac (t1Time epoch e.1), e.2)) := by
  have hbody : ∀ es : List (Nat × Nat), ((es.map (lineT1 epoch)).flatMap encT1).length = 8 * es.length := by
    intro es
    rw [flatMap_length_const encT1 8 encT1_length, List.length_map, Nat.mul_comm]
  have hhead : (leBytes 4 0x101 ++ leBytes 4 epoch ++ leBytes 4 evs.length ++ leBytes 4 49 ++ leBytes 4 4).length = 20 := by simp
  have hline : ∀ es : List (Nat × Nat), (∀ e ∈ es, e ∈ evs) → ∀ n ∈ es.map (lineT1 epoch), n ≠ 0 ∧ n < 2 ^ 64 := by
    intro es hes n hn
    obtain ⟨e, he', rfl⟩ := List.mem_map.mp hn
    have hp := lineT1_props epoch e (hv e (hes e he'))
    exact ⟨fun hc => hz e (hes e he') (hp.2.1.mp hc), hp.1⟩
  have hmap : ∀ es : List (Nat × Nat), (∀ e ∈ es, e ∈ evs) →
      (es.map (lineT1 epoch)).map (fun n => (t1Convert epoch full res frac (n / 1024), n % 16)) =
      es.map (fun e => (t1Convert epoch full res frac (t1Time epoch e.1), e.2)) := by
    intro es hes
    rw [List.map_map]
    apply List.map_congr_left
    intro e he'
    have hp := lineT1_props epoch e (hv e (hes e he'))
    simp only [Function.comp, hp.2.2.1, hp.2.2.2]
  by_cases hk20 : k < 20
  · left
    refine ⟨.structError, 0, fun fuel _ => ?_⟩
    unfold readT1 readT1Header
    have : (((t1File epoch evs).take k).take 20).length ≠ 20 := by simp; omega
    rw [if_neg this]
  obtain ⟨c, rfl⟩ : ∃ c, k = 20 + c := ⟨k - 20, by omega⟩
  have htake : (t1File epoch evs).take (20 + c) =
      (leBytes 4 0x101 ++ leBytes 4 epoch ++ leBytes 4 evs.length ++ leBytes 4 49 ++ leBytes 4 4) ++
        ((evs.map (lineT1 epoch)).flatMap encT1 ++ (leBytes 4 0 ++ leBytes 4 0)).take c := by
    rw [t1File_eq, List.take_append, hhead, List.take_of_length_le (by omega), show 20 + c - 20 = c by omega]
  rw [htake]
  by_cases hc : 8 * evs.length ≤ c
  · -- all events present
    right
    have h1 : ((evs.map (lineT1 epoch)).flatMap encT1 ++ (leBytes 4 0 ++ leBytes 4 0)).take c =
        (evs.map (lineT1 epoch)).flatMap encT1 ++ (List.replicate (min (c - 8 * evs.length) 8) 0) := by
      rw [List.take_append, hbody, List.take_of_length_le (by rw [hbody]; omega)]
      congr 1
      have : leBytes 4 0 ++ leBytes 4 0 = List.replicate 8 (0 : UInt8) := by rfl
      rw [this, List.take_replicate]
    rw [h1]
    have := readT1_run epoch he evs.length hlen (evs.map (lineT1 epoch)) (hline evs (fun _ h => h)) _
      (fun acc => by
        have := t1Step_zeros (min (c - 8 * evs.length) 8) acc [] (Or.inr rfl)
        rwa [List.append_nil] at this) full res frac
    rw [if_neg (by simp), hmap evs (fun _ h => h)] at this
    exact ⟨_, this, by simp, rfl, fun _ => rfl⟩
  · -- stopped inside event number j
    obtain ⟨j, r, hr, rfl⟩ : ∃ j r, r < 8 ∧ c = 8 * j + r := ⟨c / 8, c % 8, by omega, by omega⟩
    have hj : j < evs.length := by omega
    obtain ⟨pre, z, post, hsplit, hprelen⟩ : ∃ pre z post, evs = pre ++ z :: post ∧ pre.length = j :=
      ⟨evs.take j, evs[j], evs.drop (j + 1), by simp, by simp; omega⟩
    have hzmem : z ∈ evs := by rw [hsplit]; simp
    have hpremem : ∀ e ∈ pre, e ∈ evs := by intro e he'; rw [hsplit]; simp [he']
    have h1 : ((evs.map (lineT1 epoch)).flatMap encT1 ++ (leBytes 4 0 ++ leBytes 4 0)).take (8 * j + r) =
        (pre.map (lineT1 epoch)).flatMap encT1 ++ (encT1 (lineT1 epoch z)).take r := by
      rw [hsplit, List.map_append, List.map_cons, List.flatMap_append, List.flatMap_cons, List.append_assoc, List.take_append,
        hbody, hprelen, List.take_of_length_le (by rw [hbody, hprelen]; omega), show 8 * j + r - 8 * j = r by omega,
        List.append_assoc, List.take_append_of_le_length (by rw [encT1_length]; omega)]
    rw [h1]
    -- the value read from the incomplete event
    obtain ⟨v, hvdef⟩ : ∃ v, v = (leNat (((encT1 (lineT1 epoch z)).take r).take 4) <<< 32) +
        leNat ((((encT1 (lineT1 epoch z)).take r).drop 4).take 4) := ⟨_, rfl⟩
    by_cases hv0 : v = 0
    · left
      have := readT1_run epoch he evs.length hlen (pre.map (lineT1 epoch)) (hline pre hpremem) ((encT1 (lineT1 epoch z)).take r)
        (fun acc => by unfold t1Step; simp only []; rw [← hvdef, if_pos hv0]) full res frac
      rw [if_pos (by rw [List.length_map]; omega)] at this
      exact ⟨_, this⟩
    · -- one more event is taken
      have hlen64 : v < 2 ^ 64 := by
        rw [hvdef, shl_eq]
        have a1 := leNat_lt (((encT1 (lineT1 epoch z)).take r).take 4)
        have a2 := leNat_lt ((((encT1 (lineT1 epoch z)).take r).drop 4).take 4)
        have b1 : 256 ^ (((encT1 (lineT1 epoch z)).take r).take 4).length ≤ 256 ^ 4 :=
          Nat.pow_le_pow_right (by norm_num) (by simp)
        have b2 : 256 ^ ((((encT1 (lineT1 epoch z)).take r).drop 4).take 4).length ≤ 256 ^ 4 :=
          Nat.pow_le_pow_right (by norm_num) (by simp)
        omega
      have hrun : Returns (fun fuel => readT1 fuel full res frac
          ((leBytes 4 0x101 ++ leBytes 4 epoch ++ leBytes 4 evs.length ++ leBytes 4 49 ++ leBytes 4 4) ++
            ((pre.map (lineT1 epoch)).flatMap encT1 ++ (encT1 (lineT1 epoch z)).take r)))
          (if evs.length ≠ 0 ∧ pre.length + 1 ≠ evs.length then .error .valueError
           else .ok ((pre.map fun e => (t1Convert epoch full res frac (t1Time epoch e.1), e.2)) ++
            [(t1Convert epoch full res frac (v / 1024), v % 16)])) := by
        refine ⟨pre.length + 2, fun fuel hf => ?_⟩
        obtain ⟨hd, g1, g2, g3, g4⟩ := t1_header epoch evs.length he hlen
          ((pre.map (lineT1 epoch)).flatMap encT1 ++ (encT1 (lineT1 epoch z)).take r)
        unfold readT1
        rw [g1]
        simp only []
        rw [g4]
        obtain ⟨k, rfl⟩ : ∃ k, fuel = (pre.map (lineT1 epoch)).length + (k + 2) := ⟨fuel - pre.length - 2, by simp; omega⟩
        rw [t1_loop _ (hline pre hpremem)]
        have s1 : ∀ acc, t1Step { rest := (encT1 (lineT1 epoch z)).take r, acc := acc } =
            .inl { rest := [], acc := acc ++ [(v / 1024, v % 16)] } := by
          intro acc
          unfold t1Step
          simp only []
          rw [← hvdef, if_neg hv0, shr_eq, and15, List.drop_of_length_le (by simp [encT1_length]), show (2 : Nat) ^ 10 = 1024 from rfl]
        have s2 : ∀ acc, t1Step { rest := [], acc := acc } = .inr acc := by
          intro acc
          have := t1Step_zeros 0 acc [] (Or.inr rfl)
          simpa using this
        rw [show k + 2 = (k + 1) + 1 from rfl, runLoop, s1]
        simp only []
        rw [runLoop, s2]
        simp only [List.nil_append, List.length_append, List.length_map, List.length_singleton, g2, g3]
        split_ifs
        · rfl
        · rw [List.map_append, ← hmap pre hpremem, List.map_map, List.map_map, List.map_map]
          rfl
      by_cases hlast : pre.length + 1 = evs.length
      · right
        rw [if_neg (by omega)] at hrun
        have hpost : post = [] := by
          have := congrArg List.length hsplit
          simp only [List.length_append, List.length_cons] at this
          exact List.length_eq_zero_iff.mp (by omega)
        refine ⟨_, hrun, by simp; omega, ?_, ?_⟩
        · rw [hsplit, hpost]
          simp
        · intro hnot
          exfalso
          apply hnot
          constructor
          · have : r ≠ 0 := by
              rintro rfl
              apply hv0
              rw [hvdef]
              simp [leNat]
            omega
          · omega
      · left
        rw [if_pos (by omega)] at hrun
        exact ⟨_, hrun⟩

/-- **C16** is violated by a crash inside the last event: a file cut one byte before the end of its only event is read
without complaint, with a wrong time. -/
theorem C16_negation :
    ∃ (evs : List (Nat × Nat)) (k : Nat) (out : List (ENum × Nat)), evs = [(2 ^ 21, 1)] ∧ k < (t1File 5 evs).length ∧
      Returns (fun fuel => readT1 fuel false .ps4 false ((t1File 5 evs).take k)) (.ok out) ∧
      out ≠ evs.map fun e => (eValue .ps4 false (t1Time 5 e.1), e.2) := by
  refine ⟨[(2 ^ 21, 1)], 27, [(.u64 (t1Time 5 0), 1)], rfl, by decide, ⟨3, fun fuel hf => ?_⟩, ?_⟩
  · obtain ⟨k, rfl⟩ : ∃ k, fuel = k + 3 := ⟨fuel - 3, by omega⟩
    have h1 : (t1File 5 [(2 ^ 21, 1)]).take 27 =
        [1, 1, 0, 0, 5, 0, 0, 0, 1, 0, 0, 0, 49, 0, 0, 0, 4, 0, 0, 0, 0, 128, 2, 0, 1, 0, 0] := by decide
    rw [h1]
    rfl
  · simp [eValue, timeIn, Tsres.value, t1Time]

/-! ## C20, T1 part -/

/-- **C20** (T1): the reader returns or raises on every file. -/
theorem C20_t1_terminates (full : Bool) (res : Tsres) (frac : Bool) (file : Bytes) :
    ∃ r, Returns (fun fuel => readT1 fuel full res frac file) r := by
  have hstab : ∀ (fuel : Nat) (s : T1State) r, runLoop t1Step fuel s = some r → ∀ m, fuel ≤ m → runLoop t1Step m s = some r := by
    intro fuel
    induction fuel with
    | zero => intro s r h; simp [runLoop] at h
    | succ n ih =>
      intro s r h m hm
      obtain ⟨m', rfl⟩ : ∃ m', m = m' + 1 := ⟨m - 1, by omega⟩
      rw [runLoop] at h ⊢
      cases hs : t1Step s with
      | inl s' => rw [hs] at h; exact ih s' r h m' (by omega)
      | inr x => rw [hs] at h; exact h
  cases hh : readT1Header file with
  | error e => exact ⟨.error e, 0, fun fuel _ => by unfold readT1; rw [hh]⟩
  | ok hd =>
    obtain ⟨r, hr⟩ := t1_terminates ((file.drop 20).length + 1) { rest := file.drop 20, acc := [] } (by simp)
    refine ⟨if hd.length ≠ 0 ∧ r.length ≠ hd.length then .error .valueError
      else .ok (r.map fun e => (t1Convert hd.epoch full res frac e.1, e.2)), (file.drop 20).length + 1, fun fuel hf => ?_⟩
    unfold readT1
    rw [hh]
    simp only []
    rw [hstab _ _ _ hr fuel hf]
    simp only []
    split_ifs <;> rfl

/-- Instance of C20: a file that ends inside its only event. -/
example : readT1 5 false .ps4 false ([1, 1, 0, 0, 5, 0, 0, 0, 0, 0, 0, 0, 49, 0, 0, 0, 4, 0, 0, 0] ++ [7, 0]) =
    some (.ok [(.u64 (7 * 2 ^ 22), 0)]) := by decide

end Fp
