import Verif.Lemmas.FpMain

/-! # C74: input of fpfind -/
namespace Fp
open Spec

/-- **C74**: epoch directories are used if both are given, otherwise raw files if both are given, otherwise the program exits. -/
theorem C74_choice (rnd : ℚ → ℚ) (args : FpArgs) :
    ((∃ d1 d2, args.sendfiles = some d1 ∧ args.t1files = some d2) → ∀ fuel r t,
      loadInput rnd fuel { args with reference := r, target := t } = loadInput rnd fuel args) ∧
    (∀ r t alice bob, (args.sendfiles = none ∨ args.t1files = none) → args.reference = some r → args.target = some t →
      readA1 64 args.legacy .ns1 true r = .ok alice → readA1 64 args.legacy .ns1 true t = .ok bob →
      ∀ fuel, loadInput rnd fuel args = some (.ok (some (alice.map (·.1.val), bob.map (·.1.val), args.skipDuration)))) ∧
    ((args.sendfiles = none ∨ args.t1files = none) → (args.reference = none ∨ args.target = none) →
      ∀ fuel, loadInput rnd fuel args = some (.ok none)) := by
  refine ⟨?_, ?_, ?_⟩
  · rintro ⟨d1, d2, h1, h2⟩ fuel r t
    unfold loadInput FpArgs.requiredEpochs FpArgs.minDuration FpArgs.ta
    simp only [h1, h2]
  · intro r t alice bob h hr ht ha hb fuel
    unfold loadInput
    rcases h with h | h
    · simp only [h, hr, ht, ha, hb]
    · cases hs : args.sendfiles <;> simp only [h, hr, ht, ha, hb]
  · intro h h' fuel
    unfold loadInput
    rcases h with h | h <;> rcases h' with h' | h' <;> simp only [h, h'] <;>
      (cases args.sendfiles <;> cases args.t1files <;> cases args.reference <;> cases args.target <;> simp_all)

/-- **C74**: the number of epochs read covers the minimum duration and one more epoch, and is the least such number. -/
theorem C74_required (args : FpArgs) (hsep : 0 ≤ args.separation) (h1 : args.minDuration (fl 53) < 2 ^ 59) :
    args.minDuration (fl 53) + 2 ^ 29 ≤ ((args.requiredEpochs (fl 53) - args.skipEpochs : ℤ) : ℚ) * 2 ^ 29 ∧
    ((args.requiredEpochs (fl 53) - args.skipEpochs : ℤ) : ℚ) * 2 ^ 29 < args.minDuration (fl 53) + 2 * 2 ^ 29 := by
  have hfl : fl 53 (args.minDuration (fl 53) / 2 ^ 29) = args.minDuration (fl 53) / 2 ^ 29 := by
    have e : ∀ y : ℚ, y / 2 ^ 29 = y * 2 ^ (-29 : ℤ) := fun y => by rw [zpow_neg, div_eq_mul_inv]; rfl
    rw [e, fl_mul_zpow]
    congr 1
    exact fl_fl 53 (by norm_num) _ (mul_nonneg (fl_nonneg 53 (by linarith)) (fl_nonneg 53 (Nat.cast_nonneg _)))
  have h0 : 0 ≤ args.minDuration (fl 53) :=
    fl_nonneg 53 (mul_nonneg (fl_nonneg 53 (by linarith)) (fl_nonneg 53 (Nat.cast_nonneg _)))
  have e : args.requiredEpochs (fl 53) - args.skipEpochs = ⌈args.minDuration (fl 53) / 2 ^ 29⌉ + 1 := by
    unfold FpArgs.requiredEpochs astypeInt32
    rw [hfl]
    have a : 0 ≤ ⌈args.minDuration (fl 53) / 2 ^ 29⌉ := Int.ceil_nonneg (by positivity)
    have b : ⌈args.minDuration (fl 53) / 2 ^ 29⌉ ≤ 2 ^ 30 := by
      rw [Int.ceil_le]
      push_cast
      rw [div_le_iff₀ (by norm_num)]
      norm_num at h1 ⊢
      linarith
    rw [if_pos ⟨by linarith, by linarith⟩]
    ring
  rw [e]
  push_cast
  have c1 := Int.le_ceil (args.minDuration (fl 53) / 2 ^ 29)
  have c2 := Int.ceil_lt_add_one (args.minDuration (fl 53) / 2 ^ 29)
  rw [div_le_iff₀ (by norm_num)] at c1
  generalize (⌈args.minDuration (fl 53) / 2 ^ 29⌉ : ℚ) = c at *
  generalize args.minDuration (fl 53) = x at *
  have c3 : c * 2 ^ 29 < x + 2 ^ 29 := by
    have := mul_lt_mul_of_pos_right c2 (by norm_num : (0 : ℚ) < 2 ^ 29)
    rw [add_mul, div_mul_cancel₀ _ (by norm_num)] at this
    linarith
  constructor <;> linarith

/-- **C74**: if enough consecutive common epochs are available, exactly the required ones after the skipped ones are read, the
same on both sides. -/
theorem C74_epochs (rnd : ℚ → ℚ) (args : FpArgs) (d1 d2 : EpochDir) (h1 : args.sendfiles = some d1) (h2 : args.t1files = some d2)
    (e1 e2 : List Nat) (ok1 : EpochDirOk d1 false e1) (ok2 : EpochDirOk d2 true e2) (first : Option Nat)
    (hf : args.firstEpoch.map epoch2int = first.map fun v : Nat => .ok (v : Int)) (m n : Nat) (hrun : FirstRun e1 e2 first m n)
    (skip num : Nat) (hs : args.skipEpochs = skip) (hreq : args.requiredEpochs rnd = ((skip + num : Nat) : Int)) (hen : skip + num ≤ n) :
    ∃ tsA tsB, (∀ i < num, EpochTimes d1.file false ((m + skip + i : Nat) : Int) (tsA i)) ∧
      (∀ i < num, EpochTimes d2.file true ((m + skip + i : Nat) : Int) (tsB i)) ∧
      Returns (fun fuel => loadInput rnd fuel args)
        (.ok (some (((List.range num).flatMap tsA).map ENum.val, ((List.range num).flatMap tsB).map ENum.val, 0))) := by
  obtain ⟨N0, g0⟩ := overlap_run d1 d2 e1 e2 ok1 ok2 _ first hf m n hrun
  have hc : ∀ i < num, CommonNat e1 e2 first (m + skip + i) := fun i hi => by
    have := hrun.2.1 (skip + i) (by omega)
    rwa [← Nat.add_assoc] at this
  obtain ⟨tsA, ha, N1, g1⟩ := (load_range d1 false e1 ok1 m skip num).1 fun i hi => (hc i hi).1
  obtain ⟨tsB, hb, N2, g2⟩ := (load_range d2 true e2 ok2 m skip num).1 fun i hi => (hc i hi).2.1
  refine ⟨tsA, tsB, ha, hb, max N0 (max N1 N2), fun fuel hfuel => ?_⟩
  have a0 := g0 fuel (by omega)
  have a1 := g1 fuel (by omega)
  have a2 := g2 fuel (by omega)
  simp only at a0 a1 a2
  have e : ((skip + num : Nat) : Int) - (skip : Int) = (num : Int) := by omega
  unfold loadInput
  simp only [h1, h2, a0, hreq, hs, e, getTimestampFrom, Int.toNat_natCast, a1, a2]

/-- **C74**: with fewer consecutive epochs than required, starting from the skipped ones, a missing file is reported. -/
theorem C74_insufficient (rnd : ℚ → ℚ) (args : FpArgs) (d1 d2 : EpochDir) (h1 : args.sendfiles = some d1) (h2 : args.t1files = some d2)
    (e1 e2 : List Nat) (ok1 : EpochDirOk d1 false e1) (ok2 : EpochDirOk d2 true e2) (first : Option Nat)
    (hf : args.firstEpoch.map epoch2int = first.map fun v : Nat => .ok (v : Int)) (m n : Nat) (hrun : FirstRun e1 e2 first m n)
    (skip num : Nat) (hs : args.skipEpochs = skip) (hreq : args.requiredEpochs rnd = ((skip + num : Nat) : Int))
    (hlow : skip ≤ n) (hen : n < skip + num) :
    Returns (fun fuel => loadInput rnd fuel args) (.error .fileNotFound) := by
  obtain ⟨N0, g0⟩ := overlap_run d1 d2 e1 e2 ok1 ok2 _ first hf m n hrun
  have e : ((skip + num : Nat) : Int) - (skip : Int) = (num : Int) := by omega
  have hmiss : m + n ∉ e1 ∨ m + n ∉ e2 := by
    by_contra hc
    push Not at hc
    exact hrun.2.2 ⟨hc.1, hc.2, fun f hff => le_trans (hrun.1.1.2.2 f hff) (Nat.le_add_right _ _)⟩
  have hpos : m + skip + (n - skip) = m + n := by omega
  by_cases hA : ∃ i < num, m + skip + i ∉ e1
  · obtain ⟨N1, g1⟩ := (load_range d1 false e1 ok1 m skip num).2 hA
    refine ⟨max N0 N1, fun fuel hfuel => ?_⟩
    have a0 := g0 fuel (by omega)
    have a1 := g1 fuel (by omega)
    simp only at a0 a1
    unfold loadInput
    simp only [h1, h2, a0, hreq, hs, e, getTimestampFrom, Int.toNat_natCast, a1]
  · push Not at hA
    obtain ⟨tsA, -, N1, g1⟩ := (load_range d1 false e1 ok1 m skip num).1 hA
    have hB : ∃ i < num, m + skip + i ∉ e2 := by
      rcases hmiss with h | h
      · exact absurd (hpos ▸ hA (n - skip) (by omega)) h
      · exact ⟨n - skip, by omega, by rw [hpos]; exact h⟩
    obtain ⟨N2, g2⟩ := (load_range d2 true e2 ok2 m skip num).2 hB
    refine ⟨max N0 (max N1 N2), fun fuel hfuel => ?_⟩
    have a0 := g0 fuel (by omega)
    have a1 := g1 fuel (by omega)
    have a2 := g2 fuel (by omega)
    simp only at a0 a1 a2
    unfold loadInput
    simp only [h1, h2, a0, hreq, hs, e, getTimestampFrom, Int.toNat_natCast, a1, a2]

/-- **C74**, violated for minimum durations of 2^60 ns (36 years) and more: the number of epochs does not fit `np.int32`, becomes
negative, no epoch is read at all, and the program ends with an `IndexError` instead of reporting a missing file. -/
theorem C74_overflow_violated (rndA : ℚ → ℚ) (args : FpArgs) (d1 d2 : EpochDir) (h1 : args.sendfiles = some d1)
    (h2 : args.t1files = some d2) (e1 e2 : List Nat) (ok1 : EpochDirOk d1 false e1) (ok2 : EpochDirOk d2 true e2) (first : Option Nat)
    (hf : args.firstEpoch.map epoch2int = first.map fun v : Nat => .ok (v : Int)) (m n : Nat) (hrun : FirstRun e1 e2 first m n)
    (hdur : 2 ^ 60 ≤ args.minDuration (fl 53)) :
    Returns (fun fuel => mainInput (fl 53) rndA fuel args) (.error .indexError) := by
  obtain ⟨N0, g0⟩ := overlap_run d1 d2 e1 e2 ok1 ok2 _ first hf m n hrun
  have hq : (2 : ℤ) ^ 31 ≤ ⌈fl 53 (args.minDuration (fl 53) / 2 ^ 29)⌉ := by
    have h31 : fl 53 (2 ^ 31) = 2 ^ 31 := by decide +kernel
    have h3 : (2 : ℚ) ^ 31 ≤ fl 53 (args.minDuration (fl 53) / 2 ^ 29) := by
      rw [← h31]
      refine fl_mono_nonneg 53 (by norm_num) (by norm_num) ?_
      rw [le_div_iff₀ (by norm_num)]
      refine le_trans ?_ hdur
      norm_num
    have := h3.trans (Int.le_ceil _)
    exact_mod_cast this
  have hreq : (args.requiredEpochs (fl 53) - args.skipEpochs).toNat = 0 := by
    unfold FpArgs.requiredEpochs astypeInt32
    rw [if_neg (by omega)]
    omega
  refine ⟨N0, fun fuel hfuel => ?_⟩
  have a0 := g0 fuel (by omega)
  simp only at a0
  have hload : loadInput (fl 53) fuel args = some (.ok (some ([], [], 0))) := by
    unfold loadInput
    simp only [h1, h2, a0, getTimestampFrom, hreq]
    rfl
  unfold mainInput
  simp only [hload]
  rfl

/-- **C74**: without any common epoch the program ends with a `TypeError`. -/
theorem C74_no_overlap (rnd : ℚ → ℚ) (args : FpArgs) (d1 d2 : EpochDir) (h1 : args.sendfiles = some d1) (h2 : args.t1files = some d2)
    (e1 e2 : List Nat) (ok1 : EpochDirOk d1 false e1) (ok2 : EpochDirOk d2 true e2) (first : Option Nat)
    (hf : args.firstEpoch.map epoch2int = first.map fun v : Nat => .ok (v : Int)) (hno : ∀ v, ¬ CommonNat e1 e2 first v)
    (hreq : args.skipEpochs < args.requiredEpochs rnd) :
    Returns (fun fuel => loadInput rnd fuel args) (.error .typeError) := by
  obtain ⟨N0, g0⟩ := C24_no_overlap _ _ _ _ (dir_epochs d1 false e1 ok1) (dir_epochs d2 true e2 ok2) args.firstEpoch _
    (first_map _ first hf) (fun v hv => by
      obtain ⟨w, -, hw⟩ := common_nat _ _ _ _ hv
      exact hno w hw)
  refine ⟨N0, fun fuel hfuel => ?_⟩
  have a0 := g0 fuel hfuel
  simp only at a0
  unfold loadInput
  simp only [h1, h2, a0, getTimestampFrom]
  rw [if_neg (by omega)]

/-- **C74**: if both sides have events in the first half of the first epoch read and in the second half of the last one, the
timestamps given to the search start at zero and reach at least the minimum duration. -/
theorem C74_span_partial (args : FpArgs) (d1 d2 : EpochDir) (h1 : args.sendfiles = some d1) (h2 : args.t1files = some d2)
    (e1 e2 : List Nat) (ok1 : EpochDirOk d1 false e1) (ok2 : EpochDirOk d2 true e2) (first : Option Nat)
    (hf : args.firstEpoch.map epoch2int = first.map fun v : Nat => .ok (v : Int)) (m n : Nat) (hrun : FirstRun e1 e2 first m n)
    (skip num : Nat) (hs : args.skipEpochs = skip) (hreq : args.requiredEpochs (fl 53) = ((skip + num : Nat) : Int))
    (hen : skip + num ≤ n) (hsep : 0 ≤ args.separation) (hdur : args.minDuration (fl 53) < 2 ^ 59)
    (hblock : ∀ i < num, (m + skip + i) / 2 ^ 17 = (m + skip) / 2 ^ 17)
    (hsort : ∀ i < num, ∀ d isT1, (d = d1 ∧ isT1 = false ∨ d = d2 ∧ isT1 = true) →
      ∀ ts, EpochTimes d.file isT1 ((m + skip + i : Nat) : Int) ts → ts.Pairwise (fun a b => a.val ≤ b.val) ∧
        (∀ x ∈ ts, InEpoch ((m + skip + i : Nat) : Int) x.val) ∧
        (i = 0 → ∃ x ∈ ts, x.val < (((m + skip) % 2 ^ 17 : Nat) : ℚ) * 2 ^ 29 + 2 ^ 28) ∧
        (i + 1 = num → ∃ x ∈ ts, (((m + skip + i) % 2 ^ 17 : Nat) : ℚ) * 2 ^ 29 + 2 ^ 28 ≤ x.val)) :
    ∃ a b t, Returns (fun fuel => mainInput (fl 53) (fl 64) fuel args) (.ok (some [a, b])) ∧ a.Pairwise (· ≤ ·) ∧ b.Pairwise (· ≤ ·) ∧
      (∀ x ∈ a, 0 ≤ x) ∧ (∀ x ∈ b, 0 ≤ x) ∧ tfEndTime a b = .ok t ∧ args.minDuration (fl 53) ≤ t := by
  obtain ⟨hr, hr2⟩ := C74_required args hsep hdur
  have enum : args.requiredEpochs (fl 53) - args.skipEpochs = (num : Int) := by rw [hreq, hs]; omega
  rw [enum] at hr hr2
  have h0 : 0 ≤ args.minDuration (fl 53) :=
    fl_nonneg 53 (mul_nonneg (fl_nonneg 53 (by linarith)) (fl_nonneg 53 (Nat.cast_nonneg _)))
  generalize args.minDuration (fl 53) = D at hr hr2 h0 hdur
  have hnum2 : num < 2 ^ 31 := by
    have : (num : ℚ) < 2 ^ 31 := by
      rw [Int.cast_natCast] at hr2
      by_contra hcon
      push Not at hcon
      have := mul_le_mul_of_nonneg_right hcon (show (0 : ℚ) ≤ 2 ^ 29 by norm_num)
      norm_num at this hr2 hdur
      linarith
    exact_mod_cast this
  have hnum : 1 ≤ num := by
    by_contra hc
    have : num = 0 := by omega
    subst this
    norm_num at hr
    linarith
  obtain ⟨tsA, tsB, hA, hB, N, hl⟩ := C74_epochs (fl 53) args d1 d2 h1 h2 e1 e2 ok1 ok2 first hf m n hrun skip num hs hreq hen
  have sA := concat_sorted d1.file false m skip num tsA hA
    (fun i hi => (hsort i hi d1 false (Or.inl ⟨rfl, rfl⟩) _ (hA i hi)).1)
    (fun i hi => (hsort i hi d1 false (Or.inl ⟨rfl, rfl⟩) _ (hA i hi)).2.1) hblock
  have sB := concat_sorted d2.file true m skip num tsB hB
    (fun i hi => (hsort i hi d2 true (Or.inr ⟨rfl, rfl⟩) _ (hB i hi)).1)
    (fun i hi => (hsort i hi d2 true (Or.inr ⟨rfl, rfl⟩) _ (hB i hi)).2.1) hblock
  have hmem : ∀ (ts : Nat → List ENum) (i : Nat) (x : ENum), i < num → x ∈ ts i → x.val ∈ ((List.range num).flatMap ts).map ENum.val := by
    intro ts i x hi hx
    exact List.mem_map.mpr ⟨x, List.mem_flatMap.mpr ⟨i, List.mem_range.mpr hi, hx⟩, rfl⟩
  obtain ⟨xa, g1, g1'⟩ := (hsort 0 (by omega) d1 false (Or.inl ⟨rfl, rfl⟩) _ (hA 0 (by omega))).2.2.1 rfl
  obtain ⟨ya, g2, g2'⟩ := (hsort (num - 1) (by omega) d1 false (Or.inl ⟨rfl, rfl⟩) _ (hA (num - 1) (by omega))).2.2.2 (by omega)
  obtain ⟨xb, g3, g3'⟩ := (hsort 0 (by omega) d2 true (Or.inr ⟨rfl, rfl⟩) _ (hB 0 (by omega))).2.2.1 rfl
  obtain ⟨yb, g4, g4'⟩ := (hsort (num - 1) (by omega) d2 true (Or.inr ⟨rfl, rfl⟩) _ (hB (num - 1) (by omega))).2.2.2 (by omega)
  have hlast : (m + skip + (num - 1)) % 2 ^ 17 = (m + skip) % 2 ^ 17 + (num - 1) := by
    have := hblock (num - 1) (by omega)
    omega
  rw [hlast] at g2' g4'
  have hD : D ≤ ((num - 1 : Nat) : ℚ) * 2 ^ 29 := by
    rw [Nat.cast_sub hnum]
    push_cast at hr ⊢
    linarith
  have hApos : ∀ x ∈ ((List.range num).flatMap tsA).map ENum.val, 0 ≤ x := by
    intro x hx
    obtain ⟨y, hy, rfl⟩ := List.mem_map.mp hx
    obtain ⟨i, hi, hy⟩ := List.mem_flatMap.mp hy
    have := (hsort i (List.mem_range.mp hi) d1 false (Or.inl ⟨rfl, rfl⟩) _ (hA i (List.mem_range.mp hi))).2.1 y hy
    refine le_trans ?_ this.1
    have : (0 : ℤ) ≤ ((m + skip + i : Nat) : Int) % 2 ^ 17 := Int.emod_nonneg _ (by norm_num)
    have : (0 : ℚ) ≤ ((((m + skip + i : Nat) : Int) % 2 ^ 17 : Int) : ℚ) := by exact_mod_cast this
    positivity
  have hElt : (m + skip) % 2 ^ 17 < 2 ^ 17 := Nat.mod_lt _ (by norm_num)
  generalize (m + skip) % 2 ^ 17 = E at *
  have hc : fl 64 ((E : ℚ) * 2 ^ 29 + 2 ^ 28) = (E : ℚ) * 2 ^ 29 + 2 ^ 28 := by
    have := fl_nat 64 (E * 2 ^ 29 + 2 ^ 28) (by omega)
    push_cast at this
    exact this
  have hK : fl 64 (((num - 1 : Nat) : ℚ) * 2 ^ 29) = ((num - 1 : Nat) : ℚ) * 2 ^ 29 := by
    have := fl_nat 64 ((num - 1) * 2 ^ 29) (by omega)
    rw [Nat.cast_mul] at this
    exact_mod_cast this
  rw [Nat.cast_add] at g2' g4'
  generalize ((num - 1 : Nat) : ℚ) = K at *
  generalize (E : ℚ) = e at *
  have key := span_core _ _ sA sB (e * 2 ^ 29 + 2 ^ 28) ((e + K) * 2 ^ 29 + 2 ^ 28) _ (hmem tsA 0 xa (by omega) g1) g1' _
    (hmem tsA (num - 1) ya (by omega) g2) g2' _ (hmem tsB 0 xb (by omega) g3) g3' _ (hmem tsB (num - 1) yb (by omega) g4) g4'
    (by linarith) hApos hc (by rw [show (e + K) * 2 ^ 29 + 2 ^ 28 - (e * 2 ^ 29 + 2 ^ 28) = K * 2 ^ 29 by ring]; exact hK)
  obtain ⟨a, b, t, k1, k2, k3, k4, k5, k6, k7⟩ := key
  refine ⟨a, b, t, ⟨N, fun fuel hfuel => ?_⟩, k2, k3, k4, k5, k6, by linarith⟩
  have := hl fuel hfuel
  simp only at this
  unfold mainInput
  simp only [this, k1]
  rfl


/-! A concrete pair of directories with the epochs 5 and 6: T2 files with the times `a5`, `a6` (units of 1/8 ns, one event
each), T1 files with the times `b5`, `b6` (units of 1/256 ns). -/

/-- **C74** fails without such events: all required epochs are available and contain events, yet the timestamps given to the
search span only 2 ns of a minimum duration of 2^29 ns. -/
theorem C74_violated : ∃ (args : FpArgs) (d1 d2 : EpochDir) (e1 e2 : List Nat) (m n num : Nat) (a b : List ℚ) (t : ℚ),
    args.sendfiles = some d1 ∧ args.t1files = some d2 ∧ EpochDirOk d1 false e1 ∧ EpochDirOk d2 true e2 ∧ args.firstEpoch = none ∧
    FirstRun e1 e2 none m n ∧ args.skipEpochs = 0 ∧ args.requiredEpochs (fl 53) = (num : Int) ∧ num ≤ n ∧
    (∀ i < num, ∀ ts, EpochTimes d1.file false ((m + i : Nat) : Int) ts → ts ≠ []) ∧
    (∀ i < num, ∀ ts, EpochTimes d2.file true ((m + i : Nat) : Int) ts → ts ≠ []) ∧
    Returns (fun fuel => mainInput (fl 53) (fl 64) fuel args) (.ok (some [a, b])) ∧ tfEndTime a b = .ok t ∧ t < args.minDuration (fl 53) := by
  have r1 := wT2_read 5 (2 ^ 32 - 8) (by norm_num) (by norm_num) (by norm_num) wStarts1
  have r2 := wT2_read 6 8 (by norm_num) (by norm_num) (by norm_num) wStarts2
  have r3 := wT1_read 5 (2 ^ 37 - 256) (by norm_num) (by norm_num) (by norm_num)
  have r4 := wT1_read 6 256 (by norm_num) (by norm_num) (by norm_num)
  have n1 : (((5 * 2 ^ 32 + (2 ^ 32 - 8) : Nat) : ℚ) / 8) = 6 * 2 ^ 29 - 1 := by norm_num
  have n2 : (((6 * 2 ^ 32 + 8 : Nat) : ℚ) / 8) = 6 * 2 ^ 29 + 1 := by norm_num
  have n3 : (((5 * 2 ^ 37 + (2 ^ 37 - 256) : Nat) : ℚ) / 256) = 6 * 2 ^ 29 - 1 := by norm_num
  have n4 : (((6 * 2 ^ 37 + 256 : Nat) : ℚ) / 256) = 6 * 2 ^ 29 + 1 := by norm_num
  rw [n1] at r1
  rw [n2] at r2
  rw [n3] at r3
  rw [n4] at r4
  generalize wT2 5 (2 ^ 32 - 8) = fa5 at r1
  generalize wT2 6 8 = fa6 at r2
  generalize t1File 5 [(2 ^ 37 - 256, 1)] = fb5 at r3
  generalize t1File 6 [(256, 1)] = fb6 at r4
  have tA := wTimes false fa5 fa6 _ _ _ r1 r2
  have tB := wTimes true fb5 fb6 _ _ _ r3 r4
  have ok1 := wDir_ok false fa5 fa6 ⟨_, r1⟩ ⟨_, r2⟩
  have ok2 := wDir_ok true fb5 fb6 ⟨_, r3⟩ ⟨_, r4⟩
  obtain ⟨tsA, tsB, hA, hB, N, hl⟩ := C74_epochs (fl 53) (wArgs (wDir fa5 fa6) (wDir fb5 fb6)) _ _ rfl rfl _ _ ok1 ok2 none rfl 5 2 wRun
    0 2 rfl (wArgs_req _ _) (by norm_num)
  have a0 := tA 0 (by norm_num) _ (hA 0 (by norm_num))
  have a1 := tA 1 (by norm_num) _ (hA 1 (by norm_num))
  have b0 := tB 0 (by norm_num) _ (hB 0 (by norm_num))
  have b1 := tB 1 (by norm_num) _ (hB 1 (by norm_num))
  refine ⟨wArgs (wDir fa5 fa6) (wDir fb5 fb6), _, _, [5, 6], [5, 6], 5, 2, 2, [0, 2], [0, 2], 2, rfl, rfl, ok1, ok2, rfl, wRun, rfl,
    wArgs_req _ _, le_refl _, ?_, ?_, ⟨N, fun fuel hfuel => ?_⟩, by decide +kernel, by rw [wArgs_dur]; norm_num⟩
  · intro i hi ts h
    rw [tA i hi ts h]; simp
  · intro i hi ts h
    rw [tB i hi ts h]; simp
  · have := hl fuel hfuel
    simp only at this
    unfold mainInput
    simp only [this]
    have er : List.range 2 = [0, 1] := rfl
    simp only [er, List.flatMap_cons, List.flatMap_nil, a0, a1, b0, b1]
    decide +kernel

/-- Directories that meet all hypotheses of `C74_span_partial`: an event 1 ns after the start of epoch 5 and one 1 ns before the
end of epoch 6, on both sides. -/
example : ∃ (args : FpArgs) (d1 d2 : EpochDir) (e1 e2 : List Nat), args.sendfiles = some d1 ∧ args.t1files = some d2 ∧
    EpochDirOk d1 false e1 ∧ EpochDirOk d2 true e2 ∧ FirstRun e1 e2 none 5 2 ∧ args.skipEpochs = (0 : Nat) ∧
    args.requiredEpochs (fl 53) = ((0 + 2 : Nat) : Int) ∧ 0 ≤ args.separation ∧ args.minDuration (fl 53) < 2 ^ 59 ∧
    ∀ i < 2, ∀ d isT1, (d = d1 ∧ isT1 = false ∨ d = d2 ∧ isT1 = true) →
      ∀ ts, EpochTimes d.file isT1 ((5 + 0 + i : Nat) : Int) ts → ts.Pairwise (fun a b => a.val ≤ b.val) ∧
        (∀ x ∈ ts, InEpoch ((5 + 0 + i : Nat) : Int) x.val) ∧
        (i = 0 → ∃ x ∈ ts, x.val < (((5 + 0) % 2 ^ 17 : Nat) : ℚ) * 2 ^ 29 + 2 ^ 28) ∧
        (i + 1 = 2 → ∃ x ∈ ts, (((5 + 0 + i) % 2 ^ 17 : Nat) : ℚ) * 2 ^ 29 + 2 ^ 28 ≤ x.val) := by
  have r1 := wT2_read 5 8 (by norm_num) (by norm_num) (by norm_num) wStarts2
  have r2 := wT2_read 6 (2 ^ 32 - 8) (by norm_num) (by norm_num) (by norm_num) wStarts1
  have r3 := wT1_read 5 256 (by norm_num) (by norm_num) (by norm_num)
  have r4 := wT1_read 6 (2 ^ 37 - 256) (by norm_num) (by norm_num) (by norm_num)
  have n1 : (((5 * 2 ^ 32 + 8 : Nat) : ℚ) / 8) = 5 * 2 ^ 29 + 1 := by norm_num
  have n2 : (((6 * 2 ^ 32 + (2 ^ 32 - 8) : Nat) : ℚ) / 8) = 7 * 2 ^ 29 - 1 := by norm_num
  have n3 : (((5 * 2 ^ 37 + 256 : Nat) : ℚ) / 256) = 5 * 2 ^ 29 + 1 := by norm_num
  have n4 : (((6 * 2 ^ 37 + (2 ^ 37 - 256) : Nat) : ℚ) / 256) = 7 * 2 ^ 29 - 1 := by norm_num
  rw [n1] at r1
  rw [n2] at r2
  rw [n3] at r3
  rw [n4] at r4
  generalize wT2 5 8 = fa5 at r1
  generalize wT2 6 (2 ^ 32 - 8) = fa6 at r2
  generalize t1File 5 [(256, 1)] = fb5 at r3
  generalize t1File 6 [(2 ^ 37 - 256, 1)] = fb6 at r4
  have ok1 := wDir_ok false fa5 fa6 ⟨_, r1⟩ ⟨_, r2⟩
  have ok2 := wDir_ok true fb5 fb6 ⟨_, r3⟩ ⟨_, r4⟩
  have tA := wTimes false fa5 fa6 _ _ _ r1 r2
  have tB := wTimes true fb5 fb6 _ _ _ r3 r4
  refine ⟨wArgs _ _, _, _, _, _, rfl, rfl, ok1, ok2, wRun, rfl, wArgs_req _ _, by norm_num [wArgs], by rw [wArgs_dur]; norm_num, ?_⟩
  intro i hi d isT1 hd ts hts
  have hts' : ts = [ENum.flt (if i = 0 then 5 * 2 ^ 29 + 1 else 7 * 2 ^ 29 - 1)] := by
    rcases hd with ⟨rfl, rfl⟩ | ⟨rfl, rfl⟩
    · exact tA i hi ts hts
    · exact tB i hi ts hts
  subst hts'
  have : i = 0 ∨ i = 1 := by omega
  rcases this with rfl | rfl <;> norm_num [InEpoch, ENum.val]

/-- An instance of `C74_overflow_violated`: the directories of `C74_violated` and a separation of 2^60 durations. -/
example : ∃ (args : FpArgs) (d1 d2 : EpochDir), args.sendfiles = some d1 ∧ args.t1files = some d2 ∧ EpochDirOk d1 false [5, 6] ∧
    EpochDirOk d2 true [5, 6] ∧ Returns (fun fuel => mainInput (fl 53) (fl 64) fuel args) (.error .indexError) := by
  have r1 := wT2_read 5 (2 ^ 32 - 8) (by norm_num) (by norm_num) (by norm_num) wStarts1
  have r2 := wT2_read 6 8 (by norm_num) (by norm_num) (by norm_num) wStarts2
  have r3 := wT1_read 5 (2 ^ 37 - 256) (by norm_num) (by norm_num) (by norm_num)
  have r4 := wT1_read 6 256 (by norm_num) (by norm_num) (by norm_num)
  generalize wT2 5 (2 ^ 32 - 8) = fa5 at r1
  generalize wT2 6 8 = fa6 at r2
  generalize t1File 5 [(2 ^ 37 - 256, 1)] = fb5 at r3
  generalize t1File 6 [(256, 1)] = fb6 at r4
  have ok1 := wDir_ok false fa5 fa6 ⟨_, r1⟩ ⟨_, r2⟩
  have ok2 := wDir_ok true fb5 fb6 ⟨_, r3⟩ ⟨_, r4⟩
  refine ⟨{ wArgs (wDir fa5 fa6) (wDir fb5 fb6) with separation := 2 ^ 60 }, _, _, rfl, rfl, ok1, ok2,
    C74_overflow_violated (fl 64) _ _ _ rfl rfl _ _ ok1 ok2 none rfl 5 2 wRun ?_⟩
  unfold FpArgs.minDuration FpArgs.ta wArgs
  dsimp only
  decide +kernel

end Fp
