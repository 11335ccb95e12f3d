import Verif.Props.FpInput
import Verif.Props.FftNumeric

/-! # C120: numerical Fourier transforms and an instance -/
namespace Fp
open Spec

theorem sum_close (x y : List ℚ) (e : ℚ) (hl : x.length = y.length)
    (h : ∀ (i : Nat) u v, x[i]? = some u → y[i]? = some v → |u - v| ≤ e) : |x.sum - y.sum| ≤ x.length * e := by
  induction x generalizing y with
  | nil =>
    cases y with
    | nil => simp
    | cons _ _ => simp at hl
  | cons u x ih =>
    cases y with
    | nil => simp at hl
    | cons v y =>
      have h0 := h 0 u v rfl rfl
      have h1 := ih y (by simpa using hl) (fun i a b ha hb => h (i + 1) a b (by simpa using ha) (by simpa using hb))
      rw [List.sum_cons, List.sum_cons, List.length_cons]
      have e1 : u + x.sum - (v + y.sum) = (u - v) + (x.sum - y.sum) := by ring
      rw [e1]
      have := abs_add_le (u - v) (x.sum - y.sum)
      push_cast
      linarith

/-- A correlation with at most an error `e` in every bin has `2^j` times that in blocks. -/
theorem blocks_close (xc : List Nat → List Nat → List ℚ) (a b : List ℚ) (n : Nat) (res : ℚ) (j : Nat) (e : ℚ) (hj : 2 ^ j ∣ n)
    (hl : (xc (histogram a n res) (histogram b n res)).length = n)
    (h : ∀ (k : Nat) (x : ℚ), (xc (histogram a n res) (histogram b n res))[k]? = some x → |x - (pairsAt a b n res k : Nat)| ≤ e)
    (he : 2 ^ j * e < 1 / 2) : MergedAccurate xc a b n res j := by
  refine ⟨hl, fun k hk => ?_⟩
  obtain ⟨q, rfl⟩ := hj
  rw [Nat.mul_div_cancel_left _ (by positivity)] at hk
  have hk2 : k * 2 ^ j + 2 ^ j ≤ 2 ^ j * q := by
    have : (k + 1) * 2 ^ j ≤ q * 2 ^ j := Nat.mul_le_mul_right _ hk
    rw [Nat.mul_comm (2 ^ j) q]
    rw [Nat.add_mul, Nat.one_mul] at this
    exact this
  obtain ⟨ys, hys⟩ : ∃ ys, ys = xc (histogram a (2 ^ j * q) res) (histogram b (2 ^ j * q) res) := ⟨_, rfl⟩
  rw [← hys] at hl h ⊢
  unfold blockSum pairsInBlock
  obtain ⟨zs, hzs⟩ : ∃ zs : List ℚ, zs = (List.range (2 ^ j)).map fun i : Nat =>
      ((pairsAt a b (2 ^ j * q) res ((k : ℤ) * 2 ^ j + i) : Nat) : ℚ) := ⟨_, rfl⟩
  have e1 : ((((List.range (2 ^ j)).map fun i : Nat => pairsAt a b (2 ^ j * q) res ((k : ℤ) * 2 ^ j + i)).sum : Nat) : ℚ) = zs.sum := by
    rw [hzs, Nat.cast_list_sum, List.map_map]
    rfl
  rw [e1]
  have hlen : ((ys.drop (k * 2 ^ j)).take (2 ^ j)).length = 2 ^ j := by
    rw [List.length_take, List.length_drop, hl]
    omega
  refine lt_of_le_of_lt (sum_close _ zs e (by rw [hlen, hzs, List.length_map, List.length_range]) ?_) ?_
  · intro i u v hu hv
    have hi : i < 2 ^ j := by
      rw [← hlen]
      exact (List.getElem?_eq_some_iff.mp hu).1
    rw [List.getElem?_take_of_lt hi, List.getElem?_drop] at hu
    rw [hzs, List.getElem?_map, List.getElem?_range hi] at hv
    simp only [Option.map_some, Option.some.injEq] at hv
    have := h _ _ hu
    rw [← hv]
    push_cast at this ⊢
    exact this
  · rw [hlen]
    push_cast
    exact he

/-- **C120** (numerics): if the Fourier transforms have a relative error of `η` with 18·2^j·η·pairs < 1 for the number of pairs of all
events, then all correlations of these events are accurate, also after `j` mergings of bins. -/
theorem C120_numerics (F : Fourier) (h : Nat) (hh : 0 < h) (η : ℝ) (hη : 0 ≤ η) (hF : Accurate F (2 * h) η η)
    (hn : ((2 * h : Nat) : ℝ) * η ^ 2 ≤ 1) (j NA NB : Nat) (hj : 2 ^ j ∣ 2 * h) (hp : 18 * 2 ^ j * η * (NA * NB) < 1)
    (a b : List ℚ) (ha : a ≠ []) (hb : b ≠ []) (hla : a.length ≤ NA) (hlb : b.length ≤ NB) (res : ℚ) :
    XcorrAccurate F.xcorr a b (2 * h) res ∧ MergedAccurate F.xcorr a b (2 * h) res j := by
  have hsum : ∀ c : List ℚ, c ≠ [] → (histogram c (2 * h) res).sum = c.length := by
    intro c hc
    obtain ⟨bins, h1, -, h2, -⟩ := C27_binning c (2 * h) res (by omega) hc
    rw [generateBins_histogram c (2 * h) (by omega) res hc, Except.ok.injEq] at h1
    rw [h1, h2]
  have h2j : (1 : ℝ) ≤ 2 ^ j := one_le_pow₀ (by norm_num)
  have hP : (a.length : ℝ) * b.length ≤ NA * NB := by
    have h1 : (a.length : ℝ) ≤ NA := by exact_mod_cast hla
    have h2 : (b.length : ℝ) ≤ NB := by exact_mod_cast hlb
    exact mul_le_mul h1 h2 (by positivity) (by positivity)
  have hP1 : (1 : ℝ) ≤ (a.length : ℝ) * b.length := by
    have h1 : (1 : ℝ) ≤ a.length := by exact_mod_cast List.length_pos_of_ne_nil ha
    have h2 : (1 : ℝ) ≤ b.length := by exact_mod_cast List.length_pos_of_ne_nil hb
    nlinarith
  have hE : 18 * 2 ^ j * η * ((a.length : ℝ) * b.length) < 1 :=
    lt_of_le_of_lt (mul_le_mul_of_nonneg_left hP (by positivity)) hp
  have hE1 : 18 * η * ((a.length : ℝ) * b.length) < 1 := by
    refine lt_of_le_of_lt ?_ hE
    have h1 : 0 ≤ 18 * η * ((a.length : ℝ) * b.length) := by positivity
    calc 18 * η * ((a.length : ℝ) * b.length) = 1 * (18 * η * ((a.length : ℝ) * b.length)) := by ring
      _ ≤ 2 ^ j * (18 * η * ((a.length : ℝ) * b.length)) := mul_le_mul_of_nonneg_right h2j h1
      _ = _ := by ring
  refine ⟨C115_accurate F h hh η hη hF hn a b ha hb res hE1, ?_⟩
  have hη1 : η ≤ 1 / 18 := by nlinarith
  obtain ⟨hl, he⟩ := numeric_error F h hh η η hη (by linarith) hη hn hF (histogram a (2 * h) res) (histogram b (2 * h) res)
    (by simp [histogram]) (by simp [histogram])
  -- a rational bound of the errors
  obtain ⟨q, hq1, hq2⟩ := exists_rat_btwn (show 9 * η * ((a.length : ℝ) * b.length) < 1 / (2 * 2 ^ j) by
    rw [lt_div_iff₀ (by positivity)]
    nlinarith)
  refine blocks_close F.xcorr a b (2 * h) res j q hj hl (fun k x hx => ?_) ?_
  · have hk : k < 2 * h := by
      rw [← hl]
      exact (List.getElem?_eq_some_iff.mp hx).1
    have := he k x hx
    rw [hsum a ha, hsum b hb, corrAt_pairs a b h hh res ha hb k hk] at this
    have hc : 2 * (η * (1 + η) ^ 2 + η * (2 + η)) + η ≤ 9 * η := by nlinarith [mul_nonneg hη hη]
    have h3 := mul_le_mul_of_nonneg_right hc (show (0 : ℝ) ≤ (a.length : ℝ) * b.length by positivity)
    have h4 : |(x : ℝ) - ((pairsAt a b (2 * h) res k : Nat) : ℝ)| ≤ q := by linarith
    have hcast : ((|x - ((pairsAt a b (2 * h) res k : Nat) : ℚ)| : ℚ) : ℝ) ≤ ((q : ℚ) : ℝ) := by
      push_cast
      exact h4
    exact_mod_cast hcast
  · rw [lt_div_iff₀ (by positivity)] at hq2
    have h5 : (((2 ^ j * q : ℚ)) : ℝ) < ((1 / 2 : ℚ) : ℝ) := by
      push_cast
      linarith
    exact_mod_cast h5

/-- Instance of `C120_numerics`: transforms with an error of 10^-9, ten events on each side, one merging. -/
example (a b : List ℚ) (ha : a ≠ []) (hb : b ≠ []) (hla : a.length ≤ 10) (hlb : b.length ≤ 10) (res : ℚ) :
    ∃ F : Fourier, XcorrAccurate F.xcorr a b (2 * 64) res ∧ MergedAccurate F.xcorr a b (2 * 64) res 1 := by
  obtain ⟨F, hF⟩ := accurate_exists 64 (1 / 10 ^ 9) (by norm_num)
  exact ⟨F, C120_numerics F 64 (by norm_num) (1 / 10 ^ 9) (by norm_num) hF (by norm_num) 1 10 10 ⟨64, rfl⟩ (by norm_num) a b ha hb hla hlb res⟩

/-- **C120** (the program): under these conditions on the recordings, with the target times already corrected by the
precompensation `d` at which the search succeeds, fpfind prints the right correction. -/
theorem C120_printed (env : NumEnv) (henv : env.rnd = fl 53) (args : FpMainArgs) (hfull : args.precompFullscan = false)
    (hout : args.output = 0) (a b : List ℚ) (hin : Input env args a b) (pre post : List ℚ) (d : ℚ)
    (hp : precs env args = pre ++ d :: post) (hd : |fl 53 (1 + d) - 1| ≤ 1 / 2 ^ 9)
    (hpre : ∀ d' ∈ pre, Search env args a (precompensated env d' b) (.error .valueError))
    (j : Nat) (φ τ φ' τ' B E0 E1 η : ℚ) (δ : Nat → ℚ) (w : Nat → Nat) (L : Nat)
    (hφ : 1 + φ = (1 + φ') * fl 53 (1 + d)) (hτ : τ = τ' * fl 53 (1 + d))
    (C : ClearInput (searchParams env args a (precompensated env d b)) (precompensated env d b) args.initialRes j φ' τ' B E0 E1 η δ w L) :
    ∃ line x n k, Returns (fun fuel => fpMain env fuel args) (.ok (some line)) ∧ Printed ⟨.inl x, some n⟩ line ∧ k ≤ L ∧
      ∀ ε R, ε = args.finalRes + δ k + 2 ^ args.bufferOrder * args.finalRes / 2 ^ 50 →
      R = (k + 1) * (B + (k + 1) * (101 * 10 ^ 6)) / 2 ^ 49 → ∀ t, 0 ≤ t → |targetClock φ' τ' t| ≤ B →
        |corrected n x (targetClock φ τ t) - t| ≤
          (ε + R + 2 * (ε + R) * (t / (searchParams env args a (precompensated env d b)).sep)) * (1 + 1 / 2 ^ 10) + 4 * R +
            (1 / 2 + 1 / 2 ^ 8) :=
  C106_printed env henv args hfull hout a b hin pre post d hp hd hpre j φ τ φ' τ' B E0 E1 δ w L hφ hτ
    (C120_clear _ _ _ _ _ _ _ _ _ _ _ _ _ C)

/-! ## Instance: four coincidences with jitter and one other event in each window -/

theorem pairs_product (a b : List ℚ) (p : ℚ → ℚ → Bool) :
    (a.map fun x => b.countP fun y => p x y).sum = (a ×ˢ b).countP fun q => p q.1 q.2 := by
  induction a with
  | nil => simp
  | cons x a ih =>
    rw [List.map_cons, List.sum_cons, ih, List.product_cons, List.countP_append, List.countP_map]
    rfl

theorem cyclicDist_triangle (period : ℚ) (hp : 0 < period) (x y κ : ℚ) :
    cyclicDist period (x - y) ≤ cyclicDist period (x - κ) + cyclicDist period (y - κ) := by
  refine (cyclicDist_le period _ (round ((x - κ) / period) - round ((y - κ) / period)) hp).trans ?_
  unfold cyclicDist
  push_cast
  refine le_trans (le_of_eq ?_) (abs_sub (x - κ - period * round ((x - κ) / period)) (y - κ - period * round ((y - κ) / period)))
  congr 1
  ring

theorem countP_le_one {α : Type} (p : α → Bool) (l : List α) (h : l.Pairwise fun x y => ¬ (p x = true ∧ p y = true)) : l.countP p ≤ 1 := by
  induction l with
  | nil => simp
  | cons x l ih =>
    rw [List.pairwise_cons] at h
    rw [List.countP_cons]
    split
    · rename_i hx
      have : l.countP p = 0 := by
        rw [List.countP_eq_zero]
        intro y hy hpy
        exact h.1 y hy ⟨hx, hpy⟩
      omega
    · have := ih h.2
      omega

/-- If accidental pairs have delays at least `2ε` apart, there is at most one around any delay. -/
theorem pairsAround_one (a b : List ℚ) (φ τ lo hi η period ε : ℚ) (hp : 0 < period)
    (h : ((a ×ˢ b).filter fun q => decide (Accidental φ τ lo hi η q.1 q.2)).Pairwise fun p q =>
      2 * ε ≤ cyclicDist period ((referenceTime φ τ p.2 - p.1) - (referenceTime φ τ q.2 - q.1))) (κ : ℚ) :
    pairsAround a b φ τ lo hi η period κ ε ≤ 1 := by
  unfold pairsAround
  rw [pairs_product a b (fun x y => decide (Accidental φ τ lo hi η x y ∧ cyclicDist period (referenceTime φ τ y - x - κ) < ε))]
  have e : ((a ×ˢ b).countP fun q => decide (Accidental φ τ lo hi η q.1 q.2 ∧ cyclicDist period (referenceTime φ τ q.2 - q.1 - κ) < ε)) =
      ((a ×ˢ b).filter fun q => decide (Accidental φ τ lo hi η q.1 q.2)).countP fun q =>
        decide (cyclicDist period (referenceTime φ τ q.2 - q.1 - κ) < ε) := by
    rw [List.countP_filter]
    apply List.countP_congr
    intro q _
    simp [and_comm]
  rw [e]
  refine countP_le_one _ _ (h.imp ?_)
  intro p q hpq hboth
  simp only [decide_eq_true_eq] at hboth
  have := cyclicDist_triangle period hp (referenceTime φ τ p.2 - p.1) (referenceTime φ τ q.2 - q.1) κ
  linarith [hboth.1, hboth.2]

/-- The correlation with an error of 1/8 in every bin is accurate for all events. -/
theorem convXcorr_accurate (a b : List ℚ) (ha : a ≠ []) (hb : b ≠ []) (h : Nat) (hh : 0 < h) (res : ℚ) :
    XcorrAccurate convXcorr a b (2 * h) res := by
  have la : (histogram a (2 * h) res).length = 2 * h := by simp [histogram]
  have lb : (histogram b (2 * h) res).length = 2 * h := by simp [histogram]
  refine ⟨by simp [convXcorr, roughXcorr, la], fun k x hx => ?_⟩
  have hk : k < 2 * h := by
    have := (List.getElem?_eq_some_iff.mp hx).1
    simpa [convXcorr, roughXcorr, la] using this
  unfold convXcorr roughXcorr at hx
  rw [List.getElem?_map, List.getElem?_map, la, List.getElem?_range hk] at hx
  simp only [Option.map_some, Option.some.injEq] at hx
  have hc := corrAt_pairs a b h hh res ha hb k hk
  obtain ⟨S, hS⟩ : ∃ S : ℕ, S = ((List.range (2 * h)).map fun i =>
    (histogram a (2 * h) res).getD i 0 * (histogram b (2 * h) res).getD ((i + k) % (2 * h)) 0).sum := ⟨_, rfl⟩
  have hcorr : corrAt (reals (histogram a (2 * h) res)) (reals (histogram b (2 * h) res)) (2 * h) k = (S : ℝ) := by
    have e1 : (S : ℝ) = ∑ i ∈ Finset.range (2 * h), (((histogram a (2 * h) res).getD i 0 * (histogram b (2 * h) res).getD ((i + k) % (2 * h)) 0 : ℕ) : ℝ) := by
      rw [← Nat.cast_sum, hS]
      rfl
    rw [e1]
    unfold corrAt
    refine Finset.sum_congr rfl fun i hi => ?_
    have hi' := Finset.mem_range.mp hi
    have hm : (i + k) % (2 * h) < 2 * h := Nat.mod_lt _ (by omega)
    rw [Finset.sum_eq_single ((i + k) % (2 * h))]
    · rw [if_pos]
      · unfold reals
        rw [List.getElem?_map, List.getElem?_map, List.getD_eq_getElem?_getD, List.getD_eq_getElem?_getD,
          List.getElem?_eq_getElem (by omega), List.getElem?_eq_getElem (by omega)]
        simp
      · have := Nat.mod_add_div (i + k) (2 * h)
        refine ⟨(((i + k) / (2 * h) : Nat) : ℤ), ?_⟩
        have h2 : (((i + k) % (2 * h) : Nat) : ℤ) + ((2 * h : Nat) : ℤ) * (((i + k) / (2 * h) : Nat) : ℤ) = i + k := by exact_mod_cast this
        linarith
    · intro l hl hne
      rw [if_neg]
      intro hdvd
      apply hne
      have hl' := Finset.mem_range.mp hl
      have h2 : (l : ℤ) ≡ ((i + k : Nat) : ℤ) [ZMOD ((2 * h : Nat) : ℤ)] := by
        rw [Int.modEq_iff_dvd]
        convert hdvd using 1
        push_cast
        ring
      have h3 := Int.natCast_modEq_iff.mp h2
      rw [← h3, Nat.mod_eq_of_lt hl']
    · intro hn
      exact absurd (Finset.mem_range.mpr hm) hn
  have hSp : S = pairsAt a b (2 * h) res k := by
    rw [hcorr] at hc
    exact_mod_cast hc
  have hx2 : x = (S : ℚ) + 1 / 4 - 1 / 8 := by
    rw [← hx, hS]
  rw [hx2, hSp, show ((pairsAt a b (2 * h) res k : Nat) : ℚ) + 1 / 4 - 1 / 8 - (pairsAt a b (2 * h) res k : Nat) = 1 / 8 by ring]
  norm_num [abs_of_pos]

def inputParams : TFParams :=
  { ats := [8, 12, 24, 32, 1000008, 1000012, 1000024, 1000032], numBins := 128, target := 1 / 2, threshold := 6, sep := 1000000,
    duration := 64, endTime := 1000032, rnd := fl 53, rndA := fl 64, xcorr := convXcorr,
    signif := fun ys _ => .ok (if ys.length = 128 then 1 else 10) }

def inputTarget : List ℚ := [11, 121 / 8, 27, 35, 53, 1000021, 1000025, 8000297 / 8, 1000045, 1000063]

theorem input_resolution : resolutionAt inputParams (1 / 2) 1 1 = 1 / 2 := by decide +kernel

theorem input_resolution_first : resolutionAt inputParams (1 / 2) 1 0 = 1 := by decide +kernel

theorem input_length : lengthAt inputParams (1 / 2) 1 1 = 64 := by decide +kernel

/-- The margin in the second iteration. -/
def inputMargin : ℚ := 4 * (1 + 1 / 5 + 128 / 2 ^ 50 + 2 * (2 * (2 * 10 ^ 6 + 2 * (101 * 10 ^ 6)) / 2 ^ 49))

theorem input_margin : marginAt inputParams (1 / 2) 1 (fun _ => 1 / 5) (2 * 10 ^ 6) 1 1 = inputMargin := by
  unfold marginAt errorAt roundingOf inputMargin
  rw [input_resolution_first]
  norm_num [inputParams]

theorem input_clear_early : ClearMerged inputParams inputTarget (1 / 2) 1 3 (1 / 5) 3 := by
  have hd : acqDurationFl 128 (1 / 2) 64 1000032 = 64 := by decide +kernel
  unfold ClearMerged
  simp only [inputParams]
  rw [hd]
  exact ⟨by norm_num, standsOutMerged_check [2, 3, 4] (by norm_num) (by decide +kernel) (by decide +kernel) (by decide +kernel),
    ⟨by decide +kernel, by decide +kernel⟩, by norm_num [abs_of_pos]⟩

theorem input_clear_late : ClearIn inputParams inputTarget (acqDurationFl 128 (1 / 2) 64 1000032) 1 1000000 13 (1 / 5) 3 := by
  have hd : acqDurationFl 128 (1 / 2) 64 1000032 = 64 := by decide +kernel
  rw [hd]
  unfold ClearIn
  simp only [inputParams]
  exact ⟨by norm_num, standsOut_check [12, 13, 14] (by norm_num) (by decide +kernel) (by decide +kernel) (by decide +kernel),
    accurate_check (by decide +kernel) (by decide +kernel), by norm_num [abs_of_pos]⟩

theorem input_prominent (start : ℚ) (hs : start = 0 ∨ start = 1000000) :
    Prominent inputParams.ats inputTarget (1 / 100000) 3 128 (1 / 2) start 64 inputMargin (13 / 100) (1 / 5) 3 := by
  rcases hs with rfl | rfl
  · have hc : coincidences inputParams.ats inputTarget (1 / 100000) 3 (0 + inputMargin + 13 / 100) (0 + 64 - inputMargin - 13 / 100) (13 / 100) = 4 := by
      decide +kernel
    refine ⟨by norm_num, by rw [hc]; norm_num, fun κ _ => ?_⟩
    rw [hc]
    have := pairsAround_one inputParams.ats inputTarget (1 / 100000) 3 (0 - inputMargin) (0 + 64 + inputMargin) (13 / 100)
      ((128 : Nat) * (1 / 2)) (1 / 2 + 1 / 5) (by norm_num) (by decide +kernel) κ
    omega
  · have hc : coincidences inputParams.ats inputTarget (1 / 100000) 3 (1000000 + inputMargin + 13 / 100)
        (1000000 + 64 - inputMargin - 13 / 100) (13 / 100) = 4 := by
      decide +kernel
    refine ⟨by norm_num, by rw [hc]; norm_num, fun κ _ => ?_⟩
    rw [hc]
    have := pairsAround_one inputParams.ats inputTarget (1 / 100000) 3 (1000000 - inputMargin) (1000000 + 64 + inputMargin) (13 / 100)
      ((128 : Nat) * (1 / 2)) (1 / 2 + 1 / 5) (by norm_num) (by decide +kernel) κ
    omega

/-- The hypotheses of C120 are satisfiable by a run with a refinement. -/
theorem input_example : ClearInput inputParams inputTarget (1 / 2) 1 (1 / 100000) 3 (2 * 10 ^ 6) (13 / 10) (3 / 4) (13 / 100)
    (fun _ => 1 / 5) (fun _ => 3) 1 where
  rnd := rfl
  rndA := rfl
  bins := by norm_num [inputParams]
  target := by norm_num [inputParams]
  duration := by norm_num [inputParams]
  separation := by norm_num [inputParams, resRefineFactor]
  resolution := ⟨by norm_num, by decide +kernel⟩
  merging := ⟨⟨64, rfl⟩, Or.inr (by norm_num)⟩
  last := input_resolution
  few := by norm_num
  significance := fun _ _ ys _ _ _ => ⟨if ys.length = 128 then 1 else 10, rfl⟩
  significant := by
    intro ys d h
    have hl : (tfCorrelate inputParams inputTarget (1 / 2) 0 (tfDuration inputParams (1 / 2))).map (fun v => v.1.length) = .ok 128 := by
      decide +kernel
    rw [h] at hl
    simp only [Except.map, Except.ok.injEq] at hl
    have hm : ∀ j, (merged ys j).length = 128 / 2 ^ j := by
      intro j
      unfold merged
      rw [List.length_map, List.length_range, hl]
    refine ⟨⟨10, ?_, by norm_num, by norm_num [inputParams]⟩, ?_⟩
    · simp [inputParams, hm]
    · intro i hi
      obtain rfl : i = 0 := by omega
      exact ⟨1, by simp [inputParams, hm], by norm_num, by norm_num [inputParams]⟩
  clearEarly := input_clear_early
  clearLate := by
    have hD : targetClock (1 / 100000) 3 inputParams.sep - inputParams.sep = 13 := by norm_num [targetClock, inputParams]
    have h1 : (2 : ℚ) ^ 1 * (1 / 2) = 1 := by norm_num
    rw [hD, h1]
    exact input_clear_late
  times := by norm_num [inputParams, targetClock, abs_of_pos]
  errorFirst := by
    unfold errorAt
    rw [input_resolution_first]
    norm_num [inputParams]
  errorLater := by
    intro k h0 h1
    obtain rfl : k = 1 := by omega
    unfold errorAt
    rw [input_resolution]
    norm_num [inputParams]
  errors := by norm_num
  rounding := by norm_num
  offset := by norm_num [abs_of_pos]
  frequency := by norm_num [inputParams, abs_of_pos]
  guardDelay := Or.inl (by norm_num [abs_of_pos])
  guardFrequency := Or.inl (by norm_num [inputParams, abs_of_pos])
  bound := by decide +kernel
  accurate := by
    intro k _ _ a b ha hb _ _
    exact convXcorr_accurate a b ha hb 64 (by norm_num) _
  spread := by
    intro k h0 h1
    obtain rfl : k = 1 := by omega
    rw [input_margin, input_length]
    unfold errorAt roundingOf inputMargin
    rw [input_resolution_first]
    norm_num [inputParams]
  range := by
    intro k h0 h1
    obtain rfl : k = 1 := by omega
    rw [input_length, input_resolution]
    unfold errorAt roundingOf
    rw [input_resolution_first]
    norm_num [inputParams]
  prominent := by
    intro k h0 h1 start hs
    obtain rfl : k = 1 := by omega
    rw [input_length, input_resolution, input_margin]
    exact input_prominent start hs

/-- Instance of C120. -/
example : ∃ dt df trace, Returns (fun fuel => timeFreq inputParams fuel inputTarget (1 / 2)) (.ok (dt, df, trace)) := by
  obtain ⟨dt, df, trace, k, h1, -⟩ := C120_converges _ _ _ _ _ _ _ _ _ _ _ _ _ input_example
  exact ⟨dt, df, trace, h1⟩

end Fp
