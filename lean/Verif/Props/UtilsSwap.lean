import Verif.Props.UtilsFft
import Verif.Props.FpAccuracy

/-!
# C96: exchanging reference and target
-/
namespace Fp
open Spec

theorem sum_countP_comm {α β : Type} (a : List α) (b : List β) (p : α → β → Bool) :
    (a.map fun x => b.countP (p x)).sum = (b.map fun y => a.countP fun x => p x y).sum := by
  have h1 : ∀ x : α, b.countP (p x) = (b.map fun y => if p x y then 1 else 0).sum := by
    intro x
    induction b with
    | nil => rfl
    | cons y b ih => rw [List.countP_cons, ih, List.map_cons, List.sum_cons, Nat.add_comm]
  induction a with
  | nil => simp
  | cons x a ih =>
    rw [List.map_cons, List.sum_cons, ih, h1 x, ← List.sum_map_add]
    congr 2
    funext y
    rw [List.countP_cons, Nat.add_comm]

theorem pairsAt_swap (a b : List ℚ) (n : Nat) (res : ℚ) (k : ℤ) : pairsAt b a n res k = pairsAt a b n res (-k) := by
  unfold pairsAt
  rw [sum_countP_comm]
  congr 2
  funext x
  congr 1
  funext y
  rw [decide_eq_decide]
  constructor
  · intro h
    have := h.neg
    rwa [neg_sub] at this
  · intro h
    have := h.neg
    rwa [neg_sub, neg_neg] at this

theorem peak_swap {a b : List ℚ} {n : Nat} {res : ℚ} {k : ℤ} (h : Peak a b n res k) : Peak b a n res (-k) := by
  intro j hj
  rw [pairsAt_swap a b n res j, pairsAt_swap a b n res (-k), neg_neg]
  apply h
  intro hc
  exact hj (by simpa using hc.neg)

/-- Position of the maximum of a correlation with a peak. -/
theorem argmax_peak (ys : List ℝ) (a b : List ℚ) (h : Nat) (hh : 0 < h) (res : ℚ) (hl : ys.length = 2 * h)
    (hy : ∀ k < 2 * h, ys[k]? = some ((pairsAt a b (2 * h) res k : Nat) : ℝ)) (k : ℤ) (hp : Peak a b (2 * h) res k) :
    ∃ p, argmax ys = some p ∧ p < 2 * h ∧ (p : ℤ) = k % ((2 * h : Nat) : ℤ) := by
  have hne : ys ≠ [] := by
    rintro rfl
    simp at hl; omega
  obtain ⟨p, h1, h2⟩ := argmax_spec ys hne
  have hplt : p < 2 * h := by rw [← hl]; exact firstMax_lt _ _ h2
  refine ⟨p, h1, hplt, ?_⟩
  obtain ⟨j, hj⟩ : ∃ j : Nat, (j : ℤ) = k % ((2 * h : Nat) : ℤ) := ⟨_, Int.toNat_of_nonneg (Int.emod_nonneg _ (by omega))⟩
  have hjlt : j < 2 * h := by
    have := Int.emod_lt_of_pos k (show (0 : ℤ) < ((2 * h : Nat) : ℤ) by omega)
    omega
  have hjk : (j : ℤ) ≡ k [ZMOD ((2 * h : Nat) : ℤ)] := by rw [hj]; exact Int.mod_modEq _ _
  by_contra hcon
  have hpk : ¬ (p : ℤ) ≡ k [ZMOD ((2 * h : Nat) : ℤ)] := by
    intro hc
    apply hcon
    have : (p : ℤ) % ((2 * h : Nat) : ℤ) = p := Int.emod_eq_of_lt (by omega) (by omega)
    rw [← this]; exact hc
  have hlt := hp p hpk
  have hcg : pairsAt a b (2 * h) res j = pairsAt a b (2 * h) res k := by
    unfold pairsAt
    congr 2
    funext x
    congr 1
    funext y
    rw [decide_eq_decide]
    exact ⟨fun hh => hh.trans hjk, fun hh => hh.trans hjk.symm⟩
  rw [← hcg] at hlt
  obtain ⟨x, hx1, hx2, -⟩ := h2
  rw [hy p hplt] at hx1
  have e3 := hx2 _ (List.mem_of_getElem? (hy j hjlt))
  simp only [Option.some.injEq] at hx1
  rw [← hx1, Nat.cast_le] at e3
  omega

theorem delay_candidates (ys : List ℝ) (n : Nat) (hl : ys.length = n) (res : ℚ) (p : Nat) (hp : argmax ys = some p) (hlt : p < n) :
    getTimingDelayFft ys (uniformBins n res) = .ok (candidates n p res) := by
  unfold getTimingDelayFft candidates
  rw [hp, hl]
  simp only
  rw [uniform_get _ _ _ hlt, uniform_get _ _ _ (by split_ifs <;> omega)]

/-- **C96** The correlation with reference and target exchanged is the correlation read backwards. -/
theorem C96_mirrored (a b : List ℚ) (ha : a ≠ []) (hb : b ≠ []) (h : Nat) (hh : 0 < h) (res : ℚ) :
    ∃ fa fb, generateFft a (2 * h) res = .ok fa ∧ generateFft b (2 * h) res = .ok fb ∧
      (getXcorr fb fa).length = (getXcorr fa fb).length ∧
      ∀ k < 2 * h, (getXcorr fb fa)[k]? = (getXcorr fa fb)[(2 * h - k) % (2 * h)]? := by
  obtain ⟨fa, fb, ga, gb, hl, hget⟩ := C28_correlation a b ha hb h hh res
  obtain ⟨fb', fa', gb', ga', hl', hget'⟩ := C28_correlation b a hb ha h hh res
  rw [ga] at ga'
  rw [gb] at gb'
  cases ga'
  cases gb'
  refine ⟨fa, fb, ga, gb, by rw [hl, hl'], ?_⟩
  intro k hk
  rw [hget' k hk, hget _ (Nat.mod_lt _ (by omega)), pairsAt_swap]
  congr 2
  unfold pairsAt
  congr 2
  funext x
  congr 1
  funext y
  rw [decide_eq_decide]
  have e : (-(k : ℤ)) ≡ (((2 * h - k) % (2 * h) : Nat) : ℤ) [ZMOD ((2 * h : Nat) : ℤ)] := by
    rw [Int.natCast_mod, Nat.cast_sub hk.le]
    refine Int.ModEq.trans ?_ (Int.mod_modEq _ _).symm
    rw [Int.modEq_iff_dvd]
    exact ⟨1, by ring⟩
  exact ⟨fun hh => hh.trans e, fun hh => hh.trans e.symm⟩

/-- **C96** If more pairs of events are `k` bins apart than any other number of bins, and `k` is less than half of the bins,
exchanging reference and target changes the sign of both delays that are found. -/
theorem C96_exchange_partial (a b : List ℚ) (ha : a ≠ []) (hb : b ≠ []) (h : Nat) (res : ℚ) (k : ℤ) (hk : |k| < h)
    (hp : Peak a b (2 * h) res k) :
    ∃ fa fb d1 d2, generateFft a (2 * h) res = .ok fa ∧ generateFft b (2 * h) res = .ok fb ∧
      getTimingDelayFft (getXcorr fa fb) (uniformBins (2 * h) res) = .ok (d1, d2) ∧
      getTimingDelayFft (getXcorr fb fa) (uniformBins (2 * h) res) = .ok (-d1, -d2) ∧ d1 = k * res := by
  have hh : 0 < h := by
    have := abs_nonneg k
    omega
  obtain ⟨fa, fb, ga, gb, hl, hget⟩ := C28_correlation a b ha hb h hh res
  obtain ⟨fb', fa', gb', ga', hl', hget'⟩ := C28_correlation b a hb ha h hh res
  rw [ga] at ga'
  rw [gb] at gb'
  cases ga'
  cases gb'
  obtain ⟨p, h1, h2, h3⟩ := argmax_peak _ a b h hh res hl hget k hp
  obtain ⟨q, g1, g2, g3⟩ := argmax_peak _ b a h hh res hl' hget' (-k) (peak_swap hp)
  have e1 := delay_candidates _ (2 * h) hl res p h1 h2
  have e2 := delay_candidates _ (2 * h) hl' res q g1 g2
  rw [abs_lt] at hk
  have hpq : (k = 0 ∧ p = 0 ∧ q = 0) ∨ (0 < k ∧ (p : ℤ) = k ∧ (q : ℤ) = 2 * h - k) ∨ (k < 0 ∧ (p : ℤ) = 2 * h + k ∧ (q : ℤ) = -k) := by
    rcases lt_trichotomy k 0 with h0 | h0 | h0
    · right; right
      refine ⟨h0, ?_, ?_⟩
      · rw [h3, ← Int.add_emod_right, Int.emod_eq_of_lt (by omega) (by omega)]
        push_cast; ring
      · rw [g3, Int.emod_eq_of_lt (by omega) (by omega)]
    · left
      subst h0
      simp at h3 g3
      exact ⟨rfl, h3, g3⟩
    · right; left
      refine ⟨h0, ?_, ?_⟩
      · rw [h3, Int.emod_eq_of_lt (by omega) (by omega)]
      · rw [g3, ← Int.add_emod_right, Int.emod_eq_of_lt (by omega) (by omega)]
        push_cast; ring
  have hc : (candidates (2 * h) p res).1 = k * res ∧ (candidates (2 * h) q res).1 = -(candidates (2 * h) p res).1 ∧
      (candidates (2 * h) q res).2 = -(candidates (2 * h) p res).2 := by
    unfold candidates
    rcases hpq with ⟨rfl, rfl, rfl⟩ | ⟨h0, hp', hq'⟩ | ⟨h0, hp', hq'⟩
    · simp
    · have n1 : p ≠ 0 := by omega
      have n2 : q ≠ 0 := by omega
      have x1 : 2 * h - p = q := by omega
      have x2 : 2 * h - q = p := by omega
      have x3 : ((p : Nat) : ℚ) = k := by exact_mod_cast hp'
      simp only [if_neg n1, if_neg n2, x1, x2]
      rw [if_pos (show p < q by omega), if_neg (show ¬ q < p by omega)]
      simp [x3]
    · have n1 : p ≠ 0 := by omega
      have n2 : q ≠ 0 := by omega
      have x1 : 2 * h - p = q := by omega
      have x2 : 2 * h - q = p := by omega
      have x3 : ((q : Nat) : ℚ) = -k := by exact_mod_cast hq'
      simp only [if_neg n1, if_neg n2, x1, x2]
      rw [if_neg (show ¬ p < q by omega), if_pos (show q < p by omega)]
      simp [x3]
  refine ⟨fa, fb, (candidates (2 * h) p res).1, (candidates (2 * h) p res).2, ga, gb, e1, ?_, hc.1⟩
  rw [e2, ← hc.2.1, ← hc.2.2]

/-- **C96** At half of the bins the sign does not change: both orders give the same negative delay. -/
theorem C96_half_violated (a b : List ℚ) (ha : a ≠ []) (hb : b ≠ []) (h : Nat) (hh : 0 < h) (res : ℚ)
    (hp : Peak a b (2 * h) res h) :
    ∃ fa fb, generateFft a (2 * h) res = .ok fa ∧ generateFft b (2 * h) res = .ok fb ∧
      getTimingDelayFft (getXcorr fa fb) (uniformBins (2 * h) res) = .ok (-(h * res), h * res) ∧
      getTimingDelayFft (getXcorr fb fa) (uniformBins (2 * h) res) = .ok (-(h * res), h * res) := by
  obtain ⟨fa, fb, ga, gb, hl, hget⟩ := C28_correlation a b ha hb h hh res
  obtain ⟨fb', fa', gb', ga', hl', hget'⟩ := C28_correlation b a hb ha h hh res
  rw [ga] at ga'
  rw [gb] at gb'
  cases ga'
  cases gb'
  obtain ⟨p, h1, h2, h3⟩ := argmax_peak _ a b h hh res hl hget h hp
  obtain ⟨q, g1, g2, g3⟩ := argmax_peak _ b a h hh res hl' hget' (-h) (peak_swap hp)
  have e1 := delay_candidates _ (2 * h) hl res p h1 h2
  have e2 := delay_candidates _ (2 * h) hl' res q g1 g2
  have hp' : p = h := by
    rw [Int.emod_eq_of_lt (by omega) (by omega)] at h3
    omega
  have hq' : q = h := by
    rw [← Int.add_emod_right, Int.emod_eq_of_lt (by omega) (by omega)] at g3
    omega
  rw [hp'] at e1
  rw [hq'] at e2
  have hc : candidates (2 * h) h res = (-(h * res), h * res) := by
    unfold candidates
    rw [if_neg (show h ≠ 0 by omega), show 2 * h - h = h by omega, if_neg (lt_irrefl _)]
  rw [hc] at e1 e2
  exact ⟨fa, fb, ga, gb, e1, e2⟩

/-- Instances of C96: a delay of one bin out of four, and of two. -/
example : ∃ fa fb d2, generateFft [0, 8, 9] (2 * 2) 1 = .ok fa ∧ generateFft [1, 9, 10] (2 * 2) 1 = .ok fb ∧
    getTimingDelayFft (getXcorr fa fb) (uniformBins (2 * 2) 1) = .ok (1, d2) ∧
    getTimingDelayFft (getXcorr fb fa) (uniformBins (2 * 2) 1) = .ok (-1, -d2) := by
  obtain ⟨fa, fb, d1, d2, h1, h2, h3, h4, h5⟩ := C96_exchange_partial [0, 8, 9] [1, 9, 10] (by simp) (by simp) 2 1 1 (by norm_num)
    (peak_of_range _ _ 4 (by norm_num) 1 1 (by decide +kernel) (by norm_num))
  norm_num at h5
  subst h5
  exact ⟨fa, fb, d2, h1, h2, h3, h4⟩

example : ∃ fa fb, generateFft [0, 8] (2 * 2) 1 = .ok fa ∧ generateFft [2, 10] (2 * 2) 1 = .ok fb ∧
    getTimingDelayFft (getXcorr fa fb) (uniformBins (2 * 2) 1) = .ok (-2, 2) ∧
    getTimingDelayFft (getXcorr fb fa) (uniformBins (2 * 2) 1) = .ok (-2, 2) := by
  obtain ⟨fa, fb, h1, h2, h3, h4⟩ := C96_half_violated [0, 8] [2, 10] (by simp) (by simp) 2 (by norm_num) 1
    (peak_of_range _ _ 4 (by norm_num) 1 2 (by decide +kernel) (by norm_num))
  norm_num at h3 h4
  exact ⟨fa, fb, h1, h2, h3, h4⟩

/-- **C96** Neither does it change if two delays are equally frequent: the first maximum counts in both orders. -/
theorem C96_tie_violated : ∃ fa fb, generateFft [0] (2 * 2) 1 = .ok fa ∧ generateFft [1, 3] (2 * 2) 1 = .ok fb ∧
    getTimingDelayFft (getXcorr fa fb) (uniformBins (2 * 2) 1) = .ok (1, -3) ∧
    getTimingDelayFft (getXcorr fb fa) (uniformBins (2 * 2) 1) = .ok (1, -3) := by
  have key : ∀ (ys : List ℝ) (f : Nat → Nat), ys.length = 2 * 2 → (∀ k < 2 * 2, ys[k]? = some ((f k : Nat) : ℝ)) →
      f 0 = 0 → f 1 = 1 → f 2 = 0 → f 3 = 1 → getTimingDelayFft ys (uniformBins (2 * 2) 1) = .ok (1, -3) := by
    intro ys f hl hget h0 h1 h2 h3
    obtain ⟨p, g1, x, g2, g3, g4⟩ := argmax_spec ys (by rintro rfl; simp at hl)
    have hplt : p < 2 * 2 := by rw [← hl]; exact firstMax_lt _ _ ⟨x, g2, g3, g4⟩
    have hp : p = 1 := by
      have y1 := hget 1 (by norm_num)
      have m1 := g3 _ (List.mem_of_getElem? y1)
      rw [hget p hplt] at g2
      simp only [Option.some.injEq] at g2
      have hlow : 1 < p → False := by
        intro hp
        have := g4 1 hp _ y1
        have m3 : x ≤ 1 := by
          rw [← g2]
          have : p = 2 ∨ p = 3 := by omega
          rcases this with rfl | rfl
          · rw [h2]; norm_num
          · rw [h3]; norm_num
        rw [h1] at this
        norm_num at this
        linarith
      have hz : p ≠ 0 := by
        rintro rfl
        rw [← g2, h0, h1] at m1
        norm_num at m1
      by_contra hc
      exact hlow (by omega)
    subst hp
    rw [delay_candidates ys (2 * 2) hl 1 1 g1 (by norm_num)]
    unfold candidates
    norm_num
  obtain ⟨fa, fb, ga, gb, hl, hget⟩ := C28_correlation [0] [1, 3] (by simp) (by simp) 2 (by norm_num) 1
  obtain ⟨fb', fa', gb', ga', hl', hget'⟩ := C28_correlation [1, 3] [0] (by simp) (by simp) 2 (by norm_num) 1
  rw [ga] at ga'
  rw [gb] at gb'
  cases ga'
  cases gb'
  exact ⟨fa, fb, ga, gb, key _ (fun k => pairsAt [0] [1, 3] (2 * 2) 1 k) hl hget (by decide +kernel) (by decide +kernel)
      (by decide +kernel) (by decide +kernel),
    key _ (fun k => pairsAt [1, 3] [0] (2 * 2) 1 k) hl' hget' (by decide +kernel) (by decide +kernel) (by decide +kernel)
      (by decide +kernel)⟩

/-- **C96** for the whole of `time_freq`: a target that is the reference delayed by `k` bins gives this delay, the reference
with respect to that target gives its negative, and neither gives a frequency offset. -/
theorem C96_time_freq (P : TFParams) (hr : P.rnd = id) (hra : P.rndA = id) (hx : P.xcorr = exactXcorr) (h : Nat) (hh : 0 < h)
    (hN : P.numBins = 2 * h) (ht : 0 < P.target) (res : ℚ) (hres : P.target ≤ res) (k : ℤ) (hk : |k| < h)
    (hdel : |k * res| ≤ 10 ^ 8) (hdur : 0 < P.duration) (hs : resRefineFactor * (1 + 1 / 2 ^ 50) * P.duration ≤ P.sep)
    (hwin : ∀ r start, P.target ≤ r → r ≤ res → start = 0 ∨ start = P.sep →
      inWindow start (acqDuration (2 * h) r P.duration P.endTime) P.ats ≠ [] ∧
      inWindow start (acqDuration (2 * h) r P.duration P.endTime) (P.ats.map (· + k * res)) ≠ [])
    (hpeak : ∀ start, start = 0 ∨ start = P.sep → Peak (inWindow start (acqDuration (2 * h) res P.duration P.endTime) P.ats)
      (inWindow start (acqDuration (2 * h) res P.duration P.endTime) (P.ats.map (· + k * res))) (2 * h) res k)
    (hsigt : ∀ ys r, ys.length = 2 * h → 0 < r → ∃ sig, P.signif ys r = .ok sig)
    (hsig : ∀ ys sig, P.signif ys res = .ok sig → sig ≠ 0 ∧ P.threshold ≤ sig) :
    ∃ dt trace trace',
      Returns (fun fuel => timeFreq P fuel (P.ats.map (· + k * res)) res) (.ok (dt, 0, trace)) ∧
      Returns (fun fuel => timeFreq { P with ats := P.ats.map (· + k * res) } fuel P.ats res) (.ok (-dt, 0, trace')) ∧
      dt = k * res := by
  obtain ⟨t1, h1⟩ := C64_returns P hr hra hx h hh hN ht res hres k hk hdel hdur hs
    (fun r start a b c => (hwin r start a b c).1) (fun start c => (hwin res start hres le_rfl c).2) (hpeak 0 (.inl rfl))
    (hpeak P.sep (.inr rfl)) hsigt hsig
  have e : (P.ats.map (· + k * res)).map (· + ((-k : ℤ) : ℚ) * res) = P.ats := by
    rw [List.map_map]
    conv_rhs => rw [← List.map_id P.ats]
    apply List.map_congr_left
    intro t _
    simp only [Function.comp, id]
    push_cast
    ring
  obtain ⟨t2, h2⟩ := C64_returns { P with ats := P.ats.map (· + k * res) } hr hra hx h hh hN ht res hres (-k) (by rwa [abs_neg])
    (by push_cast; rwa [neg_mul, abs_neg]) hdur hs (fun r start a b c => (hwin r start a b c).2)
    (fun start c => by rw [e]; exact (hwin res start hres le_rfl c).1)
    (by rw [e]; exact peak_swap (hpeak 0 (.inl rfl))) (by rw [e]; exact peak_swap (hpeak P.sep (.inr rfl))) hsigt hsig
  simp only [e] at h2
  refine ⟨k * res, t1, t2, h1, ?_, rfl⟩
  have e2 : ((-k : ℤ) : ℚ) * res = -(k * res) := by push_cast; ring
  rw [e2] at h2
  exact h2

theorem delayParams_window' (r start : ℚ) (h1 : 1 / 2 ≤ r) (hr1 : r ≤ 1) (hs : start = 0 ∨ start = 10) :
    inWindow start (acqDuration 4 r 4 14) [1, 2, 2, 11, 12, 12, 15] ≠ [] := by
  have hr : 0 < r := by linarith
  have hd : 2 ≤ acqDuration 4 r 4 14 := by
    unfold acqDuration
    have e1 : (1 : ℤ) ≤ rne (4 / (r * ((4 : Nat) : ℚ))) := by
      apply le_rne_int
      rw [le_div_iff₀ (by positivity)]
      push_cast
      linarith
    have e2 : (1 : ℤ) ≤ ⌊(14 : ℚ) / (r * ((4 : Nat) : ℚ))⌋ := by
      rw [Int.le_floor, le_div_iff₀ (by positivity)]
      push_cast
      linarith
    have e3 : (1 : ℚ) ≤ min (rne (4 / (r * ((4 : Nat) : ℚ))) : ℚ) ⌊(14 : ℚ) / (r * ((4 : Nat) : ℚ))⌋ :=
      le_min (by exact_mod_cast e1) (by exact_mod_cast e2)
    push_cast at e3 ⊢
    nlinarith
  unfold inWindow
  intro hc
  rw [List.map_eq_nil_iff, List.filter_eq_nil_iff] at hc
  rcases hs with rfl | rfl
  · have := hc 1 (by simp)
    simp only [decide_eq_true_eq] at this
    apply this
    constructor <;> linarith
  · have := hc 11 (by simp)
    simp only [decide_eq_true_eq] at this
    apply this
    constructor <;> linarith

/-- Instance of C96 with all the hypotheses for `time_freq`: a delay of one bin in both directions. -/
example : ∃ dt trace trace',
    Returns (fun fuel => timeFreq delayParams fuel (delayParams.ats.map (· + ((1 : ℤ) : ℚ) * 1)) 1) (.ok (dt, 0, trace)) ∧
    Returns (fun fuel => timeFreq { delayParams with ats := delayParams.ats.map (· + ((1 : ℤ) : ℚ) * 1) } fuel delayParams.ats 1)
      (.ok (-dt, 0, trace')) ∧ dt = ((1 : ℤ) : ℚ) * 1 := by
  have hd : acqDuration (2 * 2) 1 delayParams.duration delayParams.endTime = 4 := delayParams_dur
  apply C96_time_freq delayParams rfl rfl rfl 2 (by norm_num) rfl (by norm_num [delayParams]) 1 (by norm_num [delayParams]) 1
    (by norm_num) (by norm_num) (by norm_num [delayParams]) (by norm_num [delayParams, resRefineFactor])
  · intro r start h1 h2 hs
    refine ⟨delayParams_window r start h1 h2 hs, ?_⟩
    have e : delayParams.ats.map (· + ((1 : ℤ) : ℚ) * 1) = [1, 2, 2, 11, 12, 12, 15] := by
      simp only [delayParams]; norm_num
    rw [e]
    exact delayParams_window' r start h1 h2 hs
  · intro start hs
    rw [hd]
    rcases hs with rfl | rfl
    · simp only [delayParams]
      exact peak_of_range _ _ 4 (by norm_num) 1 1 (by decide +kernel) (by norm_num)
    · simp only [delayParams]
      exact peak_of_range _ _ 4 (by norm_num) 1 1 (by decide +kernel) (by norm_num)
  · intro ys r _ _
    exact ⟨10, rfl⟩
  · intro ys sig h
    simp only [delayParams, Except.ok.injEq] at h
    subst h
    norm_num [delayParams]

end Fp
