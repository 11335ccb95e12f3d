import Verif.Lemmas.Decimal
import Verif.Lemmas.Detune
import Verif.Spec.FpText

/-! # Lemmas about the text of floats and integers -/
namespace Fp
open Spec

/-- A number much closer to a positive double than half a unit of its last place rounds to it. -/
theorem fl_near_pos {x r : ℚ} (hx : fl 53 x = x) (h0 : 0 < x) (h : |r - x| ≤ x / (2 * 10 ^ 16)) : fl 53 r = x := by
  set L := Int.log 2 x with hL
  have a1 : (2 : ℚ) ^ L ≤ x := by exact_mod_cast Int.zpow_log_le_self (b := 2) (by norm_num) h0
  have a2 : x < (2 : ℚ) ^ (L + 1) := by exact_mod_cast Int.lt_zpow_succ_log_self (b := 2) (by norm_num) x
  set u : ℚ := 2 ^ (L - 52) with hu
  have hupos : 0 < u := by positivity
  have eL : (2 : ℚ) ^ L = 4503599627370496 * u := by
    rw [hu, show (4503599627370496 : ℚ) = 2 ^ (52 : ℤ) by norm_num, ← zpow_add₀ (by norm_num)]; congr 1; ring
  have eL1 : (2 : ℚ) ^ (L + 1) = 9007199254740992 * u := by
    rw [hu, show (9007199254740992 : ℚ) = 2 ^ (53 : ℤ) by norm_num, ← zpow_add₀ (by norm_num)]; congr 1; ring
  have hx' := fl_eval 53 x L a1 a2
  rw [hx, show L - (((53 : ℕ) : ℤ) - 1) = L - 52 by norm_num, ← hu] at hx'
  set k := rne (x / u) with hk
  rw [eL] at a1
  rw [eL1] at a2
  have hk1 : (k : ℚ) < 9007199254740992 := by
    rw [hx'] at a2; exact lt_of_mul_lt_mul_right a2 hupos.le
  have hk2 : (4503599627370496 : ℚ) ≤ k := by
    rw [hx'] at a1; exact le_of_mul_le_mul_right a1 hupos
  have hk1' : k + 1 ≤ 9007199254740992 := by
    have : k < 9007199254740992 := by exact_mod_cast hk1
    omega
  have hk1'' : (k : ℚ) + 1 ≤ 9007199254740992 := by exact_mod_cast hk1'
  rw [abs_le] at h
  have hxu : x ≤ 9007199254740991 * u := by
    rw [hx']; exact mul_le_mul_of_nonneg_right (by linarith) hupos.le
  rcases le_or_gt (4503599627370496 * u) r with hr | hr
  · rw [fl_eval 53 r L (by rw [eL]; exact hr) (by rw [eL1]; linarith), show L - (((53 : ℕ) : ℤ) - 1) = L - 52 by norm_num, ← hu]
    have : rne (r / u) = k := by
      have b1 : (k : ℚ) - 1 / 2 < r / u := by
        rw [lt_div_iff₀ hupos]
        have : ((k : ℚ) - 1 / 2) * u = x - u / 2 := by rw [hx']; ring
        rw [this]; linarith
      have b2 : r / u < (k : ℚ) + 1 / 2 := by
        rw [div_lt_iff₀ hupos]
        have : ((k : ℚ) + 1 / 2) * u = x + u / 2 := by rw [hx']; ring
        rw [this]; linarith
      have b3 := abs_le.mp (rne_spec (r / u))
      have c1 : ((rne (r / u) : ℤ) : ℚ) < ((k + 1 : ℤ) : ℚ) := by push_cast; linarith
      have c2 : ((k - 1 : ℤ) : ℚ) < ((rne (r / u) : ℤ) : ℚ) := by push_cast; linarith
      have d1 : rne (r / u) < k + 1 := by exact_mod_cast c1
      have d2 : k - 1 < rne (r / u) := by exact_mod_cast c2
      omega
    rw [this, ← hx']
  · -- `x` is a power of two and `r` below it
    have hx2 : x = 4503599627370496 * u := by
      have : (k : ℚ) - 1 < 4503599627370496 := by
        have : ((k : ℚ) - 1) * u < 4503599627370496 * u := by
          have : ((k : ℚ) - 1) * u = x - u := by rw [hx']; ring
          rw [this]; linarith
        exact lt_of_mul_lt_mul_right this hupos.le
      have h1 : ((k - 1 : ℤ) : ℚ) < ((4503599627370496 : ℤ) : ℚ) := by push_cast; linarith
      have h2 : k - 1 < 4503599627370496 := by exact_mod_cast h1
      have h3 : (4503599627370496 : ℤ) ≤ k := by exact_mod_cast hk2
      have h4 : k = 4503599627370496 := by omega
      rw [hx', h4]; norm_num
    set v : ℚ := 2 ^ (L - 53) with hv
    have hvpos : 0 < v := by positivity
    have euv : u = 2 * v := by
      rw [hu, hv, show L - 52 = (L - 53) + 1 by ring, zpow_add₀ (by norm_num)]; ring
    have eL0 : (2 : ℚ) ^ (L - 1) = 4503599627370496 * v := by
      rw [hv, show (4503599627370496 : ℚ) = 2 ^ (52 : ℤ) by norm_num, ← zpow_add₀ (by norm_num)]; congr 1; ring
    rw [fl_eval 53 r (L - 1) (by rw [eL0]; linarith) (by rw [show L - 1 + 1 = L by ring, eL]; exact hr),
      show L - 1 - (((53 : ℕ) : ℤ) - 1) = L - 53 by push_cast; ring, ← hv]
    have : rne (r / v) = 9007199254740992 := by
      have b1 : (9007199254740992 : ℚ) - 1 / 2 < r / v := by
        rw [lt_div_iff₀ hvpos]; linarith
      have b2 : r / v < (9007199254740992 : ℚ) := by
        rw [div_lt_iff₀ hvpos]; linarith
      have b3 := abs_le.mp (rne_spec (r / v))
      have c1 : ((rne (r / v) : ℤ) : ℚ) < ((9007199254740993 : ℤ) : ℚ) := by push_cast; linarith
      have c2 : ((9007199254740991 : ℤ) : ℚ) < ((rne (r / v) : ℤ) : ℚ) := by push_cast; linarith
      have d1 : rne (r / v) < 9007199254740993 := by exact_mod_cast c1
      have d2 : 9007199254740991 < rne (r / v) := by exact_mod_cast c2
      omega
    rw [this, hx2, euv]
    push_cast
    ring

/-- Seventeen digits are enough. -/
theorem fl_sig17 {x r : ℚ} (hx : fl 53 x = x) (h0 : 0 < x) (h : SigRound 17 x r) : fl 53 r = x := by
  rcases h with ⟨h, -⟩ | ⟨k, q, a1, -, -, a4, -⟩
  · exact absurd h h0.ne'
  · refine fl_near_pos hx h0 ?_
    rw [abs_of_pos h0] at a1
    rw [abs_sub_comm]
    refine le_trans a4 ?_
    have : (10 : ℚ) ^ (q + ((17 : ℕ) : ℤ) - 1) = 10 ^ q * 10 ^ 16 := by
      rw [show q + ((17 : ℕ) : ℤ) - 1 = q + ((16 : ℕ) : ℤ) by push_cast; ring, zpow_add₀ (by norm_num), zpow_natCast]
    rw [this] at a1
    rw [le_div_iff₀ (by positivity)]
    linarith

/-- The value of the digits. -/
def sigValue (p : ℕ) (x : ℚ) : ℚ := (sigDigits p x).1 * 10 ^ ((sigDigits p x).2 - p + 1)

theorem reprPrecision_spec {x : ℚ} (hx : fl 53 x = x) (h0 : 0 < x) :
    1 ≤ reprPrecision x ∧ reprPrecision x ≤ 17 ∧ fl 53 (sigValue (reprPrecision x) x) = x ∧
    ∀ q, 1 ≤ q → q < reprPrecision x → fl 53 (sigValue q x) ≠ x := by
  have h17 : fl 53 (sigValue 17 x) = x := fl_sig17 hx h0 (sigDigits_spec 17 (by norm_num) x h0).2.2
  unfold reprPrecision
  cases hf : (List.range 17).find? fun i : Nat =>
    decide (fl 53 ((sigDigits (i + 1) x).1 * 10 ^ ((sigDigits (i + 1) x).2 - ((i + 1 : Nat) : Int) + 1)) = x) with
  | none =>
    rw [List.find?_range_eq_none] at hf
    have := hf 16 (by norm_num)
    simp only [Bool.not_eq_true', decide_eq_false_iff_not] at this
    exact absurd h17 this
  | some i =>
    rw [List.find?_range_eq_some] at hf
    obtain ⟨h1, h2, h3⟩ := hf
    simp only [Option.getD_some]
    rw [List.mem_range] at h2
    refine ⟨by omega, by omega, of_decide_eq_true h1, ?_⟩
    intro q hq1 hq2
    have := h3 (q - 1) (by omega)
    rw [show q - 1 + 1 = q by omega, Bool.not_eq_true', decide_eq_false_iff_not] at this
    exact this

theorem addPoint_spec {t I F X : List Char} {n : ℕ} {ex : ℤ} (ht : t = I ++ (if F = [] then [] else '.' :: F) ++ X) (hI : I ≠ [])
    (hD : Digits (I ++ F) n) (hX : Exponent X ex) :
    ∃ (I F' X : List Char) (n' : ℕ) (ex' : ℤ), addPoint t = I ++ (if F' = [] then [] else '.' :: F') ++ X ∧ I ≠ [] ∧ Digits (I ++ F') n' ∧
      Exponent X ex' ∧ (n : ℚ) * 10 ^ (ex - F.length) = n' * 10 ^ (ex' - F'.length) ∧ ('.' ∈ addPoint t ∨ 'e' ∈ addPoint t) := by
  unfold addPoint
  by_cases h : '.' ∈ t ∨ 'e' ∈ t
  · rw [if_pos h]
    exact ⟨I, F, X, n, ex, ht, hI, hD, hX, rfl, h⟩
  · rw [if_neg h]
    have hF : F = [] := by
      by_contra hF
      rw [if_neg hF] at ht
      exact h (.inl (by rw [ht]; simp))
    subst hF
    have hX0 : X = [] ∧ ex = 0 := by
      rcases hX with hX | ⟨E, k, -, -, h3⟩
      · exact hX
      · exfalso
        apply h; right
        rw [ht]
        rcases h3 with ⟨rfl, -⟩ | ⟨rfl, -⟩ <;> simp
    obtain ⟨rfl, rfl⟩ := hX0
    refine ⟨I, ['0'], [], n * 10, 0, by rw [ht]; simp, hI, ?_, .inl ⟨rfl, rfl⟩, ?_, .inl (by simp)⟩
    · have := digits_append hD (digits_zeros 1)
      simpa using this
    · push_cast
      simp
      
/-- The sign of a rounded value. -/
theorem sigRound_neg {p : ℕ} {x r : ℚ} (h : SigRound p x r) : SigRound p (-x) (-r) := by
  rcases h with ⟨rfl, rfl⟩ | ⟨k, q, a1, a2, a3, a4, a5⟩
  · exact .inl ⟨by simp, by simp⟩
  · refine .inr ⟨-k, q, by rwa [abs_neg], by rwa [abs_neg], by rw [a3]; push_cast; ring, ?_, ?_⟩
    · rwa [show -x - -r = -(x - r) by ring, abs_neg]
    · rw [show -x - -r = -(x - r) by ring, abs_neg]
      intro h; exact (a5 h).neg

theorem reprFloat_spec {x : ℚ} (hx : fl 53 x = x) : DoubleText (reprFloat x) x := by
  unfold reprFloat
  by_cases h0 : x = 0
  · rw [if_pos h0]
    subst h0
    refine ⟨0, ⟨[], ['0'], ['0'], [], 0, 0, rfl, by simp, digits_zeros 2, .inl ⟨rfl, rfl⟩, .inl ⟨rfl, by simp⟩⟩, fl_zero 53, .inl (by simp), 1, by norm_num,
      le_rfl, .inl ⟨rfl, rfl⟩, by intros; omega⟩
  rw [if_neg h0]
  have hpos : 0 < |x| := abs_pos.mpr h0
  have habs : fl 53 |x| = |x| := by
    rcases abs_choice x with h | h <;> rw [h]
    · exact hx
    · rw [fl_neg, hx]
  obtain ⟨h1, h2, h3, h4⟩ := reprPrecision_spec habs hpos
  simp only []
  generalize reprPrecision |x| = p at h1 h2 h3 h4
  obtain ⟨d1, d2, d3⟩ := sigDigits_spec p h1 |x| hpos
  have hm : (sigDigits p |x|).1 * 10 ^ (17 - p) < 10 ^ 17 := by
    calc _ < 10 ^ p * 10 ^ (17 - p) := Nat.mul_lt_mul_of_pos_right d2 (by positivity)
      _ = 10 ^ 17 := by rw [← pow_add]; congr 1; omega
  obtain ⟨I, F, X, n, ex, e1, e2, e3, e4, e5⟩ := layoutG_spec 16 17 _ (sigDigits p |x|).2 (by norm_num) (by norm_num) hm
  obtain ⟨I', F', X', n', ex', g1, g2, g3, g4, g5, g6⟩ := addPoint_spec e1 e2 e3 e4
  have hv : sigValue p |x| = n' * 10 ^ (ex' - F'.length) := by
    rw [← g5, ← e5]
    unfold sigValue
    push_cast
    rw [mul_assoc, ← zpow_natCast, ← zpow_add₀ (by norm_num)]
    congr 2
    omega
  have hq : ∀ q, 1 ≤ q → q < p → ∀ s, SigRound q |x| s → fl 53 s ≠ |x| := by
    intro q hq1 hq2 s hs
    rw [sigRound_unique hs (sigDigits_spec q hq1 |x| hpos).2.2]
    exact h4 q hq1 hq2
  have hr : SigRound p |x| (n' * 10 ^ (ex' - F'.length)) := by rw [← hv]; exact d3
  rw [hv] at h3
  rw [g1] at g6 ⊢
  by_cases hneg : x < 0
  · rw [if_pos hneg]
    rw [abs_of_neg hneg] at hr hq h3
    refine ⟨-(n' * 10 ^ (ex' - F'.length)), ⟨['-'], I', F', X', n', ex', rfl, g2, g3, g4, .inr ⟨rfl, rfl⟩⟩, ?_, ?_, p, h2, h1, ?_, ?_⟩
    · rw [fl_neg, h3, neg_neg]
    · rcases g6 with g | g
      · exact .inl (List.mem_append_right _ g)
      · exact .inr (List.mem_append_right _ g)
    · have := sigRound_neg hr
      rwa [neg_neg] at this
    · intro q hq1 hq2 s hs h
      apply hq q hq1 hq2 (-s) (sigRound_neg hs)
      rw [fl_neg, h]
  · rw [if_neg hneg]
    rw [abs_of_nonneg (not_lt.mp hneg)] at hr hq h3
    exact ⟨_, ⟨[], I', F', X', n', ex', rfl, g2, g3, g4, .inl ⟨rfl, rfl⟩⟩, h3, g6, p, h2, h1, hr, hq⟩

theorem intText_spec (n : ℤ) : IntText (intText n) n := by
  unfold intText
  refine ⟨natDigits n.natAbs, n.natAbs, natDigits_ne _, natDigits_spec _, ?_⟩
  by_cases h : n < 0
  · rw [if_pos h]; exact .inr ⟨rfl, by omega⟩
  · rw [if_neg h]; exact .inl ⟨rfl, by omega⟩

theorem intText_denotes {t : List Char} {n : ℤ} (h : IntText t n) : Denotes t n := by
  obtain ⟨ds, k, h1, h2, h3⟩ := h
  rcases h3 with ⟨rfl, rfl⟩ | ⟨rfl, rfl⟩
  · exact ⟨[], t, [], [], k, 0, by simp, h1, by simpa using h2, .inl ⟨rfl, rfl⟩, .inl ⟨rfl, by simp⟩⟩
  · exact ⟨['-'], ds, [], [], k, 0, by simp, h1, by simpa using h2, .inl ⟨rfl, rfl⟩, .inr ⟨rfl, by simp⟩⟩

/-- Characters of numerals. -/
theorem denotes_chars {t : List Char} {x : ℚ} (h : Denotes t x) :
    t ≠ [] ∧ ∀ c ∈ t, c.isDigit = true ∨ c = '.' ∨ c = 'e' ∨ c = '-' ∨ c = '+' := by
  obtain ⟨s, I, F, X, n, ex, rfl, hI, hD, hX, hs⟩ := h
  have hd := digits_all hD
  refine ⟨by simp [hI], ?_⟩
  intro c hc
  simp only [List.mem_append] at hc hd
  rcases hc with hc | (hc | hc) | hc
  · rcases hs with ⟨rfl, -⟩ | ⟨rfl, -⟩
    · simp at hc
    · simp at hc; simp [hc]
  · exact .inl (hd c (.inl hc))
  · by_cases hF : F = []
    · rw [if_pos hF] at hc; simp at hc
    · rw [if_neg hF, List.mem_cons] at hc
      rcases hc with rfl | hc
      · simp
      · exact .inl (hd c (.inr hc))
  · rcases hX with ⟨rfl, -⟩ | ⟨E, k, -, hE, ⟨rfl, -⟩ | ⟨rfl, -⟩⟩
    · simp at hc
    all_goals
      simp only [List.mem_cons] at hc
      rcases hc with rfl | rfl | hc
      · simp
      · simp
      · exact .inl (digits_all hE c hc)

theorem freqText_denotes {t : List Char} {d : ℚ ⊕ ℤ} (h : FreqText t d) :
    ∃ r, Denotes t r ∧ (∀ x, d = .inl x → fl 53 r = x ∧ ('.' ∈ t ∨ 'e' ∈ t)) ∧ ∀ n : ℤ, d = .inr n → r = n ∧ '.' ∉ t ∧ 'e' ∉ t := by
  cases d with
  | inl x =>
    obtain ⟨r, h1, h2, h3, -⟩ := h
    refine ⟨r, h1, ?_, by simp⟩
    intro y hy
    rw [← Sum.inl.inj hy]
    exact ⟨h2, h3⟩
  | inr n =>
    refine ⟨n, intText_denotes h, by simp, ?_⟩
    intro m hm
    rw [← Sum.inr.inj hm]
    refine ⟨rfl, ?_⟩
    obtain ⟨ds, k, -, h2, h3⟩ := h
    have hd := digits_all h2
    have a1 : '.' ∉ ds := fun hc => (not_digit (hd _ hc)).2.2.1 rfl
    have a2 : 'e' ∉ ds := fun hc => (not_digit (hd _ hc)).1 rfl
    rcases h3 with ⟨rfl, -⟩ | ⟨rfl, -⟩
    · exact ⟨a1, a2⟩
    · simp [a1, a2]

theorem numchar_not_space {c : Char} (h : c.isDigit = true ∨ c = '.' ∨ c = 'e' ∨ c = '-' ∨ c = '+') :
    isPySpace c = false ∧ c ≠ '\t' ∧ c ≠ '\n' := by
  have key : isPySpace c = false := by
    rcases h with h | rfl | rfl | rfl | rfl
    · unfold isPySpace
      have h1 : 48 ≤ c.toNat := by
        have := of_decide_eq_true (Bool.and_eq_true_iff.mp h).1
        exact this
      have : c ≠ ' ' := by rintro rfl; simp at h1
      simp only [decide_eq_false_iff_not, not_or]
      exact ⟨this, by omega, by omega⟩
    all_goals decide
  refine ⟨key, ?_, ?_⟩
  · rintro rfl; simp [isPySpace] at key
  · rintro rfl; simp [isPySpace] at key

theorem rstrip_tab (a : List Char) {f : List Char} (h0 : f ≠ []) (h : ∀ c ∈ f, isPySpace c = false) :
    rstrip (a ++ f ++ ['\t']) = a ++ f := by
  unfold rstrip
  rw [List.reverse_append]
  have : (['\t'] : List Char).reverse ++ (a ++ f).reverse = '\t' :: (a ++ f).reverse := rfl
  rw [this, List.dropWhile_cons_of_pos (by decide)]
  cases hf : f.reverse with
  | nil => simp at hf; exact absurd hf h0
  | cons c r =>
    have hc : c ∈ f := by
      have : c ∈ f.reverse := by rw [hf]; simp
      simpa using this
    have he : (a ++ f).reverse = c :: (r ++ a.reverse) := by rw [List.reverse_append, hf]; rfl
    rw [he, List.dropWhile_cons_of_neg (by rw [h c hc]; simp), ← he, List.reverse_reverse]

end Fp
