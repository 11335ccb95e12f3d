import Verif.Model.UtilsText
import Verif.Spec.Decimal
import Verif.Lemmas.Float
import Verif.Lemmas.Detune
import Mathlib.Data.List.Forall2
import Mathlib.Tactic.IntervalCases

/-! Helper lemmas for `Verif/Props/Decimal.lean`. -/
namespace Fp
open Spec

theorem digits_nil : Digits [] 0 := ⟨[], .nil, by simp⟩

theorem digits_append {a b : List Char} {n m : ℕ} (ha : Digits a n) (hb : Digits b m) :
    Digits (a ++ b) (n * 10 ^ b.length + m) := by
  obtain ⟨da, ha, rfl⟩ := ha
  obtain ⟨db, hb, rfl⟩ := hb
  refine ⟨da ++ db, List.rel_append ha hb, ?_⟩
  rw [List.reverse_append, Nat.ofDigits_append, List.length_reverse, hb.length_eq]
  ring

theorem digits_append_inv {a b : List Char} {n : ℕ} (h : Digits (a ++ b) n) :
    ∃ i j, Digits a i ∧ Digits b j ∧ n = i * 10 ^ b.length + j := by
  obtain ⟨ds, h, rfl⟩ := h
  have h1 := (List.forall₂_take_append _ _ _ h.flip).flip
  have h2 := (List.forall₂_drop_append _ _ _ h.flip).flip
  refine ⟨_, _, ⟨_, h1, rfl⟩, ⟨_, h2, rfl⟩, ?_⟩
  conv_lhs => rw [← List.take_append_drop a.length ds]
  rw [List.reverse_append, Nat.ofDigits_append, List.length_reverse, h2.length_eq]
  ring

theorem digits_single (d : ℕ) (h : d < 10) : Digits [decChar d] d := by
  refine ⟨[d], .cons ?_ .nil, by simp⟩
  interval_cases d <;> rfl

theorem digits_zeros (j : ℕ) : Digits (List.replicate j '0') 0 := by
  induction j with
  | zero => exact digits_nil
  | succ j ih =>
    have := digits_append (digits_single 0 (by norm_num)) ih
    simpa [List.replicate_succ, decChar] using this

theorem digits_zeros_inv {j n : ℕ} (h : Digits (List.replicate j '0') n) : n = 0 := by
  obtain ⟨ds, h, rfl⟩ := h
  have : ds = List.replicate j 0 := by
    induction j generalizing ds with
    | zero => simpa using h
    | succ j ih =>
      rw [List.replicate_succ] at h
      cases h with
      | cons h1 h2 =>
        rename_i d l
        rw [ih _ h2, List.replicate_succ]
        have : d < 10 := by
          by_contra hd
          rw [List.getElem?_eq_none (by simpa using hd)] at h1
          simp at h1
        congr 1
        interval_cases d <;> simp_all
  subst this
  rw [List.reverse_replicate]
  clear h
  induction j with
  | zero => rfl
  | succ j ih => rw [List.replicate_succ, Nat.ofDigits_cons, ih]

theorem digits_strip {a : List Char} {j m : ℕ} (h : Digits (a ++ List.replicate j '0') m) :
    ∃ n, Digits a n ∧ m = n * 10 ^ j := by
  obtain ⟨i, k, h1, h2, rfl⟩ := digits_append_inv h
  refine ⟨i, h1, ?_⟩
  rw [digits_zeros_inv h2]
  simp

theorem strip_spec (l : List Char) : ∃ j, l = stripZeros l ++ List.replicate j '0' := by
  unfold stripZeros
  have h : l.reverse = l.reverse.takeWhile (· == '0') ++ l.reverse.dropWhile (· == '0') := by simp
  have h2 : ∀ m : List Char, m.takeWhile (· == '0') = List.replicate (m.takeWhile (· == '0')).length '0' := by
    intro m
    rw [List.eq_replicate_iff]
    refine ⟨rfl, fun b hb => ?_⟩
    have := List.all_takeWhile (l := m) (p := (· == '0'))
    rw [List.all_eq_true] at this
    simpa using this b hb
  refine ⟨(l.reverse.takeWhile (· == '0')).length, ?_⟩
  have h3 := congrArg List.reverse h
  rw [List.reverse_reverse, List.reverse_append] at h3
  conv_lhs => rw [h3]
  congr 1
  rw [h2 l.reverse]
  simp

theorem fixDigits_length (k n : ℕ) : (fixDigits k n).length = k := by
  induction k generalizing n with
  | zero => rfl
  | succ k ih => simp [fixDigits, ih]

theorem fixDigits_spec (k n : ℕ) : Digits (fixDigits k n) (n % 10 ^ k) := by
  induction k generalizing n with
  | zero => simpa [fixDigits, Nat.mod_one] using digits_nil
  | succ k ih =>
    have := digits_append (ih (n / 10)) (digits_single (n % 10) (Nat.mod_lt _ (by norm_num)))
    rw [fixDigits]
    convert this using 1
    simp only [List.length_singleton, pow_one, pow_succ]
    rw [mul_comm (10 ^ k) 10, Nat.mod_mul]
    ring

theorem natDigits_spec (n : ℕ) : Digits (natDigits n) n := by
  have := fixDigits_spec (Nat.log 10 n + 1) n
  rwa [Nat.mod_eq_of_lt (Nat.lt_pow_succ_log_self (by norm_num) n)] at this

theorem natDigits_ne (n : ℕ) : natDigits n ≠ [] := by
  intro h
  have := congrArg List.length h
  rw [natDigits, fixDigits_length] at this
  simp at this

/-- Digits `a ++ l` with the fraction `l`, trailing zeros removed. -/
theorem point_spec {a l : List Char} {m : ℕ} (h : Digits (a ++ l) m) :
    ∃ n j, Digits (a ++ stripZeros l) n ∧ m = n * 10 ^ j ∧ l.length = (stripZeros l).length + j := by
  obtain ⟨j, hj⟩ := strip_spec l
  have h' := h
  rw [hj, ← List.append_assoc] at h'
  obtain ⟨n, h1, h2⟩ := digits_strip h'
  refine ⟨n, j, h1, h2, ?_⟩
  conv_lhs => rw [hj]
  simp

theorem layoutG_spec (thr p m : ℕ) (e : ℤ) (hthr : thr ≤ p) (hp : 1 ≤ p) (hm : m < 10 ^ p) :
    ∃ (I F X : List Char) (n : ℕ) (ex : ℤ),
      layoutG thr (fixDigits p m) e = I ++ (if F = [] then [] else '.' :: F) ++ X ∧ I ≠ [] ∧ Digits (I ++ F) n ∧
      Exponent X ex ∧ (m : ℚ) * 10 ^ (e - p + 1) = n * 10 ^ (ex - F.length) := by
  have hD := fixDigits_spec p m
  rw [Nat.mod_eq_of_lt hm] at hD
  have hl := fixDigits_length p m
  generalize fixDigits p m = ds at hD hl
  have hsplit : ∀ i, Digits (ds.take i ++ ds.drop i) m := by intro i; rwa [List.take_append_drop]
  unfold layoutG
  by_cases h1 : 0 ≤ e ∧ e < thr
  · rw [if_pos h1]
    obtain ⟨n, j, h3, h4, h5⟩ := point_spec (hsplit (e.toNat + 1))
    refine ⟨_, stripZeros (ds.drop (e.toNat + 1)), [], n, 0, by rw [List.append_nil]; rfl, ?_, h3, .inl ⟨rfl, rfl⟩, ?_⟩
    · intro h
      have := congrArg List.length h
      rw [List.length_take, hl, List.length_nil] at this
      omega
    · rw [h4]
      push_cast
      rw [mul_assoc, ← zpow_natCast, ← zpow_add₀ (by norm_num)]
      congr 2
      rw [List.length_drop, hl] at h5
      omega
  rw [if_neg h1]
  by_cases h2 : -4 ≤ e ∧ e < 0
  · rw [if_pos h2]
    have h0 : Digits (['0'] ++ (List.replicate (-e - 1).toNat '0' ++ ds)) m := by
      have := digits_append (digits_zeros ((-e - 1).toNat + 1)) hD
      rw [List.replicate_succ] at this
      simpa using this
    obtain ⟨n, j, h3, h4, h5⟩ := point_spec h0
    refine ⟨['0'], _, [], n, 0, by rw [List.append_nil]; rfl, by simp, h3, .inl ⟨rfl, rfl⟩, ?_⟩
    rw [h4]
    push_cast
    rw [mul_assoc, ← zpow_natCast, ← zpow_add₀ (by norm_num)]
    congr 2
    simp only [List.length_append, List.length_replicate, hl] at h5
    omega
  rw [if_neg h2]
  obtain ⟨n, j, h3, h4, h5⟩ := point_spec (hsplit 1)
  have hX : ∃ E : List Char, E ≠ [] ∧ Digits E e.natAbs ∧
      (if e.natAbs < 10 then '0' :: natDigits e.natAbs else natDigits e.natAbs) = E := by
    refine ⟨_, ?_, ?_, rfl⟩
    · split_ifs
      · simp
      · exact natDigits_ne _
    · split_ifs
      · have := digits_append (digits_zeros 1) (natDigits_spec e.natAbs)
        simpa using this
      · exact natDigits_spec _
  obtain ⟨E, hE, hE2, hE3⟩ := hX
  rw [hE3]
  refine ⟨_, _, _, n, e, rfl, ?_, h3, .inr ⟨E, e.natAbs, hE, hE2, ?_⟩, ?_⟩
  · intro h
    have := congrArg List.length h
    simp [hl] at this
    omega
  · by_cases he : e < 0
    · right; rw [if_pos he]; exact ⟨rfl, by omega⟩
    · left; rw [if_neg he]; exact ⟨rfl, by omega⟩
  · rw [h4]
    push_cast
    rw [mul_assoc, ← zpow_natCast, ← zpow_add₀ (by norm_num)]
    congr 2
    rw [List.length_drop, hl] at h5
    omega

theorem numeral_char {c : Char} {d : ℕ} (h : "0123456789".toList[d]? = some c) :
    c.isDigit = true ∧ c.toNat - 48 = d := by
  have hd : d < 10 := by
    by_contra hd
    rw [List.getElem?_eq_none (by simpa using hd)] at h
    simp at h
  interval_cases d <;> simp at h <;> subst h <;> exact ⟨rfl, rfl⟩

theorem digits_all {l : List Char} {n : ℕ} (h : Digits l n) : ∀ c ∈ l, c.isDigit = true := by
  obtain ⟨ds, h, -⟩ := h
  induction h with
  | nil => simp
  | cons h1 h2 ih =>
    intro c hc
    rcases List.mem_cons.mp hc with rfl | hc
    · exact (numeral_char h1).1
    · exact ih c hc

theorem digitsVal_spec {l : List Char} {n : ℕ} (h : Digits l n) : digitsVal l = some n := by
  unfold digitsVal
  rw [if_pos (List.all_eq_true.mpr (digits_all h))]
  obtain ⟨ds, h, rfl⟩ := h
  congr 1
  have : ∀ a, l.foldl (fun n c => 10 * n + (c.toNat - 48)) a = a * 10 ^ l.length + Nat.ofDigits 10 ds.reverse := by
    induction h with
    | nil => simp
    | cons h1 h2 ih =>
      intro a
      rw [List.foldl_cons, ih, (numeral_char h1).2, List.reverse_cons, Nat.ofDigits_append, List.length_reverse,
        List.length_cons, ← h2.length_eq]
      simp
      ring
  rw [this 0]
  simp

theorem not_digit {c : Char} (h : c.isDigit = true) : c ≠ 'e' ∧ c ≠ 'E' ∧ c ≠ '.' ∧ c ≠ '-' ∧ c ≠ '+' := by
  refine ⟨?_, ?_, ?_, ?_, ?_⟩ <;> rintro rfl <;> revert h <;> decide

theorem signOf_digit {c : Char} {r : List Char} (h : c.isDigit = true) : signOf (c :: r) = (1, c :: r) := by
  obtain ⟨-, -, -, h1, h2⟩ := not_digit h
  unfold signOf
  split
  · simp_all
  · simp_all
  · rfl

theorem span_exp (A X : List Char) (hA : ∀ c ∈ A, c ≠ 'e' ∧ c ≠ 'E') (hX : X = [] ∨ ∃ r, X = 'e' :: r) :
    (A ++ X).takeWhile (fun c => c != 'e' && c != 'E') = A ∧ (A ++ X).dropWhile (fun c => c != 'e' && c != 'E') = X := by
  have h1 : ∀ c ∈ A, (fun c : Char => c != 'e' && c != 'E') c = true := by
    intro c hc; simpa using hA c hc
  rw [List.takeWhile_append_of_pos h1, List.dropWhile_append_of_pos h1]
  rcases hX with rfl | ⟨r, rfl⟩ <;> simp

theorem decimal_core (I F X : List Char) (n : ℕ) (ex : ℤ) (hI : I ≠ []) (hD : Digits (I ++ F) n) (hX : Exponent X ex)
    (s : ℤ) (t : List Char) (hs : signOf t = (s, I ++ (if F = [] then [] else '.' :: F) ++ X)) :
    decimalOf t = some ((s : ℚ) * n * 10 ^ (ex - F.length)) := by
  have hall := digits_all hD
  have hI' : ∀ c ∈ I, c.isDigit = true := fun c hc => hall c (List.mem_append_left _ hc)
  have hF' : ∀ c ∈ F, c.isDigit = true := fun c hc => hall c (List.mem_append_right _ hc)
  have hA : ∀ c ∈ I ++ (if F = [] then [] else '.' :: F), c ≠ 'e' ∧ c ≠ 'E' := by
    intro c hc
    rcases List.mem_append.mp hc with h | h
    · exact ⟨(not_digit (hI' c h)).1, (not_digit (hI' c h)).2.1⟩
    · by_cases hF : F = []
      · simp [hF] at h
      · rw [if_neg hF] at h
        rcases List.mem_cons.mp h with rfl | h
        · decide
        · exact ⟨(not_digit (hF' c h)).1, (not_digit (hF' c h)).2.1⟩
  have hX' : X = [] ∨ ∃ r, X = 'e' :: r := by
    rcases hX with ⟨h, -⟩ | ⟨E, k, -, -, ⟨h, -⟩ | ⟨h, -⟩⟩
    · exact .inl h
    · exact .inr ⟨_, h⟩
    · exact .inr ⟨_, h⟩
  obtain ⟨e1, e2⟩ := span_exp _ X hA hX'
  have hp : ∀ c ∈ I, (fun c : Char => c != '.') c = true := by
    intro c hc; simpa using (not_digit (hI' c hc)).2.2.1
  have e3 : (I ++ (if F = [] then [] else '.' :: F)).takeWhile (· != '.') = I := by
    rw [List.takeWhile_append_of_pos hp]
    split_ifs <;> simp
  have e4 : ((I ++ (if F = [] then [] else '.' :: F)).dropWhile (· != '.')).drop 1 = F := by
    rw [List.dropWhile_append_of_pos hp]
    split_ifs with h <;> simp [h]
  unfold decimalOf
  simp only [hs, e1, e2, e3, e4, digitsVal_spec hD]
  rw [if_neg (by simp [hI])]
  rcases hX with ⟨rfl, rfl⟩ | ⟨E, k, hE, hk, ⟨rfl, rfl⟩ | ⟨rfl, rfl⟩⟩
  · simp
  · have : signOf ('+' :: E) = (1, E) := rfl
    simp [this, hE, digitsVal_spec hk]
  · have : signOf ('-' :: E) = (-1, E) := rfl
    simp [this, hE, digitsVal_spec hk]

theorem decimalOf_spec {t : List Char} {x : ℚ} (h : Denotes t x) : decimalOf t = some x := by
  obtain ⟨s, I, F, X, n, ex, rfl, hI, hD, hX, ⟨rfl, rfl⟩ | ⟨rfl, rfl⟩⟩ := h
  · rw [decimal_core I F X n ex hI hD hX 1]
    · simp
    · obtain ⟨c, r, rfl⟩ := List.exists_cons_of_ne_nil hI
      rw [List.nil_append, List.cons_append, List.cons_append]
      exact signOf_digit (digits_all hD c (by simp))
  · rw [decimal_core I F X n ex hI hD hX (-1)]
    · simp
    · rfl

theorem rne_tie (x : ℚ) (h : |(rne x : ℚ) - x| = 1 / 2) : Even (rne x) := by
  have h1 := Int.floor_le x
  have h2 := Int.lt_floor_add_one x
  unfold rne at h ⊢
  split_ifs at h ⊢ with h3 h4 h5
  · rw [abs_of_nonpos (by linarith)] at h; linarith
  · push_cast at h; rw [abs_of_nonneg (by linarith)] at h; linarith
  · exact Int.even_iff.mpr h5
  · rw [Int.even_iff]; omega

theorem log10_spec {x : ℚ} (hx : 0 < x) : (10 : ℚ) ^ Int.log 10 x ≤ x ∧ x < 10 ^ (Int.log 10 x + 1) :=
  ⟨by simpa using Int.zpow_log_le_self (b := 10) (R := ℚ) (by norm_num) hx,
   by simpa using Int.lt_zpow_succ_log_self (b := 10) (by norm_num) x⟩

theorem log10_eq {x : ℚ} {L : ℤ} (h1 : (10 : ℚ) ^ L ≤ x) (h2 : x < 10 ^ (L + 1)) : Int.log 10 x = L := by
  have hx : 0 < x := lt_of_lt_of_le (by positivity) h1
  obtain ⟨h3, h4⟩ := log10_spec hx
  have a := (zpow_lt_zpow_iff_right₀ (a := (10 : ℚ)) (by norm_num)).mp (lt_of_le_of_lt h3 h2)
  have b := (zpow_lt_zpow_iff_right₀ (a := (10 : ℚ)) (by norm_num)).mp (lt_of_le_of_lt h1 h4)
  omega

/-- The digits: a rounded `x`, normalised. -/
theorem sigDigits_spec (p : ℕ) (hp : 1 ≤ p) (x : ℚ) (hx : 0 < x) :
    10 ^ (p - 1) ≤ (sigDigits p x).1 ∧ (sigDigits p x).1 < 10 ^ p ∧
    SigRound p x ((sigDigits p x).1 * 10 ^ ((sigDigits p x).2 - p + 1)) := by
  obtain ⟨h1, h2⟩ := log10_spec hx
  unfold sigDigits
  simp only []
  set e := Int.log 10 x with he
  set q : ℤ := e - p + 1 with hq
  have hqpos : (0 : ℚ) < 10 ^ q := by positivity
  have b1 : ((10 ^ (p - 1) : ℤ) : ℚ) ≤ x / 10 ^ q := by
    rw [le_div_iff₀ hqpos]
    push_cast
    rw [← zpow_natCast, ← zpow_add₀ (by norm_num)]
    refine le_of_eq_of_le ?_ h1
    congr 1
    omega
  have b2 : x / 10 ^ q ≤ ((10 ^ p : ℤ) : ℚ) := by
    rw [div_le_iff₀ hqpos]
    push_cast
    rw [← zpow_natCast, ← zpow_add₀ (by norm_num)]
    refine le_of_le_of_eq h2.le ?_
    congr 1
    omega
  have r1 := le_rne_int b1
  have r2 := rne_le_int b2
  have r3 := rne_spec (x / 10 ^ q)
  have r4 := rne_tie (x / 10 ^ q)
  set k := rne (x / 10 ^ q) with hk
  have hkn : ((k.toNat : ℕ) : ℤ) = k := by
    apply Int.toNat_of_nonneg
    exact le_trans (by positivity) r1
  have hdiff : |x - k * 10 ^ q| = |(k : ℚ) - x / 10 ^ q| * 10 ^ q := by
    rw [abs_sub_comm (k : ℚ), ← abs_of_pos hqpos, ← abs_mul, abs_of_pos hqpos, sub_mul, div_mul_cancel₀ _ hqpos.ne']
  have hS : SigRound p x (k * 10 ^ q) := by
    refine .inr ⟨k, q, ?_, ?_, rfl, ?_, ?_⟩
    · rw [abs_of_pos hx]; refine le_of_eq_of_le ?_ h1; congr 1; omega
    · rw [abs_of_pos hx]; refine lt_of_lt_of_eq h2 ?_; congr 1; omega
    · rw [hdiff]
      calc _ ≤ 1 / 2 * (10 : ℚ) ^ q := mul_le_mul_of_nonneg_right r3 hqpos.le
        _ = _ := by ring
    · intro h
      apply r4
      rw [hdiff] at h
      have : |(k : ℚ) - x / 10 ^ q| * 10 ^ q = 1 / 2 * 10 ^ q := by rw [h]; ring
      exact mul_right_cancel₀ hqpos.ne' this
  have hcast : ((k.toNat : ℕ) : ℚ) = (k : ℚ) := by exact_mod_cast hkn
  split_ifs with hc
  · refine ⟨le_refl _, Nat.pow_lt_pow_right (by norm_num) (by omega), ?_⟩
    convert hS using 1
    rw [← hcast, hc]
    push_cast
    rw [← zpow_natCast, ← zpow_natCast, ← zpow_add₀ (by norm_num), ← zpow_add₀ (by norm_num)]
    congr 1
    omega
  · refine ⟨?_, ?_, ?_⟩
    · zify; rw [hkn]; exact r1
    · have h3 : k.toNat ≤ 10 ^ p := by zify; rw [hkn]; exact r2
      exact lt_of_le_of_ne h3 hc
    · rw [hcast]; exact hS

theorem formatG_spec (p : ℕ) (x : ℚ) : ∃ r, Denotes (formatG p x) r ∧ SigRound (max p 1) x r := by
  unfold formatG
  simp only []
  have hp : 1 ≤ max p 1 := le_max_right _ _
  generalize max p 1 = p at hp
  by_cases hx : x = 0
  · rw [if_pos hx]
    refine ⟨0, ⟨[], ['0'], [], [], 0, 0, rfl, by simp, ?_, .inl ⟨rfl, rfl⟩, .inl ⟨rfl, by simp⟩⟩, .inl ⟨hx, rfl⟩⟩
    exact digits_zeros 1
  rw [if_neg hx]
  obtain ⟨h1, h2, h3⟩ := sigDigits_spec p hp |x| (abs_pos.mpr hx)
  obtain ⟨I, F, X, n, ex, e1, e2, e3, e4, e5⟩ := layoutG_spec p p _ (sigDigits p |x|).2 le_rfl hp h2
  rw [e5] at h3
  rw [e1]
  by_cases hneg : x < 0
  · rw [if_pos hneg]
    refine ⟨_, ⟨['-'], I, F, X, n, ex, rfl, e2, e3, e4, .inr ⟨rfl, rfl⟩⟩, ?_⟩
    rcases h3 with ⟨h, -⟩ | ⟨k, q, a1, a2, a3, a4, a5⟩
    · exact absurd (abs_eq_zero.mp h) hx
    · rw [abs_abs] at a1 a2
      rw [a3] at a4 a5 ⊢
      rw [abs_of_neg hneg] at a4 a5
      refine .inr ⟨-k, q, a1, a2, by push_cast; ring, ?_, ?_⟩
      · rw [abs_sub_comm, show -(k * (10 : ℚ) ^ q) - x = -x - k * 10 ^ q by ring]; exact a4
      · rw [abs_sub_comm, show -(k * (10 : ℚ) ^ q) - x = -x - k * 10 ^ q by ring]
        intro h; exact (a5 h).neg
  · rw [if_neg hneg]
    refine ⟨_, ⟨[], I, F, X, n, ex, rfl, e2, e3, e4, .inl ⟨rfl, rfl⟩⟩, ?_⟩
    rwa [abs_of_nonneg (not_lt.mp hneg)] at h3

/-- The rounded value is unique. -/
theorem sigRound_unique {p : ℕ} {x r s : ℚ} (hr : SigRound p x r) (hs : SigRound p x s) : r = s := by
  rcases hr with ⟨h, rfl⟩ | ⟨k, q, a1, a2, rfl, a4, a5⟩
  · rcases hs with ⟨-, rfl⟩ | ⟨k, q, a1, -⟩
    · rfl
    · rw [h, abs_zero] at a1
      exact absurd a1 (not_le.mpr (by positivity))
  rcases hs with ⟨h, rfl⟩ | ⟨l, q', b1, b2, rfl, b4, b5⟩
  · rw [h, abs_zero] at a1
    exact absurd a1 (not_le.mpr (by positivity))
  have c1 := (zpow_lt_zpow_iff_right₀ (a := (10 : ℚ)) (by norm_num)).mp (lt_of_le_of_lt a1 b2)
  have c2 := (zpow_lt_zpow_iff_right₀ (a := (10 : ℚ)) (by norm_num)).mp (lt_of_le_of_lt b1 a2)
  obtain rfl : q = q' := by omega
  have hq : (0 : ℚ) < 10 ^ q := by positivity
  congr 1
  norm_cast
  have hx : ∀ k : ℤ, |x - k * 10 ^ q| ≤ 10 ^ q / 2 ↔ |x / 10 ^ q - k| ≤ 1 / 2 := by
    intro k
    have : |x - k * 10 ^ q| = |x / 10 ^ q - k| * 10 ^ q := by
      rw [← abs_of_pos hq, ← abs_mul, abs_of_pos hq, sub_mul, div_mul_cancel₀ _ hq.ne']
    rw [this, show (10 : ℚ) ^ q / 2 = 1 / 2 * 10 ^ q by ring, mul_le_mul_iff_left₀ hq]
  have hx' : ∀ k : ℤ, |x - k * 10 ^ q| = 10 ^ q / 2 ↔ |x / 10 ^ q - k| = 1 / 2 := by
    intro k
    have : |x - k * 10 ^ q| = |x / 10 ^ q - k| * 10 ^ q := by
      rw [← abs_of_pos hq, ← abs_mul, abs_of_pos hq, sub_mul, div_mul_cancel₀ _ hq.ne']
    rw [this, show (10 : ℚ) ^ q / 2 = 1 / 2 * 10 ^ q by ring, mul_left_inj' hq.ne']
  rw [hx] at a4 b4
  rw [hx'] at a5 b5
  generalize x / 10 ^ q = y at *
  by_contra hne
  rw [abs_le] at a4 b4
  rcases lt_or_gt_of_ne hne with h | h
  · have h' : (k : ℚ) + 1 ≤ l := by exact_mod_cast h
    have e1 : y - k = 1 / 2 := by linarith
    have e2 : y - l = -(1 / 2) := by linarith
    have hl : l = k + 1 := by
      have : (l : ℚ) = k + 1 := by linarith
      exact_mod_cast this
    have := a5 (by rw [e1]; norm_num)
    have := b5 (by rw [e2]; norm_num)
    rw [Int.even_iff] at *
    omega
  · have h' : (l : ℚ) + 1 ≤ k := by exact_mod_cast h
    have e1 : y - l = 1 / 2 := by linarith
    have e2 : y - k = -(1 / 2) := by linarith
    have hl : k = l + 1 := by
      have : (k : ℚ) = l + 1 := by linarith
      exact_mod_cast this
    have := b5 (by rw [e1]; norm_num)
    have := a5 (by rw [e2]; norm_num)
    rw [Int.even_iff] at *
    omega

/-- A rounded value has `p` digits. -/
theorem sigRound_digits {p : ℕ} (hp : 1 ≤ p) {x r : ℚ} (hx : x ≠ 0) (h : SigRound p x r) :
    ∃ k q : ℤ, (10 : ℚ) ^ (p - 1) ≤ |(k : ℚ)| ∧ |(k : ℚ)| + 1 ≤ 10 ^ p ∧ r = k * 10 ^ q := by
  rcases h with ⟨h, -⟩ | ⟨k, q, a1, a2, rfl, a4, -⟩
  · exact absurd h hx
  have hq : (0 : ℚ) < 10 ^ q := by positivity
  have e1 : (10 : ℚ) ^ (q + p - 1) = 10 ^ (p - 1) * 10 ^ q := by
    rw [← zpow_natCast, ← zpow_add₀ (by norm_num)]; congr 1; omega
  have e2 : (10 : ℚ) ^ (q + p) = 10 ^ p * 10 ^ q := by
    rw [← zpow_natCast, ← zpow_add₀ (by norm_num)]; congr 1; omega
  rw [e1] at a1
  rw [e2] at a2
  have h1 : |(k : ℚ)| * 10 ^ q = |(k : ℚ) * 10 ^ q| := by rw [abs_mul, abs_of_pos hq]
  have h2 := abs_sub_abs_le_abs_sub x (k * 10 ^ q)
  have h3 := abs_sub_abs_le_abs_sub ((k : ℚ) * 10 ^ q) x
  rw [abs_sub_comm] at h3
  rw [← h1] at h2 h3
  have l1 : (10 ^ (p - 1) : ℤ) ≤ |k| := by
    have : ((10 : ℚ) ^ (p - 1) - 1 / 2) * 10 ^ q ≤ |(k : ℚ)| * 10 ^ q := by linarith
    have h4 := le_of_mul_le_mul_right this hq
    have h5 : ((10 ^ (p - 1) : ℤ) : ℚ) < ((|k| + 1 : ℤ) : ℚ) := by push_cast; linarith
    have h6 : (10 ^ (p - 1) : ℤ) < |k| + 1 := by exact_mod_cast h5
    omega
  have l2 : |k| ≤ (10 ^ p : ℤ) := by
    have : |(k : ℚ)| * 10 ^ q < ((10 : ℚ) ^ p + 1) * 10 ^ q := by linarith
    have h4 := lt_of_mul_lt_mul_right this hq.le
    have h5 : ((|k| : ℤ) : ℚ) < ((10 ^ p + 1 : ℤ) : ℚ) := by push_cast; exact h4
    have h6 : |k| < (10 ^ p + 1 : ℤ) := by exact_mod_cast h5
    omega
  have hpow : (10 : ℤ) ^ p = 10 ^ (p - 1) * 10 := by rw [← pow_succ]; congr 1; omega
  rcases lt_or_eq_of_le l2 with hlt | heq
  · refine ⟨k, q, by exact_mod_cast l1, ?_, rfl⟩
    exact_mod_cast hlt
  · have hd : ∃ m : ℤ, k = m * 10 ∧ |m| = 10 ^ (p - 1) := by
      rcases abs_eq (by positivity : (0 : ℤ) ≤ 10 ^ p) |>.mp heq with h | h
      · exact ⟨10 ^ (p - 1), by rw [h, hpow], abs_of_nonneg (by positivity)⟩
      · exact ⟨-10 ^ (p - 1), by rw [h, hpow]; ring, by rw [abs_neg]; exact abs_of_nonneg (by positivity)⟩
    obtain ⟨m, rfl, hm⟩ := hd
    have hm' : |(m : ℚ)| = 10 ^ (p - 1) := by exact_mod_cast hm
    refine ⟨m, q + 1, hm'.ge, ?_, ?_⟩
    · rw [hm']
      have : (10 : ℚ) ^ p = 10 ^ (p - 1) * 10 := by exact_mod_cast hpow
      have h1 : (1 : ℚ) ≤ 10 ^ (p - 1) := one_le_pow₀ (by norm_num)
      linarith
    · rw [zpow_add₀ (by norm_num)]; push_cast; ring

/-- Up to 15 digits, going through a double does not change the digits. -/
theorem sigRound_fl {p : ℕ} (hp : 1 ≤ p) (hp' : p ≤ 15) {x r : ℚ} (h : SigRound p x r) :
    SigRound p (fl 53 r) r := by
  by_cases hx : x = 0
  · rcases h with ⟨-, rfl⟩ | ⟨k, q, a1, -⟩
    · rw [fl_zero]; exact .inl ⟨rfl, rfl⟩
    · rw [hx, abs_zero] at a1
      exact absurd a1 (not_le.mpr (by positivity))
  obtain ⟨k, q, h1, h2, rfl⟩ := sigRound_digits hp hx h
  have hq : (0 : ℚ) < 10 ^ q := by positivity
  have herr := fl_err 53 ((k : ℚ) * 10 ^ q)
  rw [abs_mul, abs_of_pos hq] at herr
  have hp10 : (10 : ℚ) ^ p ≤ 10 ^ 15 := pow_le_pow_right₀ (by norm_num) hp'
  have hpow : (10 : ℚ) ^ p = 10 ^ (p - 1) * 10 := by rw [← pow_succ]; congr 1; omega
  have h53 : (2 : ℚ) ^ (-((53 : ℕ) : ℤ)) = 1 / 9007199254740992 := by norm_num
  rw [h53] at herr
  set y := fl 53 ((k : ℚ) * 10 ^ q) with hy
  have t1 := abs_sub_abs_le_abs_sub y (k * 10 ^ q)
  have t2 := abs_sub_abs_le_abs_sub ((k : ℚ) * 10 ^ q) y
  rw [abs_sub_comm ((k : ℚ) * 10 ^ q)] at t2
  have ek : |(k : ℚ) * 10 ^ q| = |(k : ℚ)| * 10 ^ q := by rw [abs_mul, abs_of_pos hq]
  rw [ek] at t1 t2
  have e1 : (10 : ℚ) ^ (q + p - 1) = 10 ^ (p - 1) * 10 ^ q := by
    rw [← zpow_natCast, ← zpow_add₀ (by norm_num)]; congr 1; omega
  have e2 : (10 : ℚ) ^ (q + p) = 10 ^ p * 10 ^ q := by
    rw [← zpow_natCast, ← zpow_add₀ (by norm_num)]; congr 1; omega
  -- the error in units of the last digit
  have herr2 : |y - k * 10 ^ q| ≤ |(k : ℚ)| / 9007199254740992 * 10 ^ q := by
    calc _ ≤ _ := herr
      _ = _ := by ring
  have hkup : |(k : ℚ)| / 9007199254740992 ≤ 1 / 9 := by
    rw [div_le_iff₀ (by norm_num)]
    norm_num at hp10 ⊢
    linarith
  have hd : |y - k * 10 ^ q| ≤ 1 / 9 * 10 ^ q := le_trans herr2 (mul_le_mul_of_nonneg_right hkup hq.le)
  have m1 : 10 ^ (p - 1) * (10 : ℚ) ^ q ≤ |(k : ℚ)| * 10 ^ q := mul_le_mul_of_nonneg_right h1 hq.le
  have m2 : (|(k : ℚ)| + 1) * 10 ^ q ≤ 10 ^ p * 10 ^ q := mul_le_mul_of_nonneg_right h2 hq.le
  rcases le_or_gt (10 ^ (p - 1) * (10 : ℚ) ^ q) |y| with hge | hlt
  · refine .inr ⟨k, q, by rw [e1]; exact hge, by rw [e2]; linarith, rfl, by linarith, ?_⟩
    intro h; linarith
  · -- the double is below the power of ten that the digits denote
    have hk : |(k : ℚ)| = 10 ^ (p - 1) := by
      apply le_antisymm _ h1
      have : (|(k : ℚ)| - 1) * 10 ^ q < 10 ^ (p - 1) * 10 ^ q := by linarith
      have h4 := lt_of_mul_lt_mul_right this hq.le
      have h5 : ((|k| : ℤ) : ℚ) < ((10 ^ (p - 1) + 1 : ℤ) : ℚ) := by push_cast; linarith
      have h6 : |k| < (10 ^ (p - 1) + 1 : ℤ) := by exact_mod_cast h5
      have h7 : |k| ≤ (10 ^ (p - 1) : ℤ) := by omega
      exact_mod_cast h7
    have hd2 : |y - k * 10 ^ q| ≤ 1 / 9 * 10 ^ (q - 1) := by
      refine le_trans herr2 ?_
      have : (10 : ℚ) ^ q = 10 * 10 ^ (q - 1) := by
        conv_lhs => rw [show q = (q - 1) + 1 by ring, zpow_add₀ (by norm_num)]
        ring
      rw [this, ← mul_assoc]
      apply mul_le_mul_of_nonneg_right _ (by positivity)
      rw [hk, div_mul_eq_mul_div, ← hpow, div_le_iff₀ (by norm_num)]
      norm_num at hp10 ⊢
      linarith
    have hq' : (0 : ℚ) < 10 ^ (q - 1) := by positivity
    have hqq : (10 : ℚ) ^ q = 10 * 10 ^ (q - 1) := by
      conv_lhs => rw [show q = (q - 1) + 1 by ring, zpow_add₀ (by norm_num)]
      ring
    have e3 : (10 : ℚ) ^ (q - 1 + p - 1) = 10 ^ (p - 1) * 10 ^ (q - 1) := by
      rw [← zpow_natCast, ← zpow_add₀ (by norm_num)]; congr 1; omega
    have e4 : (10 : ℚ) ^ (q - 1 + p) = 10 ^ (p - 1) * 10 ^ q := by
      rw [← zpow_natCast, ← zpow_add₀ (by norm_num)]; congr 1; omega
    have hone : (1 : ℚ) ≤ 10 ^ (p - 1) := one_le_pow₀ (by norm_num)
    have hm3 : 10 ^ (q - 1) ≤ 10 ^ (p - 1) * (10 : ℚ) ^ (q - 1) := le_mul_of_one_le_left hq'.le hone
    have hm4 : 10 ^ (p - 1) * (10 : ℚ) ^ q = 10 * (10 ^ (p - 1) * (10 : ℚ) ^ (q - 1)) := by rw [hqq]; ring
    rw [hk] at t2
    refine .inr ⟨k * 10, q - 1, ?_, by rw [e4]; exact hlt, ?_, by linarith, ?_⟩
    · rw [e3]; linarith
    · rw [hqq]; push_cast; ring
    · intro h; linarith

theorem floatText_formatG (p : ℕ) (x r : ℚ) (h : SigRound (max p 1) x r) : floatText (formatG p x) = .ok (fl 53 r) := by
  obtain ⟨s, h1, h2⟩ := formatG_spec p x
  rw [floatText, decimalOf_spec h1, sigRound_unique h h2]

theorem sigRound_abs {p : ℕ} (hp : 1 ≤ p) {x r : ℚ} (h : SigRound p x r) : |r| ≤ 3 / 2 * |x| := by
  rcases h with ⟨rfl, rfl⟩ | ⟨k, q, a1, a2, rfl, a4, -⟩
  · simp
  have h3 := abs_sub_abs_le_abs_sub ((k : ℚ) * 10 ^ q) x
  rw [abs_sub_comm] at h3
  have : (10 : ℚ) ^ q ≤ 10 ^ (q + p - 1) := zpow_le_zpow_right₀ (by norm_num) (by omega)
  linarith

theorem fl_abs_lt {r M : ℚ} (h : |r| ≤ 3 / 2 * M) (hM : 0 < M) : |fl 53 r| < 2 * M := by
  have h1 := fl_err 53 r
  have h2 := abs_sub_abs_le_abs_sub (fl 53 r) r
  have h53 : (2 : ℚ) ^ (-((53 : ℕ) : ℤ)) = 1 / 9007199254740992 := by norm_num
  rw [h53] at h1
  linarith

/-- An integer rounded to significant digits is an integer, and a double if it is small. -/
theorem sigRound_int {p : ℕ} (hp : 1 ≤ p) {n : ℤ} {r : ℚ} (hn : |n| < 2 ^ 53) (h : SigRound p n r) :
    ∃ m : ℤ, r = m ∧ fl 53 r = r := by
  have hr := sigRound_abs hp h
  rcases h with ⟨-, rfl⟩ | ⟨k, q, a1, a2, rfl, a4, -⟩
  · exact ⟨0, by simp, fl_zero _⟩
  have hn' : |(n : ℚ)| < 2 ^ 53 := by exact_mod_cast hn
  rcases lt_or_ge 0 q with hq | hq
  · obtain ⟨j, rfl⟩ : ∃ j : ℕ, q = (j : ℤ) + 1 := ⟨(q - 1).toNat, by omega⟩
    have e : (k : ℚ) * 10 ^ ((j : ℤ) + 1) = ((k * 10 ^ j * 5 : ℤ) : ℚ) * 2 ^ (1 : ℤ) := by
      rw [zpow_add₀ (by norm_num), zpow_natCast]; push_cast; ring
    refine ⟨k * 10 ^ (j + 1), by rw [zpow_add₀ (by norm_num), zpow_natCast]; push_cast; ring, ?_⟩
    rw [e] at hr ⊢
    apply fl_exact
    rw [zpow_one, abs_mul, abs_of_pos (by norm_num : (0 : ℚ) < 2)] at hr
    have : |((k * 10 ^ j * 5 : ℤ) : ℚ)| < ((2 ^ 53 : ℤ) : ℚ) := by push_cast at hr ⊢; linarith
    exact_mod_cast this
  · obtain ⟨j, rfl⟩ : ∃ j : ℕ, q = -(j : ℤ) := ⟨(-q).toNat, by omega⟩
    have hj : (0 : ℚ) < 10 ^ j := by positivity
    rw [zpow_neg, zpow_natCast, ← div_eq_mul_inv] at *
    have h1 : |(n : ℚ) * 10 ^ j - k| ≤ 1 / 2 := by
      have : |(n : ℚ) - k / 10 ^ j| = |(n : ℚ) * 10 ^ j - k| / 10 ^ j := by
        conv_rhs => rw [← abs_of_pos hj, ← abs_div, abs_of_pos hj, sub_div, mul_div_cancel_right₀ _ hj.ne']
      rw [this, div_le_iff₀ hj] at a4
      calc _ ≤ _ := a4
        _ = _ := by field_simp
    have h2 : n * 10 ^ j = k := by
      have : |((n * 10 ^ j - k : ℤ) : ℚ)| < ((1 : ℤ) : ℚ) := by push_cast; linarith
      have h3 : |n * 10 ^ j - k| < 1 := by exact_mod_cast this
      rw [abs_lt] at h3
      omega
    have h3 : (k : ℚ) / 10 ^ j = n := by
      rw [← h2]; push_cast; exact mul_div_cancel_right₀ _ hj.ne'
    rw [h3]
    exact ⟨n, rfl, fl_int 53 n hn⟩

theorem max_fl_small {r : ℚ} (h : |r| ≤ 3 / 2 * 2 ^ 1023) : ¬ doubleMax ≤ |fl 53 r| := by
  rw [doubleMax, show (2 : ℚ) ^ 1024 = 2 * 2 ^ 1023 by rw [show 1024 = 1023 + 1 by rfl, pow_succ]; ring]
  exact not_le.mpr (fl_abs_lt h (by positivity))

end Fp
