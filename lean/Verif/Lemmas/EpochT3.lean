import Verif.Spec.Epoch
import Verif.Lemmas.EpochT1

/-! Helper lemmas for `Verif/Props/EpochT3.lean`. -/
namespace Fp
open Spec

theorem t3Detections_eq (body : Bytes) (h : body.length % 4 = 0) :
    t3Detections body = .ok (t3Entries body body.length) := by
  induction body using t3Detections.induct with
  | case1 => rfl
  | case2 a b c d rest ih =>
    have hr : rest.length % 4 = 0 := by simp at h; omega
    rw [t3Detections, ih hr]
    simp only [bind, Except.bind, pure, Except.pure]
    congr 1
    have e1 : leBytes 4 (leNat [a, b, c, d]) = [a, b, c, d] := leBytes_leNat [a, b, c, d]
    rw [e1]
    unfold t3Entries
    have e2 : (a :: b :: c :: d :: rest).length = rest.length + 4 := by simp
    rw [e2, Nat.add_comm, List.range_add, List.map_append, List.map_map]
    congr 1
    apply List.map_congr_left
    intro i _
    unfold t3Entry
    simp only [Function.comp]
    have e3 : 4 * ((4 + i) / 4) + (3 - (4 + i) % 4) = 4 * (i / 4) + (3 - i % 4) + 4 := by omega
    rw [e3]
    rfl
  | case3 body h1 h2 =>
    exfalso
    match body, h1, h2 with
    | [], h1, _ => exact h1 rfl
    | [a], _, _ => simp at h
    | [a, b], _, _ => simp at h
    | [a, b, c], _, _ => simp at h
    | a :: b :: c :: d :: rest, _, h2 => exact h2 _ _ _ _ _ rfl

theorem t3Detections_incomplete (body : Bytes) (h : body.length % 4 ≠ 0) : t3Detections body = .error .structError := by
  induction body using t3Detections.induct with
  | case1 => simp at h
  | case2 a b c d rest ih =>
    have hr : rest.length % 4 ≠ 0 := by simp at h; omega
    rw [t3Detections, ih hr]
    rfl
  | case3 body h1 h2 => rw [t3Detections]; exact h1; exact h2

theorem decode_cases (n : Nat) (h : n < 16) :
    (∃ a, a < 4 ∧ n = 2 ^ a ∧ (t3Decode[n]?).join = some a ∧ oneBit n = true) ∨
      ((∀ a < 4, n ≠ 2 ^ a) ∧ (t3Decode[n]?).join = none ∧ oneBit n = false) := by
  have key : ∀ n < 16, (∃ a, a < 4 ∧ n = 2 ^ a ∧ (t3Decode[n]?).join = some a ∧ oneBit n = true) ∨
      ((∀ a < 4, n ≠ 2 ^ a) ∧ (t3Decode[n]?).join = none ∧ oneBit n = false) := by decide
  exact key n h

def tallyOf (l : List Nat) : ServiceT3 :=
  { coincMatrix := (List.range 16).map (fun i => pairs l (i / 4) (i % 4)),
    garbage0 := l.countP (fun x => !oneBit (x / 16)), garbage1 := l.countP (fun x => !oneBit (x % 16)),
    okcount := l.countP validPair, qber := 1 / 2 }

theorem tally_step (l : List Nat) (x : Nat) (hx : x < 256) : t3Tally (tallyOf l) x = tallyOf (l ++ [x]) := by
  have e1 : (x >>> 4) &&& 0xF = x / 16 := by
    rw [shr_eq, show (0xF : Nat) = 2 ^ 4 - 1 from rfl, Nat.and_two_pow_sub_one_eq_mod]; omega
  have e2 : x &&& 0xF = x % 16 := by
    rw [show (0xF : Nat) = 2 ^ 4 - 1 from rfl, Nat.and_two_pow_sub_one_eq_mod]
  unfold t3Tally
  simp only [e1, e2]
  rcases decode_cases (x / 16) (by omega) with ⟨a, ha, hxa, hda, hoa⟩ | ⟨hna, hda, hoa⟩ <;>
    rcases decode_cases (x % 16) (by omega) with ⟨b, hb, hxb, hdb, hob⟩ | ⟨hnb, hdb, hob⟩ <;>
    rw [hda, hdb] <;> simp only [tallyOf, ServiceT3.mk.injEq, List.countP_append, List.countP_singleton, hoa, hob, validPair]
  · refine ⟨?_, by simp, by simp, by simp, trivial⟩
    apply List.ext_getElem
    · simp
    · intro i h1 h2
      have hi : i < 16 := by simpa using h2
      rw [List.getElem_set]
      simp only [List.getElem_map, List.getElem_range, pairs, List.countP_append, List.countP_singleton]
      have hp : (x / 16 = 2 ^ (i / 4) ∧ x % 16 = 2 ^ (i % 4)) ↔ a * 4 + b = i := by
        rw [hxa, hxb]
        constructor
        · rintro ⟨h1, h2⟩
          have := Nat.pow_right_injective (le_refl 2) h1
          have := Nat.pow_right_injective (le_refl 2) h2
          omega
        · intro h
          have : i / 4 = a := by omega
          have : i % 4 = b := by omega
          simp_all
      by_cases hc : a * 4 + b = i
      · have hlt : a * 4 + b < 16 := by omega
        rw [if_pos hc, if_pos (by simpa using hp.mpr hc)]
        have e3 : ((List.range 16).map (fun i => l.countP (fun x => decide (x / 16 = 2 ^ (i / 4) ∧ x % 16 = 2 ^ (i % 4)))))[a * 4 + b]? =
            some (l.countP (fun x => decide (x / 16 = 2 ^ (i / 4) ∧ x % 16 = 2 ^ (i % 4)))) := by
          rw [hc, List.getElem?_map, List.getElem?_range hi]; rfl
        rw [e3]; rfl
      · rw [if_neg hc, if_neg (by simpa using fun h1 h2 => hc (hp.mp ⟨h1, h2⟩)), Nat.add_zero]
  all_goals
    refine ⟨?_, by simp, by simp, by simp, trivial⟩
    apply List.map_congr_left
    intro i hi
    have hi : i < 16 := by simpa using hi
    rw [pairs, pairs, List.countP_append, List.countP_singleton, if_neg, Nat.add_zero]
    simp only [decide_eq_true_eq, not_and]
    intro h1 h2
    first
      | exact absurd h2 (hnb (i % 4) (by omega))
      | exact absurd h1 (hna (i / 4) (by omega))

theorem tally_fold (l2 l : List Nat) (h : ∀ x ∈ l2, x < 256) : l2.foldl t3Tally (tallyOf l) = tallyOf (l ++ l2) := by
  induction l2 generalizing l with
  | nil => simp
  | cons x l2 ih =>
    rw [List.foldl_cons, tally_step l x (h x (by simp)), ih _ (fun y hy => h y (by simp [hy]))]
    simp

theorem tally_init : ({ coincMatrix := List.replicate 16 0, garbage0 := 0, garbage1 := 0, okcount := 0, qber := 1 / 2 } : ServiceT3) =
    tallyOf [] := by
  unfold tallyOf
  simp only [pairs, List.countP_nil]
  congr 1

theorem t3Entry_lt (body : Bytes) (i : Nat) : t3Entry body i < 256 := UInt8.toNat_lt _

theorem pairs_sum (l : List Nat) (h : ∀ x ∈ l, x < 256) :
    ((List.range 16).map (fun i => pairs l (i / 4) (i % 4))).sum = l.countP validPair := by
  have key : ∀ hi < 16, ∀ lo < 16, ((List.range 16).map (fun i => if hi = 2 ^ (i / 4) ∧ lo = 2 ^ (i % 4) then 1 else 0)).sum =
      if (oneBit hi && oneBit lo) = true then 1 else 0 := by decide +kernel
  induction l with
  | nil => simp [pairs]
  | cons x l ih =>
    have hx := h x (by simp)
    rw [List.countP_cons, ← ih (fun y hy => h y (by simp [hy])), validPair, ← key (x / 16) (by omega) (x % 16) (by omega),
      ← List.sum_map_add]
    congr 1
    apply List.map_congr_left
    intro i _
    simp [pairs, List.countP_cons]

theorem round3_fl_bounds (x : ℚ) (h0 : 0 ≤ x) (h1 : x ≤ 1) :
    0 ≤ round3 (fl 53 x) ∧ round3 (fl 53 x) ≤ 1 ∧ |round3 (fl 53 x) - x| ≤ 1 / 2000 + 1 / 2 ^ 52 := by
  have hf1 : fl 53 (1 : ℚ) = 1 := by simpa using fl_nat 53 1 (by norm_num)
  have hy0 : 0 ≤ fl 53 x := fl_nonneg 53 h0
  have hy1 : fl 53 x ≤ 1 := by rw [← hf1]; exact fl_mono_nonneg 53 (by norm_num) h0 h1
  have he := fl_err 53 x
  rw [abs_of_nonneg h0] at he
  generalize fl 53 x = y at *
  have hr0 : (0 : ℤ) ≤ rne (y * 1000) := le_rne_int (by push_cast; positivity)
  have hr1 : rne (y * 1000) ≤ 1000 := rne_le_int (by push_cast; linarith)
  have hr := rne_spec (y * 1000)
  unfold round3
  generalize rne (y * 1000) = r at *
  have hr0' : (0 : ℚ) ≤ (r : ℚ) := by exact_mod_cast hr0
  have hr1' : (r : ℚ) ≤ 1000 := by exact_mod_cast hr1
  have hz0 : (0 : ℚ) ≤ (r : ℚ) / 1000 := by positivity
  have hz1 : (r : ℚ) / 1000 ≤ 1 := by rw [div_le_one (by norm_num)]; exact hr1'
  have he2 := fl_err 53 ((r : ℚ) / 1000)
  rw [abs_of_nonneg hz0] at he2
  refine ⟨fl_nonneg 53 hz0, by rw [← hf1]; exact fl_mono_nonneg 53 (by norm_num) hz0 hz1, ?_⟩
  have hp : (2 : ℚ) ^ (-((53 : ℕ) : ℤ)) = 1 / 2 ^ 53 := by norm_num
  rw [hp] at he he2
  generalize fl 53 ((r : ℚ) / 1000) = z at *
  rw [abs_le] at *
  constructor <;> linarith [he.1, he.2, he2.1, he2.2, hr.1, hr.2]

theorem t3_header (tag epoch len bpe : Nat) (h1 : tag < 2 ^ 32) (h2 : epoch < 2 ^ 32) (h3 : len < 2 ^ 32)
    (h4 : bpe < 2 ^ 32) (rest : Bytes) :
    ∃ hd, readT3Header (t3File tag epoch len bpe rest) = .ok hd ∧ hd.length = len ∧ (t3File tag epoch len bpe rest).drop 16 = rest := by
  have hlen : ([tag, epoch, len, bpe].flatMap (leBytes 4)).length = 16 := by simp
  have hlt : ∀ w ∈ [tag, epoch, len, bpe], w < 2 ^ 32 := by
    intro w hw
    simp only [List.mem_cons, List.not_mem_nil, or_false] at hw
    rcases hw with rfl | rfl | rfl | rfl <;> omega
  unfold readT3Header t3File
  simp only []
  rw [List.take_append_of_le_length (by omega), List.take_of_length_le (by omega), if_pos hlen]
  refine ⟨_, rfl, headWord_get _ hlt 2 (by simp), ?_⟩
  rw [List.drop_append_of_le_length (by omega), List.drop_of_length_le (by omega), List.nil_append]

theorem readT3_eq (tag epoch len bpe : Nat) (h1 : tag < 2 ^ 32) (h2 : epoch < 2 ^ 32) (h3 : len < 2 ^ 32)
    (h4 : bpe < 2 ^ 32) (body : Bytes) (hb : body.length % 4 = 0) (hlen : len ≤ body.length) :
    readT3 (t3File tag epoch len bpe body) =
      .ok (if sameBasisSame (t3Entries body len) + sameBasisOpposite (t3Entries body len) ≠ 0 then
        { tallyOf (t3Entries body len) with
          qber := round3 (fl 53 ((sameBasisSame (t3Entries body len) : ℚ) /
            ((sameBasisSame (t3Entries body len) + sameBasisOpposite (t3Entries body len) : Nat) : ℚ))) }
        else tallyOf (t3Entries body len)) := by
  obtain ⟨hd, g1, g2, g3⟩ := t3_header tag epoch len bpe h1 h2 h3 h4 body
  unfold readT3
  simp only [g1, bind, Except.bind, g3, t3Detections_eq body hb, g2]
  have htake : (t3Entries body body.length).take len = t3Entries body len := by
    unfold t3Entries
    rw [← List.map_take, List.take_range, Nat.min_eq_left hlen]
  rw [if_neg (by unfold t3Entries; simp; omega), htake, tally_init,
    tally_fold _ _ (by intro x hx; obtain ⟨i, _, rfl⟩ := List.mem_map.mp hx; exact t3Entry_lt body i), List.nil_append]
  generalize t3Entries body len = es
  have hget : ∀ i < 16, ((tallyOf es).coincMatrix[i]?).getD 0 = pairs es (i / 4) (i % 4) := by
    intro i hi
    unfold tallyOf
    simp only []
    rw [List.getElem?_map, List.getElem?_range hi]
    rfl
  rw [hget 0 (by norm_num), hget 5 (by norm_num), hget 10 (by norm_num), hget 15 (by norm_num), hget 2 (by norm_num),
    hget 7 (by norm_num), hget 8 (by norm_num), hget 13 (by norm_num)]
  unfold sameBasisSame sameBasisOpposite
  split_ifs <;> rfl

end Fp
