import Verif.Props.EpochT1
import Verif.Props.RawA1
import Verif.Lemmas.EpochBits

/-!
# C91: T1 epoch files and legacy a1 files with the same events
-/
namespace Fp
open Spec

theorem encT1_eq (n : Nat) (h : n < 2 ^ 64) : encT1 n = encodeA1 true n := by
  rw [encodeA1_eq true n h]
  simp [encT1, rowBytes, rowOf]

theorem readHeader_ok (head rest : Bytes) (hh : head.length = 20) :
    ∃ hd, readT1Header (head ++ rest) = .ok hd ∧ hd.epoch = leNat ((head.drop 4).take 4) ∧ hd.length = leNat ((head.drop 8).take 4) ∧
      (head ++ rest).drop 20 = rest := by
  have h1 : (head ++ rest).take 20 = head := by
    rw [← hh, List.take_left']
    rfl
  refine ⟨_, by unfold readT1Header; rw [h1, if_pos hh], ?_, ?_, ?_⟩
  · rfl
  · rfl
  · rw [← hh, List.drop_left']
    rfl

theorem t1_lines (head : Bytes) (hh : head.length = 20) (lines : List Nat) (hl : ∀ n ∈ lines, n ≠ 0 ∧ n < 2 ^ 64) (tail : Bytes)
    (ht : tail = [] ∨ ∃ rest, tail = List.replicate 8 0 ++ rest)
    (hn : leNat ((head.drop 8).take 4) = 0 ∨ leNat ((head.drop 8).take 4) = lines.length) (full : Bool) (res : Tsres) (frac : Bool) :
    Returns (fun fuel => readT1 fuel full res frac (head ++ (lines.flatMap encT1 ++ tail)))
      (.ok (lines.map fun n => (t1Convert (leNat ((head.drop 4).take 4)) full res frac (n / 1024), n % 16))) := by
  obtain ⟨hd, h1, h2, h3, h4⟩ := readHeader_ok head (lines.flatMap encT1 ++ tail) hh
  refine ⟨lines.length + 1, fun fuel hf => ?_⟩
  obtain ⟨m, rfl⟩ : ∃ m, fuel = lines.length + (m + 1) := ⟨fuel - lines.length - 1, by omega⟩
  have hend : ∀ acc, t1Step { rest := tail, acc := acc } = .inr acc := by
    intro acc
    rcases ht with rfl | ⟨rest, rfl⟩
    · exact t1Step_zeros 0 acc [] (Or.inr rfl)
    · exact t1Step_zeros 8 acc rest (Or.inl le_rfl)
  unfold readT1
  rw [h1]
  simp only [h4]
  rw [t1_loop lines hl tail [] (m + 1), runLoop, hend]
  simp only [List.nil_append, h2, h3, List.length_map, List.map_map]
  rw [if_neg (by rcases hn with hn | hn <;> rw [hn] <;> simp)]
  rfl

/-- **C91** A T1 file whose body is any sequence of whole non-zero 8-byte events, ended by a zero event or by the end of the
file, and a legacy a1 file with the same body: `read_T1` and `read_a1` return the same events in every output mode.  With
`full_epoch` (integer modes) the times are later by the higher bits of the epoch. -/
theorem C91_same_events (head body tail : Bytes) (hh : head.length = 20) (hb : 8 ∣ body.length)
    (hnz : ∀ k < body.length / 8, (body.drop (8 * k)).take 8 ≠ List.replicate 8 0)
    (ht : tail = [] ∨ ∃ rest, tail = List.replicate 8 0 ++ rest)
    (hl : leNat ((head.drop 8).take 4) = 0 ∨ leNat ((head.drop 8).take 4) = body.length / 8)
    (full : Bool) (res : Tsres) (frac : Bool) (hff : full = true → frac = false) :
    ∃ evs out, readA1 64 true res frac body = .ok evs ∧
      Returns (fun fuel => readT1 fuel full res frac (head ++ (body ++ tail))) (.ok out) ∧
      out.map (fun e => (e.1.val, e.2)) = evs.map (fun e =>
        (e.1.val + (if full then timeIn res (leNat ((head.drop 4).take 4) / 2 ^ 17 * 2 ^ 54) else 0), e.2)) := by
  obtain ⟨lines, rest, h1, h2, h3⟩ := exists_lines true body
  have hrest : rest = [] := by
    rw [Nat.dvd_iff_mod_eq_zero] at hb
    rw [hb] at h2
    exact List.eq_nil_of_length_eq_zero h2
  subst hrest
  have hbody : body = lines.flatMap encT1 := by
    rw [h3, List.append_nil]
    apply List.flatMap_congr
    intro n hn
    exact (encT1_eq n (h1 n hn)).symm
  have hlen : body.length / 8 = lines.length := by
    rw [hbody, flatMap_length_const encT1 8 encT1_length]
    omega
  have hl0 : ∀ n ∈ lines, n ≠ 0 ∧ n < 2 ^ 64 := by
    intro n hn
    refine ⟨?_, h1 n hn⟩
    rintro rfl
    obtain ⟨k, hk, hk'⟩ := List.getElem_of_mem hn
    apply hnz k (by omega)
    have hsplit : lines = lines.take k ++ 0 :: lines.drop (k + 1) := by
      conv_lhs => rw [← List.take_append_drop k lines, List.drop_eq_getElem_cons hk, hk']
    rw [hbody, hsplit, List.flatMap_append, List.flatMap_cons]
    have hpre : ((lines.take k).flatMap encT1).length = 8 * k := by
      rw [flatMap_length_const encT1 8 encT1_length, List.length_take]
      rw [min_eq_left (by omega)]
    rw [List.drop_left' hpre, List.take_left' (encT1_length 0)]
    rfl
  refine ⟨lines.map (fun n => (formatTimestamp 64 res frac (.u64 (n / 1024)), n % 16)),
    lines.map (fun n => (t1Convert (leNat ((head.drop 4).take 4)) full res frac (n / 1024), n % 16)), ?_, ?_, ?_⟩
  · have := readA1_lines 64 true res frac lines h1 [] (by simp)
    rw [h3]
    exact this
  · have := t1_lines head hh lines hl0 tail ht (by rwa [← hlen]) full res frac
    rw [hbody]
    exact this
  · rw [List.map_map, List.map_map]
    apply List.map_congr_left
    intro n hn
    simp only [Function.comp, Prod.mk.injEq, and_true]
    have h54 : n / 1024 < 2 ^ 54 := by have := h1 n hn; omega
    have he : leNat ((head.drop 4).take 4) < 2 ^ 32 := leNat_take4_lt _
    generalize leNat ((head.drop 4).take 4) = ep at *
    generalize n / 1024 = t at *
    unfold t1Convert formatTimestamp
    cases full
    · cases frac
      · simp only [Bool.false_eq_true, if_false, and_false, add_zero]
        cases res <;> simp [bitdiff, Tsres.value, Num.toU64, Num.val, ENum.val, Nat.shiftRight_eq_div_pow]
        · rfl
        · rfl
        · rw [show Nat.log2 1 = 0 by decide, pow_zero, Nat.div_one]
      · simp only [if_true, Bool.false_eq_true, if_false, add_zero]
        rfl
    · have := hff rfl
      subst this
      have hmsb : ep / 2 ^ 17 < 2 ^ 15 := by omega
      simp only [Bool.false_eq_true, if_false, and_true, if_true, Nat.shiftRight_eq_div_pow, Nat.shiftLeft_eq]
      generalize ep / 2 ^ 17 = q at *
      cases res
      · simp only [bitdiff, Tsres.value, Num.toU64, Num.val, ENum.val, timeIn]
        rw [if_neg (by simp), if_pos (by simp)]
        simp only [ENum.val, Num.val]
        have : Nat.log2 (256 / 1) = 8 := by decide
        rw [this, Nat.mod_eq_of_lt (show q * 2 ^ (54 - 8) < 2 ^ 64 by omega), Nat.mod_eq_of_lt (by omega)]
        push_cast
        norm_num
        ring
      · simp only [bitdiff, Tsres.value, Num.toU64, Num.val, ENum.val, timeIn]
        rw [if_neg (by simp), if_pos (by simp)]
        simp only [ENum.val, Num.val]
        have : Nat.log2 (256 / 8) = 5 := by decide
        rw [this, Nat.mod_eq_of_lt (show q * 2 ^ (54 - 5) < 2 ^ 64 by omega), Nat.mod_eq_of_lt (by omega)]
        push_cast
        norm_num
        ring
      · simp only [Tsres.value, timeIn]
        rw [if_pos trivial, if_neg (by simp)]
        simp only [ENum.val, Num.val]
        push_cast
        norm_num

/-- Instance of C91: two events, epoch 0xba1f36c0, the length not given in the header. -/
example : (∀ k < 16 / 8, ((leBytes 4 0x12345678 ++ leBytes 4 0x9abcdef1 ++ leBytes 4 5 ++ leBytes 4 0).drop (8 * k)).take 8 ≠ List.replicate 8 0) ∧
    readA1 64 true .ps4 false (leBytes 4 0x12345678 ++ leBytes 4 0x9abcdef1 ++ leBytes 4 5 ++ leBytes 4 0) =
      .ok [(.u64 1281023894007607, 1), (.u64 20971520, 0)] ∧
    readT1 3 true .ps4 false ((leBytes 4 0x101 ++ leBytes 4 0xba1f36c0 ++ leBytes 4 0 ++ leBytes 4 49 ++ leBytes 4 4) ++
      ((leBytes 4 0x12345678 ++ leBytes 4 0x9abcdef1 ++ leBytes 4 5 ++ leBytes 4 0) ++ [])) =
      some (.ok [(.obj (1281023894007607 + 0xba1f36c0 / 2 ^ 17 * 2 ^ 54), 1), (.obj (20971520 + 0xba1f36c0 / 2 ^ 17 * 2 ^ 54), 0)]) := by
  decide +kernel

end Fp
