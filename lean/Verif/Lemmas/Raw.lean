import Verif.Spec.Raw
import Verif.Lemmas.Bytes
import Verif.Lemmas.Float

/-! Helper lemmas for the raw timestamp formats. -/
namespace Fp
open Spec

theorem shl_eq (a k : Nat) : a <<< k = a * 2 ^ k := Nat.shiftLeft_eq a k
theorem shr_eq (a k : Nat) : a >>> k = a / 2 ^ k := Nat.shiftRight_eq_div_pow a k

theorem and15 (n : Nat) : n &&& 0xF = n % 16 := Nat.and_two_pow_sub_one_eq_mod n 4
theorem and32 (n : Nat) : n &&& 0xFFFFFFFF = n % 2 ^ 32 := Nat.and_two_pow_sub_one_eq_mod n 32

/-- log2 of 256 / res.value -/
def Tsres.shift : Tsres → Nat
  | .ns1 => 8
  | .ps125 => 5
  | .ps4 => 0

theorem Tsres.ratio (res : Tsres) : Tsres.ps4.value / res.value = 2 ^ res.shift := by
  cases res <;> rfl

theorem Tsres.ratioQ (res : Tsres) : (Tsres.ps4.value : ℚ) / res.value = 2 ^ res.shift := by
  cases res <;> simp [Tsres.value, Tsres.shift] <;> norm_num

theorem timeIn_eq (res : Tsres) (t : Nat) : timeIn res t = (t : ℚ) / 2 ^ res.shift := by
  cases res <;> simp [timeIn, Tsres.value, Tsres.shift] <;> ring

theorem floor_div_nat (t k : Nat) : ⌊(t : ℚ) / (2 : ℚ) ^ k⌋ = ((t / 2 ^ k : Nat) : ℤ) := by
  have h := Rat.floor_intCast_div_natCast (t : ℤ) (2 ^ k)
  push_cast at h ⊢
  rw [h]

theorem floor_timeIn (res : Tsres) (t : Nat) : ⌊timeIn res t⌋.toNat = t / 2 ^ res.shift := by
  rw [timeIn_eq, floor_div_nat, Int.toNat_natCast]

theorem formatTimestamp_u64 (fw : Nat) (res : Tsres) (frac : Bool) (t : Nat) (h : t < 2 ^ fw) :
    formatTimestamp fw res frac (.u64 t) = readValue res frac t := by
  unfold formatTimestamp readValue
  cases frac
  · simp only [Bool.false_eq_true, if_false]
    rw [floor_timeIn, Tsres.ratio]
    split
    · simp [Num.toU64]
    · rename_i hr
      have : res = .ps4 := by simpa using hr
      subst this
      simp [Tsres.shift]
  · simp only [if_true, Num.val]
    rw [fl_nat fw t h, Tsres.ratioQ, fl_nat_div fw t _ h, timeIn_eq]

theorem toU64_nat (n : Nat) : (Num.flt (n : ℚ)).toU64 = n % 2 ^ 64 := by
  simp [Num.toU64]

/-- Packing an event. -/
theorem consolidate_eq (fw : Nat) (hfw : 54 ≤ fw) (res : Tsres) (x : Num) (t p : Nat) (hx : x.val = timeIn res t)
    (ht : t < 2 ^ 54) (hp : p < 1024) : consolidate fw res (x, p) = t * 1024 + p := by
  have htf : t < 2 ^ fw := lt_of_lt_of_le ht (Nat.pow_le_pow_right (by norm_num) hfw)
  unfold consolidate
  simp only []
  rw [hx, timeIn_eq, fl_nat_div fw t _ htf, Tsres.ratio]
  have h1 : (t : ℚ) / 2 ^ res.shift * ((2 ^ res.shift : Nat) : ℚ) = t := by
    push_cast
    field_simp
  rw [h1, fl_nat fw t htf, toU64_nat, shl_eq]
  omega

theorem consolidate_lt (fw : Nat) (res : Tsres) (e : Num × Nat) : consolidate fw res e < 2 ^ 64 :=
  Nat.mod_lt _ (by norm_num)

/-- The row of an a1 file that holds the 64-bit value `n`. -/
def rowOf (legacy : Bool) (n : Nat) : Nat × Nat :=
  if legacy then (n / 2 ^ 32, n % 2 ^ 32) else (n % 2 ^ 32, n / 2 ^ 32)

theorem rowOf_ok (legacy : Bool) (n : Nat) (h : n < 2 ^ 64) : RowOk (rowOf legacy n) := by
  unfold rowOf RowOk
  cases legacy <;> simp <;> omega

theorem encodeA1_eq (legacy : Bool) (n : Nat) (h : n < 2 ^ 64) : encodeA1 legacy n = rowBytes (rowOf legacy n) := by
  unfold encodeA1 rowOf rowBytes
  cases legacy
  · simp only [Bool.false_eq_true, if_false]; exact leBytes_eight n
  · simp only [if_true]
    rw [leBytes_eight, swapWords, and32, shl_eq, shr_eq]
    congr 2 <;> omega

theorem decodeRow_rowOf (fw : Nat) (legacy : Bool) (res : Tsres) (frac : Bool) (n : Nat) (h : n < 2 ^ 64) :
    decodeRow fw legacy res frac (rowOf legacy n) = (formatTimestamp fw res frac (.u64 (n / 1024)), n % 16) := by
  have hw : rowWords legacy (rowOf legacy n) = (n / 2 ^ 32, n % 2 ^ 32) := by
    unfold rowWords rowOf; cases legacy <;> simp
  unfold decodeRow
  simp only [hw]
  have h1 : rawTime (n / 2 ^ 32) (n % 2 ^ 32) = n / 1024 := by
    unfold rawTime
    rw [shl_eq, shr_eq]; omega
  rw [h1, and15]
  congr 1
  omega

theorem exists_line (legacy : Bool) (r : Nat × Nat) (h : RowOk r) : ∃ n, n < 2 ^ 64 ∧ r = rowOf legacy n := by
  obtain ⟨a, b⟩ := r
  obtain ⟨h1, h2⟩ := h
  simp only at h1 h2
  cases legacy
  · refine ⟨b * 2 ^ 32 + a, by omega, ?_⟩
    simp only [rowOf, Bool.false_eq_true, if_false, Prod.mk.injEq]; omega
  · refine ⟨a * 2 ^ 32 + b, by omega, ?_⟩
    simp only [rowOf, if_true, Prod.mk.injEq]; omega

/-- Every byte string is a sequence of encoded 64-bit values followed by fewer than 8 bytes. -/
theorem exists_lines (legacy : Bool) (file : Bytes) :
    ∃ (lines : List Nat) (rest : Bytes), (∀ n ∈ lines, n < 2 ^ 64) ∧ rest.length = file.length % 8 ∧
      file = lines.flatMap (encodeA1 legacy) ++ rest := by
  obtain ⟨rows, rest, hok, hlen, heq⟩ := exists_rows file
  have : ∃ lines : List Nat, (∀ n ∈ lines, n < 2 ^ 64) ∧ rows.flatMap rowBytes = lines.flatMap (encodeA1 legacy) := by
    clear heq
    induction rows with
    | nil => exact ⟨[], by simp, rfl⟩
    | cons r rs ih =>
      obtain ⟨ls, h1, h2⟩ := ih (fun r hr => hok r (by simp [hr]))
      obtain ⟨n, hn, hr⟩ := exists_line legacy r (hok r (by simp))
      refine ⟨n :: ls, ?_, ?_⟩
      · intro m hm
        rcases List.mem_cons.mp hm with rfl | hm
        · exact hn
        · exact h1 m hm
      · rw [List.flatMap_cons, List.flatMap_cons, h2, hr, encodeA1_eq legacy n hn]
  obtain ⟨lines, h1, h2⟩ := this
  exact ⟨lines, rest, h1, hlen, by rw [heq, h2]⟩

theorem flatMap_encode_rows (legacy : Bool) (lines : List Nat) (h : ∀ n ∈ lines, n < 2 ^ 64) :
    lines.flatMap (encodeA1 legacy) = (lines.map (rowOf legacy)).flatMap rowBytes := by
  induction lines with
  | nil => rfl
  | cons n ns ih =>
    rw [List.flatMap_cons, List.map_cons, List.flatMap_cons, ih (fun n hn => h n (by simp [hn])),
      encodeA1_eq legacy n (h n (by simp))]

theorem rows_ok (legacy : Bool) (lines : List Nat) (h : ∀ n ∈ lines, n < 2 ^ 64) :
    ∀ r ∈ lines.map (rowOf legacy), RowOk r := by
  intro r hr
  obtain ⟨n, hn, rfl⟩ := List.mem_map.mp hr
  exact rowOf_ok legacy n (h n hn)

theorem map_decodeRow (fw : Nat) (legacy : Bool) (res : Tsres) (frac : Bool) (lines : List Nat)
    (h : ∀ n ∈ lines, n < 2 ^ 64) :
    (lines.map (rowOf legacy)).map (decodeRow fw legacy res frac) =
      lines.map (fun n => (formatTimestamp fw res frac (.u64 (n / 1024)), n % 16)) := by
  rw [List.map_map]
  apply List.map_congr_left
  intro n hn
  exact decodeRow_rowOf fw legacy res frac n (h n hn)

/-- `read_a1` on encoded values followed by fewer than 4 bytes. -/
theorem readA1_lines (fw : Nat) (legacy : Bool) (res : Tsres) (frac : Bool) (lines : List Nat)
    (h : ∀ n ∈ lines, n < 2 ^ 64) (rest : Bytes) (hr : rest.length < 4) :
    readA1 fw legacy res frac (lines.flatMap (encodeA1 legacy) ++ rest) =
      .ok (lines.map (fun n => (formatTimestamp fw res frac (.u64 (n / 1024)), n % 16))) := by
  unfold readA1
  rw [flatMap_encode_rows legacy lines h, words32_rows _ (rows_ok legacy lines h), words32_short rest hr,
    List.append_nil, reshape2_rows]
  simp only [bind, Except.bind, pure, Except.pure]
  rw [map_decodeRow fw legacy res frac lines h]

theorem words32_one (b : Bytes) (h4 : 4 ≤ b.length) (h8 : b.length < 8) : ∃ x, words32 b = [x] := by
  match b, h4, h8 with
  | a :: b :: c :: d :: rest, _, h8 =>
    refine ⟨leNat [a, b, c, d], ?_⟩
    simp only [List.length_cons] at h8
    rw [words32, words32_short rest (by omega)]

/-- `read_a1` fails on an odd number of words. -/
theorem readA1_odd (fw : Nat) (legacy : Bool) (res : Tsres) (frac : Bool) (lines : List Nat)
    (h : ∀ n ∈ lines, n < 2 ^ 64) (rest : Bytes) (h4 : 4 ≤ rest.length) (h8 : rest.length < 8) :
    readA1 fw legacy res frac (lines.flatMap (encodeA1 legacy) ++ rest) = .error .valueError := by
  obtain ⟨x, hx⟩ := words32_one rest h4 h8
  unfold readA1
  rw [flatMap_encode_rows legacy lines h, words32_rows _ (rows_ok legacy lines h), hx, reshape2_rows_one]
  rfl

theorem encodeA1_length (legacy : Bool) (n : Nat) : (encodeA1 legacy n).length = 8 := by simp [encodeA1]

theorem flatMap_length_const {α β : Type} (f : α → List β) (u : Nat) (hf : ∀ a, (f a).length = u) (xs : List α) :
    (xs.flatMap f).length = u * xs.length := by
  induction xs with
  | nil => simp
  | cons x xs ih => rw [List.flatMap_cons, List.length_append, ih, hf, List.length_cons]; ring

theorem flatMap_length_const' {α β : Type} (f : α → List β) (u : Nat) (xs : List α)
    (hf : ∀ a ∈ xs, (f a).length = u) : (xs.flatMap f).length = u * xs.length := by
  induction xs with
  | nil => simp
  | cons x xs ih =>
    rw [List.flatMap_cons, List.length_append, ih (fun a ha => hf a (by simp [ha])), hf x (by simp), List.length_cons]
    ring

theorem take_flatMap_const {α β : Type} (f : α → List β) (u : Nat) (xs : List α) (b : Nat)
    (hf : ∀ a ∈ xs, (f a).length = u) :
    (xs.flatMap f).take (b * u) = (xs.take b).flatMap f ∧ (xs.flatMap f).drop (b * u) = (xs.drop b).flatMap f := by
  induction b generalizing xs with
  | zero => simp
  | succ b ih =>
    cases xs with
    | nil => simp
    | cons x xs =>
      have hx := hf x (by simp)
      have ih := ih xs (fun a ha => hf a (by simp [ha]))
      rw [List.flatMap_cons, show (b + 1) * u = (f x).length + b * u by rw [hx]; ring, List.take_length_add_append,
        List.drop_length_add_append, ih.1, ih.2]
      simp [List.flatMap_cons]

/-- Consecutive groups of `b+1` elements. -/
def groups {α : Type} (b : Nat) (xs : List α) : List (List α) :=
  if h : xs = [] then [] else xs.take (b + 1) :: groups b (xs.drop (b + 1))
termination_by xs.length
decreasing_by
  simp only [List.length_drop]
  have : 0 < xs.length := List.length_pos_iff.mpr h
  omega

theorem groups_flatten {α : Type} (b : Nat) (xs : List α) : (groups b xs).flatten = xs := by
  induction h : xs.length using Nat.strongRecOn generalizing xs with
  | ind n ih =>
    rw [groups]
    split
    · rename_i h'; simp [h']
    · rename_i h'
      have hpos : 0 < xs.length := List.length_pos_iff.mpr h'
      rw [List.flatten_cons, ih _ (by simp [← h]; omega) (xs.drop (b + 1)) rfl, List.take_append_drop]

theorem groups_mem {α : Type} (b : Nat) (xs : List α) : ∀ g ∈ groups b xs, g ≠ [] ∧ g.length ≤ b + 1 := by
  induction h : xs.length using Nat.strongRecOn generalizing xs with
  | ind n ih =>
    rw [groups]
    split
    · simp
    · rename_i h'
      have hpos : 0 < xs.length := List.length_pos_iff.mpr h'
      intro g hg
      rcases List.mem_cons.mp hg with rfl | hg
      · simp [h']
      · exact ih _ (by simp [← h]; omega) (xs.drop (b + 1)) rfl g hg

theorem groups_full {α : Type} (b : Nat) (xs : List α) : ∀ g ∈ (groups b xs).dropLast, g.length = b + 1 := by
  induction h : xs.length using Nat.strongRecOn generalizing xs with
  | ind n ih =>
    rw [groups]
    split
    · simp
    · rename_i h'
      have hpos : 0 < xs.length := List.length_pos_iff.mpr h'
      intro g hg
      by_cases hd : xs.drop (b + 1) = []
      · rw [hd, groups] at hg; simp at hg
      · have hne : groups b (xs.drop (b + 1)) ≠ [] := by rw [groups]; simp [hd]
        rw [List.dropLast_cons_of_ne_nil hne] at hg
        rcases List.mem_cons.mp hg with rfl | hg
        · simp at hd ⊢; omega
        · exact ih _ (by simp [← h]; omega) (xs.drop (b + 1)) rfl g hg

theorem groups_length {α : Type} (b : Nat) (xs : List α) : (groups b xs).length = (xs.length + b) / (b + 1) := by
  induction h : xs.length using Nat.strongRecOn generalizing xs with
  | ind n ih =>
    rw [groups]
    split
    · rename_i h'
      subst h'
      have : n = 0 := by simpa using h.symm
      subst this
      rw [Nat.div_eq_of_lt (by omega)]
      rfl
    · rename_i h'
      have hpos : 0 < xs.length := List.length_pos_iff.mpr h'
      rw [List.length_cons, ih _ (by simp [← h]; omega) (xs.drop (b + 1)) rfl, List.length_drop]
      rw [← h]
      by_cases hle : xs.length ≤ b + 1
      · rw [show xs.length - (b + 1) = 0 by omega, Nat.zero_add, Nat.div_eq_of_lt (by omega)]
        symm
        apply Nat.div_eq_of_lt_le <;> omega
      · rw [show xs.length + b = xs.length - (b + 1) + b + (b + 1) by omega, Nat.add_div_right _ (by omega)]

theorem groups_batching {α : Type} (b : Nat) (xs : List α) : IsBatching (b + 1) xs (groups b xs) :=
  ⟨groups_flatten b xs, groups_mem b xs, groups_full b xs⟩

theorem groups_map {α β : Type} (f : α → β) (b : Nat) (xs : List α) :
    (groups b xs).map (List.map f) = groups b (xs.map f) := by
  induction h : xs.length using Nat.strongRecOn generalizing xs with
  | ind n ih =>
    by_cases h' : xs = []
    · subst h'; simp [groups]
    · have hpos : 0 < xs.length := List.length_pos_iff.mpr h'
      have e1 : groups b xs = xs.take (b + 1) :: groups b (xs.drop (b + 1)) := by rw [groups, dif_neg h']
      have e2 : groups b (xs.map f) = (xs.map f).take (b + 1) :: groups b ((xs.map f).drop (b + 1)) := by
        rw [groups, dif_neg (by simpa using h')]
      rw [e1, e2, List.map_cons, ih _ (by simp [← h]; omega) (xs.drop (b + 1)) rfl, List.map_take, List.map_drop]

/-- The generator loop on a sequence of units of equal size. -/
theorem streamLoop_units {α β γ : Type} (decode : List α → Except PyErr β) (enc : γ → List α) (dec : List γ → β) (u : Nat)
    (hu : 0 < u) (b : Nat) (xs : List γ) (henc : ∀ c ∈ xs, (enc c).length = u)
    (hdec : ∀ g ∈ groups b xs, decode (g.flatMap enc) = .ok (dec g)) :
    streamLoop decode ((b + 1) * u) (xs.flatMap enc) = ((groups b xs).map dec, none) := by
  induction h : xs.length using Nat.strongRecOn generalizing xs with
  | ind n ih =>
    obtain ⟨ht, hd⟩ := take_flatMap_const enc u xs (b + 1) henc
    rw [streamLoop]
    by_cases h' : xs = []
    · subst h'
      simp [groups]
    · have hpos : 0 < xs.length := List.length_pos_iff.mpr h'
      have hg : groups b xs = xs.take (b + 1) :: groups b (xs.drop (b + 1)) := by rw [groups, dif_neg h']
      have hne : (xs.flatMap enc).take ((b + 1) * u) ≠ [] := by
        rw [ht]
        intro hc
        have := congrArg List.length hc
        rw [flatMap_length_const' enc u _ (fun a ha => henc a (List.mem_of_mem_take ha))] at this
        simp at this
        rcases this with h | h
        · omega
        · exact h' h
      rw [dif_neg hne, ht, hdec _ (by rw [hg]; simp), hd]
      simp only []
      rw [ih _ (by simp [← h]; omega) (xs.drop (b + 1)) (fun a ha => henc a (List.mem_of_mem_drop ha))
        (fun g hgm => hdec g (by rw [hg]; simp [hgm])) rfl, hg]
      simp

theorem numBatches_units (n b u : Nat) (hu : 0 < u) : numBatches (u * n) (b + 1) u = ((n + b) / (b + 1) : Nat) := by
  unfold numBatches
  rw [Int.fdiv_eq_ediv_of_nonneg _ (by positivity)]
  rcases Nat.eq_zero_or_pos n with rfl | hn
  · have h2 : (0 + b) / (b + 1) = 0 := Nat.div_eq_of_lt (by omega)
    rw [h2]
    have : ((u * 0 : Nat) : ℤ) - 1 = -1 := by simp
    rw [this]
    have hm : (0 : ℤ) < (((b + 1) * u : Nat) : ℤ) := by positivity
    have hk : (-1 : ℤ) / (((b + 1) * u : Nat) : ℤ) = -1 := by
      rw [Int.ediv_eq_iff_of_pos hm]
      constructor <;> omega
    rw [hk]; simp
  · have h1 : ((u * n : Nat) : ℤ) - 1 = ((u * n - 1 : Nat) : ℤ) := by
      have : 0 < u * n := Nat.mul_pos hu hn
      omega
    rw [h1]
    have h2 : (u * n - 1) / ((b + 1) * u) = (n - 1) / (b + 1) := by
      rw [Nat.mul_comm (b + 1) u, ← Nat.div_div_eq_div_mul]
      congr 1
      obtain ⟨m, rfl⟩ : ∃ m, n = m + 1 := ⟨n - 1, by omega⟩
      apply Nat.div_eq_of_lt_le
      · rw [Nat.mul_add, Nat.mul_comm u m]; simp; omega
      · rw [Nat.mul_add, Nat.add_mul, Nat.mul_comm u m]; simp; omega
    rw [← Int.natCast_ediv, h2]
    obtain ⟨m, rfl⟩ : ∃ m, n = m + 1 := ⟨n - 1, by omega⟩
    rw [show m + 1 + b = m + (b + 1) by omega, Nat.add_div_right _ (by omega)]
    simp

end Fp
