import Verif.Model.Py
import Mathlib.Tactic.Ring
import Mathlib.Tactic.Linarith

/-! Helper lemmas about bytes, words and rows. -/
namespace Fp

@[simp] theorem leBytes_length (k n : Nat) : (leBytes k n).length = k := by
  induction k generalizing n with
  | zero => rfl
  | succ k ih => simp [leBytes, ih]

theorem leNat_lt (bs : Bytes) : leNat bs < 256 ^ bs.length := by
  induction bs with
  | nil => simp [leNat]
  | cons b bs ih =>
    have := b.toNat_lt
    simp only [leNat, List.length_cons, Nat.pow_succ]
    omega

theorem leNat_leBytes (k n : Nat) : leNat (leBytes k n) = n % 256 ^ k := by
  induction k generalizing n with
  | zero => simp [leBytes, leNat, Nat.mod_one]
  | succ k ih =>
    simp only [leBytes, leNat, ih]
    have h1 : (UInt8.ofNat (n % 256)).toNat = n % 256 := by
      simp
    rw [h1, Nat.pow_succ, Nat.mul_comm (256 ^ k) 256, Nat.mod_mul]

theorem leBytes_leNat (bs : Bytes) : leBytes bs.length (leNat bs) = bs := by
  induction bs with
  | nil => rfl
  | cons b bs ih =>
    have hb := b.toNat_lt
    simp only [List.length_cons, leBytes, leNat]
    have h1 : (b.toNat + 256 * leNat bs) % 256 = b.toNat := by omega
    have h2 : (b.toNat + 256 * leNat bs) / 256 = leNat bs := by omega
    rw [h1, h2, ih]
    simp

theorem leBytes_append (j k n : Nat) : leBytes (j + k) n = leBytes j n ++ leBytes k (n / 256 ^ j) := by
  induction j generalizing n with
  | zero => simp [leBytes]
  | succ j ih =>
    rw [Nat.add_right_comm, leBytes, ih, leBytes, List.cons_append, Nat.div_div_eq_div_mul, Nat.pow_succ,
      Nat.mul_comm (256 ^ j) 256]

theorem leBytes_mod (k n : Nat) : leBytes k (n % 256 ^ k) = leBytes k n := by
  have h1 := leBytes_leNat (leBytes k n)
  rw [leBytes_length, leNat_leBytes] at h1
  exact h1

/-- Eight bytes are two words. -/
theorem leBytes_eight (n : Nat) : leBytes 8 n = leBytes 4 (n % 2 ^ 32) ++ leBytes 4 (n / 2 ^ 32) := by
  rw [show (8 : Nat) = 4 + 4 from rfl, leBytes_append]
  have := leBytes_mod 4 n
  rw [show (256 : Nat) ^ 4 = 2 ^ 32 from rfl] at *
  rw [this]

theorem words32_leBytes (n : Nat) (h : n < 2 ^ 32) (rest : Bytes) :
    words32 (leBytes 4 n ++ rest) = n :: words32 rest := by
  have h1 : leNat (leBytes 4 n) = n := by
    rw [leNat_leBytes]; exact Nat.mod_eq_of_lt (by simpa using h)
  simp only [leBytes] at h1 ⊢
  simp only [List.cons_append, List.nil_append, words32]
  rw [h1]

/-- The bytes of a row of two 32-bit words. -/
def rowBytes (r : Nat × Nat) : Bytes := leBytes 4 r.1 ++ leBytes 4 r.2

@[simp] theorem rowBytes_length (r : Nat × Nat) : (rowBytes r).length = 8 := by simp [rowBytes]

/-- Both words fit into 32 bits. -/
def RowOk (r : Nat × Nat) : Prop := r.1 < 2 ^ 32 ∧ r.2 < 2 ^ 32

theorem flatMap_rowBytes_length (rows : List (Nat × Nat)) : (rows.flatMap rowBytes).length = 8 * rows.length := by
  induction rows with
  | nil => rfl
  | cons r rs ih => simp [List.flatMap_cons, ih]; omega

theorem words32_rows (rows : List (Nat × Nat)) (h : ∀ r ∈ rows, RowOk r) (rest : Bytes) :
    words32 (rows.flatMap rowBytes ++ rest) = rows.flatMap (fun r => [r.1, r.2]) ++ words32 rest := by
  induction rows with
  | nil => simp
  | cons r rs ih =>
    have hr := h r (by simp)
    rw [List.flatMap_cons, List.flatMap_cons, rowBytes, List.append_assoc, List.append_assoc,
      words32_leBytes _ hr.1, words32_leBytes _ hr.2, ih (fun r hr => h r (by simp [hr]))]
    rfl

theorem reshape2_rows {α : Type} (rows : List (α × α)) :
    reshape2 (rows.flatMap (fun r => [r.1, r.2])) = .ok rows := by
  induction rows with
  | nil => rfl
  | cons r rs ih => simp [List.flatMap_cons, reshape2, ih, pure, Except.pure, bind, Except.bind]

theorem reshape2_rows_one {α : Type} (rows : List (α × α)) (x : α) :
    reshape2 (rows.flatMap (fun r => [r.1, r.2]) ++ [x]) = .error .valueError := by
  induction rows with
  | nil => rfl
  | cons r rs ih => simp [List.flatMap_cons, reshape2, ih, bind, Except.bind]

/-- Every byte string is a sequence of rows followed by fewer than 8 bytes. -/
theorem exists_rows (file : Bytes) :
    ∃ (rows : List (Nat × Nat)) (rest : Bytes), (∀ r ∈ rows, RowOk r) ∧ rest.length = file.length % 8 ∧
      file = rows.flatMap rowBytes ++ rest := by
  suffices H : ∀ n, ∀ file : Bytes, file.length = n →
      ∃ (rows : List (Nat × Nat)) (rest : Bytes), (∀ r ∈ rows, RowOk r) ∧ rest.length = file.length % 8 ∧
        file = rows.flatMap rowBytes ++ rest from H _ file rfl
  intro n
  induction n using Nat.strongRecOn with
  | ind n ih =>
    intro file hlen
    by_cases h8 : file.length < 8
    · exact ⟨[], file, by simp, (Nat.mod_eq_of_lt h8).symm, by simp⟩
    · obtain ⟨rows, rest, hok, hrest, heq⟩ := ih (n - 8) (by omega) (file.drop 8) (by simp; omega)
      refine ⟨(leNat (file.take 4), leNat ((file.drop 4).take 4)) :: rows, rest, ?_, ?_, ?_⟩
      · intro r hr
        rcases List.mem_cons.mp hr with rfl | hr
        · constructor
          · have := leNat_lt (file.take 4)
            rw [List.length_take, Nat.min_eq_left (by omega)] at this
            simpa using this
          · have := leNat_lt ((file.drop 4).take 4)
            rw [List.length_take, List.length_drop, Nat.min_eq_left (by omega)] at this
            simpa using this
        · exact hok r hr
      · rw [hrest, List.length_drop]; omega
      · have e1 : leBytes 4 (leNat (file.take 4)) = file.take 4 := by
          have := leBytes_leNat (file.take 4)
          rwa [List.length_take, Nat.min_eq_left (by omega)] at this
        have e2 : leBytes 4 (leNat ((file.drop 4).take 4)) = (file.drop 4).take 4 := by
          have := leBytes_leNat ((file.drop 4).take 4)
          rwa [List.length_take, List.length_drop, Nat.min_eq_left (by omega)] at this
        rw [List.flatMap_cons, rowBytes, e1, e2, List.append_assoc, ← heq, List.append_assoc]
        have : (file.drop 4).take 4 ++ file.drop 8 = file.drop 4 := by
          have := List.take_append_drop 4 (file.drop 4)
          rwa [List.drop_drop] at this
        rw [this, List.take_append_drop]

theorem words32_short (b : Bytes) (h : b.length < 4) : words32 b = [] := by
  match b, h with
  | [], _ => rfl
  | [_], _ => rfl
  | [_, _], _ => rfl
  | [_, _, _], _ => rfl
  | _ :: _ :: _ :: _ :: _, h => simp at h; omega

end Fp
