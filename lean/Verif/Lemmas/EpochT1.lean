import Verif.Spec.Epoch
import Verif.Lemmas.Raw

/-! Helper lemmas for `Verif/Props/EpochT1.lean`. -/
namespace Fp
open Spec

def encT1 (n : Nat) : Bytes := leBytes 4 (n / 2 ^ 32) ++ leBytes 4 (n % 2 ^ 32)

theorem encT1_length (n : Nat) : (encT1 n).length = 8 := by simp [encT1]

theorem leNat_leBytes4 (n : Nat) (h : n < 2 ^ 32) : leNat (leBytes 4 n) = n := by
  rw [leNat_leBytes]; exact Nat.mod_eq_of_lt (by simpa using h)

theorem t1Step_enc (n : Nat) (h0 : n ≠ 0) (h : n < 2 ^ 64) (rest : Bytes) (acc : List (Nat × Nat)) :
    t1Step { rest := encT1 n ++ rest, acc := acc } =
      .inl { rest := rest, acc := acc ++ [(n / 1024, n % 16)] } := by
  have e1 : (encT1 n ++ rest).take 4 = leBytes 4 (n / 2 ^ 32) := by
    rw [encT1, List.append_assoc, List.take_append_of_le_length (by simp), List.take_of_length_le (by simp)]
  have e2 : (encT1 n ++ rest).drop 4 = leBytes 4 (n % 2 ^ 32) ++ rest := by
    rw [encT1, List.append_assoc, List.drop_append_of_le_length (by simp), List.drop_of_length_le (by simp), List.nil_append]
  have e3 : (leBytes 4 (n % 2 ^ 32) ++ rest).take 4 = leBytes 4 (n % 2 ^ 32) := by
    rw [List.take_append_of_le_length (by simp), List.take_of_length_le (by simp)]
  have e4 : (encT1 n ++ rest).drop 8 = rest := by
    rw [List.drop_append_of_le_length (by simp [encT1]), List.drop_of_length_le (by simp [encT1]), List.nil_append]
  unfold t1Step
  simp only [e1, e2, e3, e4]
  rw [leNat_leBytes4 _ (by omega), leNat_leBytes4 _ (by omega), shl_eq, Nat.div_add_mod' n (2 ^ 32), if_neg h0, and15, shr_eq,
    show (2 : Nat) ^ 10 = 1024 from rfl]

theorem t1_loop (lines : List Nat) (h : ∀ n ∈ lines, n ≠ 0 ∧ n < 2 ^ 64) (tail : Bytes) (acc : List (Nat × Nat))
    (fuel : Nat) :
    runLoop t1Step (lines.length + fuel) { rest := lines.flatMap encT1 ++ tail, acc := acc } =
      runLoop t1Step fuel { rest := tail, acc := acc ++ lines.map (fun n => (n / 1024, n % 16)) } := by
  induction lines generalizing acc with
  | nil => simp
  | cons n ns ih =>
    rw [List.length_cons, show ns.length + 1 + fuel = (ns.length + fuel) + 1 by omega, runLoop, List.flatMap_cons,
      List.append_assoc, t1Step_enc n (h n (by simp)).1 (h n (by simp)).2]
    simp only []
    rw [ih (fun m hm => h m (by simp [hm]))]
    simp

theorem t1_terminates (fuel : Nat) (s : T1State) (hf : s.rest.length < fuel) :
    ∃ r, runLoop t1Step fuel s = some r := by
  induction fuel generalizing s with
  | zero => omega
  | succ n ih =>
    rw [runLoop]
    by_cases h0 : s.rest = []
    · have : t1Step s = .inr s.acc := by
        unfold t1Step; simp [h0, leNat]
      rw [this]; exact ⟨_, rfl⟩
    · have hl : 0 < s.rest.length := List.length_pos_iff.mpr h0
      unfold t1Step
      simp only []
      split_ifs
      · exact ⟨_, rfl⟩
      · apply ih
        simp only [List.length_drop]
        omega

theorem headWord_get (ws : List Nat) (hw : ∀ w ∈ ws, w < 2 ^ 32) (i : Nat) (hi : i < ws.length) :
    headWord (ws.flatMap (leBytes 4)) i = ws[i] := by
  induction ws generalizing i with
  | nil => simp at hi
  | cons w ws ih =>
    cases i with
    | zero =>
      simp only [headWord, Nat.mul_zero, List.drop_zero, List.flatMap_cons, List.getElem_cons_zero]
      rw [List.take_append_of_le_length (by simp), List.take_of_length_le (by simp), leNat_leBytes4 _ (hw w (by simp))]
    | succ i =>
      simp only [List.length_cons, Nat.succ_lt_succ_iff] at hi
      rw [List.getElem_cons_succ, ← ih (fun w hw' => hw w (by simp [hw'])) i hi]
      simp only [headWord, List.flatMap_cons]
      have hd : (leBytes 4 w ++ ws.flatMap (leBytes 4)).drop 4 = ws.flatMap (leBytes 4) := by
        rw [List.drop_append_of_le_length (by simp), List.drop_of_length_le (by simp), List.nil_append]
      rw [show 4 * (i + 1) = 4 + 4 * i by ring, ← List.drop_drop, hd]

theorem t1_header (epoch n : Nat) (he : epoch < 2 ^ 32) (hn : n < 2 ^ 32) (rest : Bytes) :
    ∃ hd, readT1Header ((leBytes 4 0x101 ++ leBytes 4 epoch ++ leBytes 4 n ++ leBytes 4 49 ++ leBytes 4 4) ++ rest) =
      .ok hd ∧ hd.epoch = epoch ∧ hd.length = n ∧
      (((leBytes 4 0x101 ++ leBytes 4 epoch ++ leBytes 4 n ++ leBytes 4 49 ++ leBytes 4 4) ++ rest).drop 20 = rest) := by
  have hh : (leBytes 4 0x101 ++ leBytes 4 epoch ++ leBytes 4 n ++ leBytes 4 49 ++ leBytes 4 4) =
      [0x101, epoch, n, 49, 4].flatMap (leBytes 4) := by simp
  rw [hh]
  have hlen : ([0x101, epoch, n, 49, 4].flatMap (leBytes 4)).length = 20 := by simp
  have hlt : ∀ w ∈ [0x101, epoch, n, 49, 4], w < 2 ^ 32 := by
    intro w hw
    simp only [List.mem_cons, List.not_mem_nil, or_false] at hw
    rcases hw with rfl | rfl | rfl | rfl | rfl <;> omega
  unfold readT1Header
  simp only []
  rw [List.take_append_of_le_length (by omega), List.take_of_length_le (by omega), if_pos hlen]
  refine ⟨_, rfl, ?_, ?_, ?_⟩
  · exact headWord_get _ hlt 1 (by simp)
  · exact headWord_get _ hlt 2 (by simp)
  · rw [List.drop_append_of_le_length (by omega), List.drop_of_length_le (by omega), List.nil_append]

def lineT1 (epoch : Nat) (e : Nat × Nat) : Nat := t1Time epoch e.1 * 2 ^ 10 + e.2

theorem lineT1_props (epoch : Nat) (e : Nat × Nat) (hv : T1Valid e) :
    lineT1 epoch e < 2 ^ 64 ∧ (lineT1 epoch e = 0 ↔ ZeroEvent epoch e) ∧
      lineT1 epoch e / 1024 = t1Time epoch e.1 ∧ lineT1 epoch e % 16 = e.2 := by
  obtain ⟨h1, h2⟩ := hv
  unfold lineT1 t1Time ZeroEvent
  have h3 : epoch % 2 ^ 17 < 2 ^ 17 := Nat.mod_lt _ (by norm_num)
  generalize epoch % 2 ^ 17 = ep at *
  refine ⟨by omega, by omega, by omega, by omega⟩

theorem t1File_eq (epoch : Nat) (evs : List (Nat × Nat)) :
    t1File epoch evs = (leBytes 4 0x101 ++ leBytes 4 epoch ++ leBytes 4 evs.length ++ leBytes 4 49 ++ leBytes 4 4) ++
      ((evs.map (lineT1 epoch)).flatMap encT1 ++ (leBytes 4 0 ++ leBytes 4 0)) := by
  unfold t1File
  rw [List.append_assoc, List.flatMap_map]
  rfl

theorem leNat_zeros (k : Nat) : leNat (List.replicate k 0) = 0 := by
  induction k with
  | zero => rfl
  | succ k ih => simp [List.replicate_succ, leNat, ih]

theorem t1Step_zeros (k : Nat) (acc : List (Nat × Nat)) (rest : Bytes) (hk : 8 ≤ k ∨ rest = []) :
    t1Step { rest := List.replicate k 0 ++ rest, acc := acc } = .inr acc := by
  unfold t1Step
  simp only []
  have h1 : ∀ (a : Bytes), (∀ x ∈ a, x = 0) → leNat a = 0 := by
    intro a ha
    rw [List.eq_replicate_of_mem ha, leNat_zeros]
  have h2 : ∀ x ∈ (List.replicate k (0 : UInt8) ++ rest).take 8, x = 0 := by
    intro x hx
    rcases hk with hk | rfl
    · rw [List.take_append_of_le_length (by simpa using hk)] at hx
      exact List.eq_of_mem_replicate (List.mem_of_mem_take hx)
    · rw [List.append_nil] at hx
      exact List.eq_of_mem_replicate (List.mem_of_mem_take hx)
  rw [h1 _ (fun x hx => h2 x ?_), h1 _ (fun x hx => h2 x ?_)]
  · simp
  · have : ((List.replicate k (0 : UInt8) ++ rest).drop 4).take 4 = ((List.replicate k 0 ++ rest).take 8).drop 4 := by
      rw [List.drop_take]
    rw [this] at hx
    exact List.mem_of_mem_drop hx
  · have : (List.replicate k (0 : UInt8) ++ rest).take 4 = ((List.replicate k 0 ++ rest).take 8).take 4 := by
      rw [List.take_take]; rfl
    rw [this] at hx
    exact List.mem_of_mem_take hx

/-- Reading a T1 header followed by events and anything at which the loop stops. -/
theorem readT1_run (epoch : Nat) (he : epoch < 2 ^ 32) (len : Nat) (hlen : len < 2 ^ 32) (lines : List Nat)
    (hl : ∀ n ∈ lines, n ≠ 0 ∧ n < 2 ^ 64) (tail : Bytes) (hstop : ∀ acc, t1Step { rest := tail, acc := acc } = .inr acc)
    (full : Bool) (res : Tsres) (frac : Bool) :
    Returns (fun fuel => readT1 fuel full res frac
      ((leBytes 4 0x101 ++ leBytes 4 epoch ++ leBytes 4 len ++ leBytes 4 49 ++ leBytes 4 4) ++ (lines.flatMap encT1 ++ tail)))
      (if len ≠ 0 ∧ lines.length ≠ len then .error .valueError
       else .ok (lines.map fun n => (t1Convert epoch full res frac (n / 1024), n % 16))) := by
  refine ⟨lines.length + 1, fun fuel hf => ?_⟩
  obtain ⟨hd, h1, h2, h3, h4⟩ := t1_header epoch len he hlen (lines.flatMap encT1 ++ tail)
  unfold readT1
  rw [h1]
  simp only []
  rw [h4]
  obtain ⟨k, rfl⟩ : ∃ k, fuel = lines.length + (k + 1) := ⟨fuel - lines.length - 1, by omega⟩
  rw [t1_loop lines hl, runLoop, hstop]
  simp only [List.nil_append, List.length_map, List.map_map, h2, h3]
  split_ifs
  · rfl
  · rfl

theorem t1Event_eq (m t d : Nat) (h : (m + t) * 2 ^ 10 + d < 2 ^ 64) :
    t1Event (m : Int) (t : Int) (d : Int) =
      .ok (leBytes 4 (((m + t) * 2 ^ 10 + d) / 2 ^ 32) ++ leBytes 4 (((m + t) * 2 ^ 10 + d) % 2 ^ 32)) := by
  unfold t1Event
  simp only []
  have hev : ((m : Int) + (t : Int)) * 2 ^ 10 + (d : Int) = (((m + t) * 2 ^ 10 + d : Nat) : Int) := by
    omega
  rw [hev]
  generalize (m + t) * 2 ^ 10 + d = n at h
  rw [if_pos ⟨Int.natCast_nonneg _, by omega⟩, Int.toNat_natCast]

theorem t1Events_eq (m : Int) (enc : Nat × Nat → Bytes) (es : List (Nat × Nat))
    (hes : ∀ e ∈ es, t1Event m (e.1 : Int) (e.2 : Int) = .ok (enc e)) :
    t1Events m ((es.map fun e => (e.1 : Int)).zip (es.map fun e => (e.2 : Int))) = (es.flatMap enc, none) := by
  induction es with
  | nil => rfl
  | cons e es ih =>
    simp only [List.map_cons, List.zip_cons_cons, t1Events]
    rw [hes e (by simp)]
    simp only []
    rw [ih (fun e he => hes e (by simp [he])), List.flatMap_cons]

end Fp
