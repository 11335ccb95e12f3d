import Verif.Spec.EpochWrite
import Verif.Model.EpochWrite
import Verif.Lemmas.EpochT1

/-! # Properties of `write_T1` for every argument: C107, C108, C109 -/
namespace Fp
open Spec

/-! ## Lemmas -/

theorem t1Start_eq (epoch n : Nat) (ws : List Nat) :
    t1Start epoch n ws = (leBytes 4 0x101 ++ leBytes 4 epoch ++ leBytes 4 n ++ leBytes 4 49 ++ leBytes 4 4) ++ ws.flatMap encT1 := rfl

theorem exists_first_zero (ws : List Nat) (h : 0 ∈ ws) : ∃ pre post, ws = pre ++ 0 :: post ∧ ∀ w ∈ pre, w ≠ 0 := by
  induction ws with
  | nil => simp at h
  | cons w ws ih =>
    by_cases hw : w = 0
    · exact ⟨[], ws, by simp [hw], by simp⟩
    · obtain ⟨pre, post, h1, h2⟩ := ih (by simpa [Ne.symm hw] using h)
      exact ⟨w :: pre, post, by simp [h1], by simpa [hw] using h2⟩

/-- A file with fewer words than its header says is rejected. -/
theorem readT1_short (epoch n : Nat) (he : epoch < 2 ^ 32) (hn : n < 2 ^ 32) (ws : List Nat) (hw : ∀ w ∈ ws, w < 2 ^ 64)
    (hlen : ws.length < n) (full : Bool) (res : Tsres) (frac : Bool) :
    Returns (fun fuel => readT1 fuel full res frac (t1Start epoch n ws)) (.error .valueError) := by
  by_cases hz : 0 ∈ ws
  · obtain ⟨pre, post, rfl, hpre⟩ := exists_first_zero ws hz
    have := readT1_run epoch he n hn pre (fun w hw' => ⟨hpre w hw', hw w (by simp [hw'])⟩)
      (List.replicate 8 0 ++ post.flatMap encT1) (fun acc => t1Step_zeros 8 acc _ (Or.inl le_rfl)) full res frac
    rw [if_pos (by simp at hlen; omega)] at this
    rw [t1Start_eq, List.flatMap_append, List.flatMap_cons]
    exact this
  · have := readT1_run epoch he n hn ws (fun w hw' => ⟨fun h => hz (h ▸ hw'), hw w hw'⟩)
      [] (fun acc => by simpa using t1Step_zeros 0 acc [] (Or.inr rfl)) full res frac
    rw [if_pos (by omega), List.append_nil] at this
    exact this

theorem readT1_words (epoch : Nat) (he : epoch < 2 ^ 32) (ws : List Nat) (hn : ws.length < 2 ^ 32)
    (hw : ∀ w ∈ ws, w ≠ 0 ∧ w < 2 ^ 64) (full : Bool) (res : Tsres) (frac : Bool) :
    Returns (fun fuel => readT1 fuel full res frac (t1Start epoch ws.length ws ++ t1End))
      (.ok (ws.map fun w => (t1Convert epoch full res frac (w / 1024), w % 16))) := by
  have := readT1_run epoch he ws.length hn ws hw (leBytes 4 0 ++ leBytes 4 0)
    (fun acc => by have := t1Step_zeros 8 acc [] (Or.inl le_rfl); simpa [leBytes] using this) full res frac
  rw [if_neg (by simp)] at this
  rw [t1Start_eq, List.append_assoc]
  exact this

theorem t1EventNp_shape (m : Int) (t : TsElem) (d : Int) :
    (∃ w, w < 2 ^ 64 ∧ t1EventNp m t d = .ok (encT1 w)) ∨ t1EventNp m t d = .error .structError ∨
      t1EventNp m t d = .error .typeError := by
  cases t with
  | py t =>
    unfold t1EventNp t1Event
    simp only []
    split_ifs with h
    · exact Or.inl ⟨_, by omega, rfl⟩
    · exact Or.inr (Or.inl rfl)
  | i64 t =>
    unfold t1EventNp
    simp only []
    split_ifs with h
    · refine Or.inl ⟨_, ?_, rfl⟩
      have : wrap64 (wrap64 (wrap64 (m + t) * 2 ^ 10) + d) < 2 ^ 63 := by
        unfold wrap64
        have := Int.bmod_lt (x := Int.bmod (Int.bmod (m + t) (2 ^ 64) * 2 ^ 10) (2 ^ 64) + d) (m := 2 ^ 64) (by norm_num)
        omega
      omega
    · exact Or.inr (Or.inl rfl)
  | u64 n => exact Or.inr (Or.inr rfl)
  | flt q => exact Or.inr (Or.inr rfl)

theorem t1EventsNp_shape (m : Int) (l : List (TsElem × Int)) :
    ∃ ws : List Nat, (∀ w ∈ ws, w < 2 ^ 64) ∧ (t1EventsNp m l).1 = ws.flatMap encT1 ∧
      ((t1EventsNp m l).2 = none ∧ ws.length = l.length ∨
        ((t1EventsNp m l).2 = some .structError ∨ (t1EventsNp m l).2 = some .typeError) ∧ ws.length < l.length) := by
  induction l with
  | nil => exact ⟨[], by simp, rfl, Or.inl ⟨rfl, rfl⟩⟩
  | cons e l ih =>
    obtain ⟨t, d⟩ := e
    unfold t1EventsNp
    rcases t1EventNp_shape m t d with ⟨w, hw, h⟩ | h | h
    · obtain ⟨ws, h1, h2, h3⟩ := ih
      rw [h]
      refine ⟨w :: ws, List.forall_mem_cons.mpr ⟨hw, h1⟩, by simp [h2], ?_⟩
      rcases h3 with h3 | h3
      · exact Or.inl ⟨h3.1, by simp [h3.2]⟩
      · exact Or.inr ⟨h3.1, by simp [h3.2]⟩
    · rw [h]
      exact ⟨[], by simp, rfl, Or.inr ⟨Or.inl rfl, by simp⟩⟩
    · rw [h]
      exact ⟨[], by simp, rfl, Or.inr ⟨Or.inr rfl, by simp⟩⟩

theorem epoch_bits (epoch : Int) : (epoch % 2 ^ 32).toNat < 2 ^ 32 := by
  have := Int.emod_lt_of_pos epoch (show (0 : Int) < 2 ^ 32 by norm_num)
  have := Int.emod_nonneg epoch (show (2 ^ 32 : Int) ≠ 0 by norm_num)
  omega

theorem epoch_mask (epoch : Int) :
    (((((epoch % 2 ^ 32).toNat &&& ((1 <<< 17) - 1)) <<< (32 + 5) : Nat) : Int)) = epoch % 2 ^ 17 * 2 ^ 37 := by
  rw [shl_eq, show ((1 <<< 17) - 1 : Nat) = 2 ^ 17 - 1 from rfl, Nat.and_two_pow_sub_one_eq_mod, show 32 + 5 = 37 from rfl]
  have := Int.emod_nonneg epoch (show (2 ^ 32 : Int) ≠ 0 by norm_num)
  omega

/-- The detectors as a list. -/
def Detectors.toList (n : Nat) : Detectors → List Int
  | .scalar d => List.replicate n d
  | .list ds => ds

theorem writeT1Np_eq (epoch : Int) (ts : List TsElem) (ds : Detectors) (h : (ds.toList ts.length).length = ts.length) :
    writeT1Np epoch ts ds = .ok (
      if ts.length < 2 ^ 32 then
        let r := t1EventsNp (epoch % 2 ^ 17 * 2 ^ 37) (ts.zip (ds.toList ts.length))
        match r.2 with
        | some e => (hexOf (epoch % 2 ^ 32).toNat, t1Start (epoch % 2 ^ 32).toNat ts.length [] ++ r.1, some e)
        | none => (hexOf (epoch % 2 ^ 32).toNat, t1Start (epoch % 2 ^ 32).toNat ts.length [] ++ r.1 ++ t1End, none)
      else (hexOf (epoch % 2 ^ 32).toNat, [], some .structError)) := by
  cases ds with
  | scalar d =>
    unfold writeT1Np Detectors.toList t1Start t1End
    simp only [epoch_mask, List.flatMap_nil, List.append_nil]
    rfl
  | list ds =>
    unfold writeT1Np Detectors.toList t1Start t1End
    simp only [Detectors.toList] at h
    simp only [epoch_mask, List.flatMap_nil, List.append_nil, h, ne_eq, not_true_eq_false, if_false]
    rfl

theorem t1Start_append (epoch n : Nat) (ws : List Nat) : t1Start epoch n [] ++ ws.flatMap encT1 = t1Start epoch n ws := by
  simp [t1Start_eq]

theorem writeT1Np_list_length {epoch : Int} {ts : List TsElem} {ds : Detectors} {r} (h : writeT1Np epoch ts ds = .ok r) :
    (ds.toList ts.length).length = ts.length := by
  cases ds with
  | scalar d => simp [Detectors.toList]
  | list ds =>
    by_contra hc
    unfold writeT1Np at h
    simp only [Detectors.toList] at hc
    simp [hc] at h

/-- `write_T1` on Python integers is the function of `Model/Epoch.lean`. -/
theorem writeT1Np_py (epoch : Int) (ts : List Int) (ds : Detectors) : writeT1Np epoch (ts.map .py) ds = writeT1 epoch ts ds := by
  have h : ∀ (m : Int) (ts ds : List Int), t1EventsNp m ((ts.map .py).zip ds) = t1Events m (ts.zip ds) := by
    intro m ts
    induction ts with
    | nil => intro ds; rfl
    | cons t ts ih =>
      intro ds
      cases ds with
      | nil => rfl
      | cons d ds =>
        simp only [List.map_cons, List.zip_cons_cons]
        unfold t1EventsNp t1Events
        simp only [t1EventNp, ih]
        rfl
  unfold writeT1Np writeT1
  simp only [List.length_map, h]
  rfl

/-! ## C107 -/

/-- **C107**: whatever the arguments, if `write_T1` raises after it has opened the file (`struct.error` or `TypeError`), then
`read_T1` raises on the file left behind, in every mode. -/
theorem C107_failed_write (epoch : Int) (ts : List TsElem) (ds : Detectors) (name : List Char) (file : Bytes) (e : PyErr)
    (h : writeT1Np epoch ts ds = .ok (name, file, some e)) (full : Bool) (res : Tsres) (frac : Bool) :
    (e = .structError ∨ e = .typeError) ∧
      ∃ e', Returns (fun fuel => readT1 fuel full res frac file) (.error e') := by
  have hl := writeT1Np_list_length h
  rw [writeT1Np_eq _ _ _ hl, Except.ok.injEq] at h
  split_ifs at h with hn
  · obtain ⟨ws, h1, h2, h3⟩ := t1EventsNp_shape (epoch % 2 ^ 17 * 2 ^ 37) (ts.zip (ds.toList ts.length))
    have hz : (ts.zip (ds.toList ts.length)).length = ts.length := by rw [List.length_zip, hl, min_self]
    rw [hz] at h3
    have key : ∀ e0, (t1EventsNp (epoch % 2 ^ 17 * 2 ^ 37) (ts.zip (ds.toList ts.length))).2 = some e0 →
        ws.length < ts.length → e0 = e ∧ ∃ e', Returns (fun fuel => readT1 fuel full res frac file) (.error e') := by
      intro e0 h4 h5
      simp only [h4, Prod.mk.injEq, Option.some.injEq] at h
      refine ⟨h.2.2, .valueError, ?_⟩
      rw [← h.2.1, h2, t1Start_append]
      exact readT1_short _ _ (epoch_bits epoch) hn ws h1 h5 full res frac
    rcases h3 with h3 | ⟨h3 | h3, h4⟩
    · simp only [h3.1, Prod.mk.injEq, reduceCtorEq, and_false] at h
    · obtain ⟨rfl, h5⟩ := key _ h3 h4
      exact ⟨Or.inl rfl, h5⟩
    · obtain ⟨rfl, h5⟩ := key _ h3 h4
      exact ⟨Or.inr rfl, h5⟩
  · simp only [Prod.mk.injEq, Option.some.injEq] at h
    refine ⟨Or.inl h.2.2.symm, .structError, 0, fun fuel _ => ?_⟩
    rw [← h.2.1]
    rfl

theorem t1Event_word (epoch t d : Int) :
    (T1Fits epoch (t, d) → t1Event (epoch % 2 ^ 17 * 2 ^ 37) t d = .ok (encT1 (t1Word epoch t d).toNat)) ∧
      (¬ T1Fits epoch (t, d) → t1Event (epoch % 2 ^ 17 * 2 ^ 37) t d = .error .structError) := by
  unfold T1Fits t1Event t1Word
  constructor
  · intro h; rw [if_pos h]; rfl
  · intro h; rw [if_neg h]

theorem t1Events_fit (epoch : Int) (l : List (Int × Int)) (h : ∀ e ∈ l, T1Fits epoch e) :
    t1Events (epoch % 2 ^ 17 * 2 ^ 37) l = ((l.map fun e => (t1Word epoch e.1 e.2).toNat).flatMap encT1, none) := by
  induction l with
  | nil => rfl
  | cons e l ih =>
    obtain ⟨t, d⟩ := e
    unfold t1Events
    rw [(t1Event_word epoch t d).1 (h _ (by simp)), ih (fun e he => h e (by simp [he]))]
    rfl

theorem t1Events_bad (epoch : Int) (pre : List (Int × Int)) (b : Int × Int) (post : List (Int × Int))
    (h : ∀ e ∈ pre, T1Fits epoch e) (hb : ¬ T1Fits epoch b) :
    t1Events (epoch % 2 ^ 17 * 2 ^ 37) (pre ++ b :: post) =
      ((pre.map fun e => (t1Word epoch e.1 e.2).toNat).flatMap encT1, some .structError) := by
  induction pre with
  | nil =>
    obtain ⟨t, d⟩ := b
    rw [List.nil_append]
    unfold t1Events
    rw [(t1Event_word epoch t d).2 hb]
    rfl
  | cons e l ih =>
    obtain ⟨t, d⟩ := e
    rw [List.cons_append]
    unfold t1Events
    rw [(t1Event_word epoch t d).1 (h _ (by simp)), ih (fun e he => h e (by simp [he]))]
    rfl

theorem writeT1_eq (epoch : Int) (evs : List (Int × Int)) (hn : evs.length < 2 ^ 32) :
    writeT1 epoch (evs.map Prod.fst) (.list (evs.map Prod.snd)) = .ok (
        let r := t1Events (epoch % 2 ^ 17 * 2 ^ 37) evs
        match r.2 with
        | some e => (hexOf (epoch % 2 ^ 32).toNat, t1Start (epoch % 2 ^ 32).toNat evs.length [] ++ r.1, some e)
        | none => (hexOf (epoch % 2 ^ 32).toNat, t1Start (epoch % 2 ^ 32).toNat evs.length [] ++ r.1 ++ t1End, none)) := by
  have hz : ∀ evs : List (Int × Int), (evs.map Prod.fst).zip (evs.map Prod.snd) = evs := by
    intro evs
    induction evs with
    | nil => rfl
    | cons e l ih => simp [ih]
  unfold writeT1 t1Start t1End
  simp only [epoch_mask, List.flatMap_nil, List.append_nil, List.length_map, ne_eq, not_true_eq_false, if_false, hn, if_true, hz]
  rfl

/-- **C107** (success): for any integers, if the word of every event fits into 64 bits then `write_T1` succeeds, and the file
holds the words of all events in order. -/
theorem C107_stored (epoch : Int) (evs : List (Int × Int)) (hn : evs.length < 2 ^ 32) (h : ∀ e ∈ evs, T1Fits epoch e) :
    writeT1 epoch (evs.map Prod.fst) (.list (evs.map Prod.snd)) =
      .ok (int2epoch (epoch % 2 ^ 32), t1Start (epoch % 2 ^ 32).toNat evs.length
        (evs.map fun e => (t1Word epoch e.1 e.2).toNat) ++ t1End, none) := by
  rw [writeT1_eq epoch evs hn, t1Events_fit epoch evs h]
  simp only [t1Start_append, int2epoch, Int.emod_nonneg epoch (show (2 ^ 32 : Int) ≠ 0 by norm_num), if_true]

/-- **C107** (failure): for any integers, if the word of an event does not fit into 64 bits then `write_T1` raises
`struct.error` at the first such event, after the words of the events before it. -/
theorem C107_refused (epoch : Int) (pre : List (Int × Int)) (b : Int × Int) (post : List (Int × Int))
    (hn : (pre ++ b :: post).length < 2 ^ 32) (h : ∀ e ∈ pre, T1Fits epoch e) (hb : ¬ T1Fits epoch b) :
    writeT1 epoch ((pre ++ b :: post).map Prod.fst) (.list ((pre ++ b :: post).map Prod.snd)) =
      .ok (int2epoch (epoch % 2 ^ 32), t1Start (epoch % 2 ^ 32).toNat (pre ++ b :: post).length
        (pre.map fun e => (t1Word epoch e.1 e.2).toNat), some .structError) := by
  rw [writeT1_eq epoch _ hn, t1Events_bad epoch pre b post h hb]
  simp only [t1Start_append, int2epoch, Int.emod_nonneg epoch (show (2 ^ 32 : Int) ≠ 0 by norm_num), if_true]

/-- A failing call: the second event comes before the start of the first epoch. -/
example : (writeT1Np 0 [.py 5, .py (-1), .py 7] (.scalar 1)).toOption.map (fun r => (r.2.1.length, r.2.2)) =
    some (28, some .structError) := by
  decide +kernel

/-! ## C108 -/

/-- **C108** (what is stored): `write_T1` succeeds exactly when the words of all events fit into 64 bits. -/
theorem C108_success_iff_partial (epoch : Int) (evs : List (Int × Int)) (hn : evs.length < 2 ^ 32) :
    (∃ name file, writeT1 epoch (evs.map Prod.fst) (.list (evs.map Prod.snd)) = .ok (name, file, none)) ↔
      ∀ e ∈ evs, T1Fits epoch e := by
  constructor
  · rintro ⟨name, file, h⟩
    by_contra hc
    obtain ⟨pre, b, post, rfl, hpre, hb⟩ : ∃ pre b post, evs = pre ++ b :: post ∧ (∀ e ∈ pre, T1Fits epoch e) ∧ ¬ T1Fits epoch b := by
      clear h hn
      induction evs with
      | nil => simp at hc
      | cons e l ih =>
        by_cases he : T1Fits epoch e
        · obtain ⟨pre, b, post, h1, h2, h3⟩ := ih (fun h => hc (by
            intro x hx
            rcases List.mem_cons.mp hx with rfl | hx
            · exact he
            · exact h x hx))
          refine ⟨e :: pre, b, post, by rw [h1]; rfl, ?_, h3⟩
          intro x hx
          rcases List.mem_cons.mp hx with rfl | hx
          · exact he
          · exact h2 x hx
        · exact ⟨[], e, l, rfl, by simp, he⟩
    rw [C107_refused epoch pre b post hn hpre hb] at h
    simp at h
  · intro h
    exact ⟨_, _, C107_stored epoch evs hn h⟩

/-- **C108** (what is read back): if the words of all events fit and none is zero, `read_T1` returns for each event bits 10 to
63 of its word as the time and bits 0 to 3 as the detectors. -/
theorem C108_read_back_partial (epoch : Int) (evs : List (Int × Int)) (hn : evs.length < 2 ^ 32) (h : ∀ e ∈ evs, T1Fits epoch e)
    (hz : ∀ e ∈ evs, t1Word epoch e.1 e.2 ≠ 0) :
    ∃ name file, writeT1 epoch (evs.map Prod.fst) (.list (evs.map Prod.snd)) = .ok (name, file, none) ∧
      Returns (fun fuel => readT1 fuel false .ps4 false file)
        (.ok (evs.map fun e => (.u64 (t1Word epoch e.1 e.2 / 1024).toNat, (t1Word epoch e.1 e.2 % 16).toNat))) := by
  refine ⟨_, _, C107_stored epoch evs hn h, ?_⟩
  have := readT1_words (epoch % 2 ^ 32).toNat (epoch_bits epoch) (evs.map fun e => (t1Word epoch e.1 e.2).toNat)
    (by rwa [List.length_map]) (by
      intro w hw
      obtain ⟨e, he, rfl⟩ := List.mem_map.mp hw
      have := h e he
      have := hz e he
      unfold T1Fits at *
      omega) false .ps4 false
  rw [List.length_map, List.map_map] at this
  convert this using 2
  apply List.map_congr_left
  intro e he
  have h1 := (h e he).1
  have hb : bitdiff Tsres.ps4.value Tsres.ps4.value = 0 := rfl
  simp only [Function.comp, t1Convert, hb, Nat.shiftRight_zero, Bool.false_eq_true, if_false, and_false, Prod.mk.injEq, ENum.u64.injEq]
  constructor <;> omega

/-- **C108** is violated: times of 37 bits or more and detectors of more than 4 bits are accepted and read back altered.  An
event one epoch late is stored as an event of the next epoch, with its time still right; detector 17 is read back as 1; and
detector 1024 moves the event by one unit and loses its detector. -/
theorem C108_violated : ¬ ∀ (epoch : Int) (evs : List (Int × Int)), evs.length < 2 ^ 32 →
    (∃ name file, writeT1 epoch (evs.map Prod.fst) (.list (evs.map Prod.snd)) = .ok (name, file, none)) →
      ∀ e ∈ evs, 0 ≤ e.1 ∧ e.1 < 2 ^ 37 ∧ 0 ≤ e.2 ∧ e.2 < 16 := by
  intro h
  have := h 5 [(9, 17)] (by norm_num) ((C108_success_iff_partial 5 [(9, 17)] (by norm_num)).mpr (by
    intro e he
    simp only [List.mem_singleton] at he
    subst he
    unfold T1Fits t1Word
    norm_num))
  have := this (9, 17) (by simp)
  omega

/-- **C108**: the altered events, for every epoch prefix. -/
theorem C108_altered (epoch t d : Int) (he : 0 ≤ epoch ∧ epoch < 2 ^ 17) (ht : 0 ≤ t ∧ t < 2 ^ 37) (hd : 0 < d ∧ d < 16) :
    (∀ x, 16 ≤ x ∧ x < 1024 → t1Word epoch t x / 1024 = epoch * 2 ^ 37 + t ∧ t1Word epoch t x % 16 = x % 16) ∧
    (∀ k, 0 < k ∧ epoch + k < 2 ^ 17 → t1Word epoch (k * 2 ^ 37 + t) d = t1Word (epoch + k) t d ∧ T1Fits epoch (k * 2 ^ 37 + t, d)) ∧
    (0 < t → t1Word epoch (t - 1) (d + 1024) = t1Word epoch t d ∧ T1Fits epoch (t - 1, d + 1024)) := by
  unfold T1Fits t1Word
  have h0 : epoch % 2 ^ 17 = epoch := Int.emod_eq_of_lt he.1 he.2
  simp only [h0]
  refine ⟨fun x hx => ⟨by omega, by omega⟩, fun k hk => ?_, fun h => ⟨by omega, by omega, by omega⟩⟩
  have h1 : (epoch + k) % 2 ^ 17 = epoch + k := Int.emod_eq_of_lt (by omega) hk.2
  rw [h1]
  exact ⟨by ring, by omega, by omega⟩

example : (0 : Int) ≤ 0x1abcd ∧ (0x1abcd : Int) < 2 ^ 17 ∧ (0x1abcd : Int) + 7 < 2 ^ 17 ∧ T1Fits 0x1abcd (2 ^ 37 + 3, 8) := by
  unfold T1Fits t1Word; norm_num

/-! ## C109 -/

theorem write_first_type_error (epoch : Int) (t : TsElem) (ts : List TsElem) (ht : (∃ n, t = .u64 n) ∨ ∃ q, t = .flt q) (ds : Detectors)
    (hl : (ds.toList (t :: ts).length).length = (t :: ts).length) (hn : (t :: ts).length < 2 ^ 32) :
    writeT1Np epoch (t :: ts) ds =
      .ok (int2epoch (epoch % 2 ^ 32), t1Start (epoch % 2 ^ 32).toNat (t :: ts).length [], some .typeError) := by
  rw [writeT1Np_eq _ _ _ hl, if_pos hn]
  obtain ⟨d, ds', hds⟩ : ∃ d ds', ds.toList (t :: ts).length = d :: ds' := by
    cases h : ds.toList (t :: ts).length with
    | nil => rw [h] at hl; simp at hl
    | cons d ds' => exact ⟨_, _, rfl⟩
  have : ∀ m, t1EventsNp m ((t :: ts).zip (d :: ds')) = ([], some .typeError) := by
    intro m
    rw [List.zip_cons_cons]
    unfold t1EventsNp
    rcases ht with ⟨n, rfl⟩ | ⟨q, rfl⟩ <;> rfl
  rw [hds, this]
  simp only [List.append_nil, int2epoch, Int.emod_nonneg epoch (show (2 ^ 32 : Int) ≠ 0 by norm_num), if_true]

/-- **C109** is violated for `read_a1`: for every non-empty list of events as `read_a1` returns them (in any mode), `write_T1`
raises `TypeError` at the first one and leaves a file with a header only. -/
theorem C109_a1_violated (epoch : Int) (evs : List (Num × Nat)) (h : evs ≠ []) (hn : evs.length < 2 ^ 32) :
    writeT1Np epoch (evs.map fun e => e.1.elem) (.list (evs.map fun e => (e.2 : Int))) =
      .ok (int2epoch (epoch % 2 ^ 32), t1Start (epoch % 2 ^ 32).toNat evs.length [], some .typeError) := by
  obtain ⟨e, es, rfl⟩ := List.exists_cons_of_ne_nil h
  have := write_first_type_error epoch e.1.elem (es.map fun e => e.1.elem) (by
    cases e.1 with
    | u64 n => exact Or.inl ⟨n, rfl⟩
    | flt q => exact Or.inr ⟨q, rfl⟩) (.list ((e :: es).map fun e => (e.2 : Int))) (by simp [Detectors.toList]) (by simpa using hn)
  simpa using this

/-- **C109** for `read_T1`: the events it returns in the mode `full_epoch=True, resolution=PS4, fractional=False` are Python
integers; in all other modes `write_T1` raises `TypeError` at the first event. -/
theorem C109_t1_violated (epoch : Int) (full : Bool) (res : Tsres) (frac : Bool) (hm : ¬ (full = true ∧ res = .ps4 ∧ frac = false))
    (file : Bytes) (evs : List (ENum × Nat)) (h : evs ≠ []) (hn : evs.length < 2 ^ 32)
    (hr : Returns (fun fuel => readT1 fuel full res frac file) (.ok evs)) :
    writeT1Np epoch (evs.map fun e => e.1.elem) (.list (evs.map fun e => (e.2 : Int))) =
      .ok (int2epoch (epoch % 2 ^ 32), t1Start (epoch % 2 ^ 32).toNat evs.length [], some .typeError) := by
  obtain ⟨N, hN⟩ := hr
  have h1 : readT1 N full res frac file = _ := hN N le_rfl
  unfold readT1 at h1
  have hall : ∀ e ∈ evs, (∃ n, e.1.elem = .u64 n) ∨ ∃ q, e.1.elem = .flt q := by
    split at h1
    · simp at h1
    · split at h1
      · simp at h1
      · split_ifs at h1
        · simp at h1
        simp only [Option.some.injEq, Except.ok.injEq] at h1
        intro e he
        rw [← h1] at he
        obtain ⟨x, -, rfl⟩ := List.mem_map.mp he
        unfold t1Convert
        cases frac
        · simp only [Bool.false_eq_true, if_false]
          rw [if_neg (by intro hc; exact hm ⟨hc.2, hc.1, rfl⟩)]
          exact Or.inl ⟨_, rfl⟩
        · exact Or.inr ⟨_, rfl⟩
  obtain ⟨e, es, rfl⟩ := List.exists_cons_of_ne_nil h
  have := write_first_type_error epoch e.1.elem (es.map fun e => e.1.elem) (hall e (by simp))
    (.list ((e :: es).map fun e => (e.2 : Int))) (by simp [Detectors.toList]) (by simpa using hn)
  simpa using this

/-- **C109** for the mode of `read_T1` with Python integers: they are written as in C107 and C108. -/
theorem C109_object_partial (epoch : Int) (evs : List (Nat × Nat)) (ds : Detectors) :
    writeT1Np epoch (evs.map fun e => (ENum.obj e.1).elem) ds = writeT1 epoch (evs.map fun e => (e.1 : Int)) ds := by
  rw [← writeT1Np_py, List.map_map]
  rfl

theorem wrap64_event (m t d : Int) : wrap64 (wrap64 (wrap64 (m + t) * 2 ^ 10) + d) = wrap64 ((m + t) * 2 ^ 10 + d) := by
  unfold wrap64
  rw [Int.bmod_mul_bmod, Int.bmod_add_bmod]

theorem t1EventNp_i64 (epoch t d : Int) (h : T1Fits epoch (t, d)) :
    t1EventNp (epoch % 2 ^ 17 * 2 ^ 37) (.i64 t) d =
      if t1Word epoch t d < 2 ^ 63 then t1EventNp (epoch % 2 ^ 17 * 2 ^ 37) (.py t) d else .error .structError := by
  have h2 : t1EventNp (epoch % 2 ^ 17 * 2 ^ 37) (.py t) d = .ok (encT1 (t1Word epoch t d).toNat) := (t1Event_word epoch t d).1 h
  rw [h2]
  unfold t1EventNp
  simp only [wrap64_event]
  rw [show (epoch % 2 ^ 17 * 2 ^ 37 + t) * 2 ^ 10 + d = t1Word epoch t d from rfl]
  unfold T1Fits at h
  simp only [] at h
  generalize t1Word epoch t d = w at h
  by_cases h3 : w < 2 ^ 63
  · have : wrap64 w = w := by
      unfold wrap64
      exact Int.bmod_eq_of_le (by omega) (by omega)
    rw [this, if_pos h.1, if_pos h3]
    rfl
  · have : wrap64 w = w - 2 ^ 64 := by
      unfold wrap64
      rw [Int.bmod_def]
      have : w % ((2 ^ 64 : Nat) : Int) = w := Int.emod_eq_of_lt h.1 (by simpa using h.2)
      rw [this, if_neg (by omega)]
      norm_num
    rw [this, if_neg (by omega), if_neg h3]

/-- **C109** for `int64`: events of one epoch are written as for Python integers in the first half of the 2^17 epochs of a
prefix. -/
theorem C109_int64_partial (epoch : Int) (evs : List (Nat × Nat)) (hv : ∀ e ∈ evs, T1Valid e) (he : epoch % 2 ^ 17 < 2 ^ 16) (ds : Detectors)
    (hd : ds = .list (evs.map fun e => (e.2 : Int))) :
    writeT1Np epoch (evs.map fun e => .i64 e.1) ds = writeT1 epoch (evs.map fun e => (e.1 : Int)) ds := by
  rw [← writeT1Np_py, List.map_map]
  subst hd
  have hl : ∀ f : Nat × Nat → TsElem, ((Detectors.list (evs.map fun e => (e.2 : Int))).toList (evs.map f).length).length = (evs.map f).length := by
    intro f; simp [Detectors.toList]
  rw [writeT1Np_eq _ _ _ (hl _), writeT1Np_eq _ _ _ (hl _)]
  have : t1EventsNp (epoch % 2 ^ 17 * 2 ^ 37) ((evs.map fun e => TsElem.i64 e.1).zip (evs.map fun e => (e.2 : Int))) =
      t1EventsNp (epoch % 2 ^ 17 * 2 ^ 37) ((evs.map (TsElem.py ∘ fun e => (e.1 : Int))).zip (evs.map fun e => (e.2 : Int))) := by
    clear hl
    induction evs with
    | nil => rfl
    | cons e l ih =>
      simp only [List.map_cons, List.zip_cons_cons, Function.comp]
      unfold t1EventsNp
      have hb := hv e (by simp)
      have h0 := Int.emod_nonneg epoch (show (2 ^ 17 : Int) ≠ 0 by norm_num)
      rw [t1EventNp_i64 epoch e.1 e.2 (by unfold T1Valid at hb; unfold T1Fits t1Word; constructor <;> simp only [] <;> omega),
        if_pos (by unfold T1Valid at hb; unfold t1Word; omega)]
      have := ih (fun e he => hv e (by simp [he]))
      simp only [Function.comp_def] at this ⊢
      rw [this]
  simp only [List.length_map, Detectors.toList]
  rw [this]

/-- **C109** for `int64` is violated in the second half: every non-empty list of events of one epoch is refused. -/
theorem C109_int64_violated (epoch : Int) (evs : List (Nat × Nat)) (hne : evs ≠ []) (hn : evs.length < 2 ^ 32) (hv : ∀ e ∈ evs, T1Valid e)
    (he : 2 ^ 16 ≤ epoch % 2 ^ 17) :
    writeT1Np epoch (evs.map fun e => .i64 e.1) (.list (evs.map fun e => (e.2 : Int))) =
      .ok (int2epoch (epoch % 2 ^ 32), t1Start (epoch % 2 ^ 32).toNat evs.length [], some .structError) := by
  obtain ⟨e, es, rfl⟩ := List.exists_cons_of_ne_nil hne
  rw [writeT1Np_eq _ _ _ (by simp [Detectors.toList]), List.length_map, if_pos hn]
  have hb := hv e (by simp)
  have h0 := Int.emod_lt_of_pos epoch (show (0 : Int) < 2 ^ 17 by norm_num)
  have : t1EventsNp (epoch % 2 ^ 17 * 2 ^ 37) (((e :: es).map fun e => TsElem.i64 e.1).zip ((e :: es).map fun e => (e.2 : Int))) =
      ([], some .structError) := by
    simp only [List.map_cons, List.zip_cons_cons]
    unfold t1EventsNp
    rw [t1EventNp_i64 epoch e.1 e.2 (by unfold T1Valid at hb; unfold T1Fits t1Word; constructor <;> simp only [] <;> omega),
        if_neg (by unfold T1Valid at hb; unfold t1Word; omega)]
  simp only [Detectors.toList]
  rw [this]
  simp only [List.append_nil, int2epoch, Int.emod_nonneg epoch (show (2 ^ 32 : Int) ≠ 0 by norm_num), if_true]

/-- **C109** for `int64`: a time that is too large by a multiple of 2^54 is written like the time without it, silently, while
the Python integer is refused. -/
theorem C109_int64_wraps_violated (epoch : Int) (ts : List (Int × Int)) (ds : Detectors) :
    writeT1Np epoch (ts.map fun t => .i64 (t.1 + t.2 * 2 ^ 54)) ds = writeT1Np epoch (ts.map fun t => .i64 t.1) ds := by
  have h1 : ∀ m t k d, t1EventNp m (.i64 (t + k * 2 ^ 54)) d = t1EventNp m (.i64 t) d := by
    intro m t k d
    unfold t1EventNp
    simp only [wrap64_event]
    have : wrap64 ((m + (t + k * 2 ^ 54)) * 2 ^ 10 + d) = wrap64 ((m + t) * 2 ^ 10 + d) := by
      unfold wrap64
      rw [show (m + (t + k * 2 ^ 54)) * 2 ^ 10 + d = ((m + t) * 2 ^ 10 + d) + k * ((2 ^ 64 : Nat) : Int) by push_cast; ring]
      exact Int.add_mul_bmod_self_right ..
    rw [this]
  have h2 : ∀ m ds, t1EventsNp m ((ts.map fun t => TsElem.i64 (t.1 + t.2 * 2 ^ 54)).zip ds) =
      t1EventsNp m ((ts.map fun t => TsElem.i64 t.1).zip ds) := by
    intro m
    induction ts with
    | nil => intro ds; rfl
    | cons t ts ih =>
      intro ds
      cases ds with
      | nil => rfl
      | cons d ds =>
        simp only [List.map_cons, List.zip_cons_cons]
        unfold t1EventsNp
        rw [h1, ih]
  unfold writeT1Np
  simp only [List.length_map, h2]

/-- The hypotheses of C109: events as read from a file, an epoch in each half, and a time that wraps around. -/
example : (∀ e ∈ [((5 : Nat), (1 : Nat)), (2 ^ 37 - 1, 8)], T1Valid e) ∧ (0x10005 : Int) % 2 ^ 17 ≥ 2 ^ 16 ∧ (0xbff05 : Int) % 2 ^ 17 ≥ 2 ^ 16 ∧
    (0xa0005 : Int) % 2 ^ 17 < 2 ^ 16 ∧
    (writeT1 3 [5 + 2 ^ 54] (.scalar 1)).toOption.map (fun r => r.2.2) = some (some .structError) ∧
    (writeT1Np 3 [.i64 (5 + 2 ^ 54)] (.scalar 1)).toOption.map (fun r => r.2.2) = some none := by
  refine ⟨?_, ?_, ?_, ?_, ?_, ?_⟩
  · simp [T1Valid]
  all_goals decide +kernel

end Fp
