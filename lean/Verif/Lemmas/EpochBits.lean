import Verif.Spec.Epoch
import Verif.Lemmas.EpochT1

/-! Helper lemmas for `Verif/Props/EpochBits.lean`. -/
namespace Fp
open Spec

/-- The reader state after `pos` bits of `body`: the words up to the one containing bit `pos - 1` are consumed. -/
def At (body : Bytes) (pos : Nat) (s : BitState) : Prop :=
  s.size < 32 ∧ s.buffer = field body pos s.size ∧
    ∃ c, pos + s.size = 32 * c ∧ s.rest = body.drop (4 * c)

theorem field_lt (body : Bytes) (pos w : Nat) : field body pos w < 2 ^ w := by
  induction w with
  | zero => simp [field]
  | succ w ih =>
    rw [field, Nat.pow_succ]
    have : (bitAt body (pos + w)).toNat ≤ 1 := Bool.toNat_le _
    omega

theorem field_add (body : Bytes) (pos a b : Nat) :
    field body pos (a + b) = field body pos a * 2 ^ b + field body (pos + a) b := by
  induction b with
  | zero => simp [field]
  | succ b ih =>
    rw [← Nat.add_assoc, field, ih, field, Nat.pow_succ, Nat.add_assoc]
    ring

theorem leNat_take4_lt (b : Bytes) : leNat (b.take 4) < 2 ^ 32 := by
  have h1 := leNat_lt (b.take 4)
  have h2 : 256 ^ (b.take 4).length ≤ 256 ^ 4 := Nat.pow_le_pow_right (by norm_num) (by simp)
  have : (256 : Nat) ^ 4 = 2 ^ 32 := by norm_num
  omega

theorem testBit_toNat (n k : Nat) : (n.testBit k).toNat = n / 2 ^ k % 2 := by
  rw [Nat.toNat_testBit]

theorem field_word (body : Bytes) (c : Nat) : field body (32 * c) 32 = leNat ((body.drop (4 * c)).take 4) := by
  have key : ∀ w, w ≤ 32 → field body (32 * c) w = leNat ((body.drop (4 * c)).take 4) / 2 ^ (32 - w) := by
    intro w
    induction w with
    | zero =>
      intro _
      have := leNat_take4_lt (body.drop (4 * c))
      simp only [field, Nat.sub_zero]
      exact (Nat.div_eq_of_lt this).symm
    | succ w ih =>
      intro hw
      rw [field, ih (by omega), bitAt, show (32 * c + w) / 32 = c by omega, show (32 * c + w) % 32 = w by omega, testBit_toNat]
      generalize leNat ((body.drop (4 * c)).take 4) = W
      have e1 : 32 - w = (31 - w) + 1 := by omega
      have e2 : 32 - (w + 1) = 31 - w := by omega
      rw [e1, e2, Nat.pow_succ, ← Nat.div_div_eq_div_mul]
      omega
  rw [key 32 le_rfl]
  simp

/-- One call of `extract_bits`. -/
theorem extractBits_at (body : Bytes) (pos w : Nat) (hw : w ≤ 32) (s : BitState) (h : At body pos s) :
    ∃ s', extractBits (w : Int) s = .ok (field body pos w, s') ∧ At body (pos + w) s' := by
  obtain ⟨hlt, hbuf, c, hc, hrest⟩ := h
  -- after an optional refill: a buffer of `k ≥ w` bits
  have core : ∀ (s1 : BitState) (c1 : Nat), s1.buffer = field body pos s1.size → w ≤ s1.size → s1.size < 32 + w →
      pos + s1.size = 32 * c1 → s1.rest = body.drop (4 * c1) →
      ∃ b k, extractMsb (w : Int) s1.buffer s1.size = .ok (field body pos w, b, k) ∧
        At body (pos + w) { buffer := b, size := k, rest := s1.rest } := by
    intro s1 c1 h1 h2 h3 h4 h5
    obtain ⟨d, hd⟩ : ∃ d, s1.size = w + d := ⟨s1.size - w, by omega⟩
    have hbits : s1.buffer = field body pos w * 2 ^ d + field body (pos + w) d := by
      rw [h1, hd, field_add]
    have hlt' := field_lt body (pos + w) d
    refine ⟨field body (pos + w) d, d, ?_, ?_, rfl, c1, ?_, h5⟩
    · unfold extractMsb
      have e1 : ((s1.size : Int) - (w : Int)) = (d : Int) := by omega
      simp only [e1, Int.toNat_natCast]
      rw [if_neg (by omega), shr_eq, hbits, Nat.one_shiftLeft, Nat.and_two_pow_sub_one_eq_mod]
      congr 2
      · rw [Nat.mul_comm, Nat.mul_add_div (by positivity), Nat.div_eq_of_lt hlt', Nat.add_zero]
      · rw [Nat.mul_comm, Nat.mul_add_mod, Nat.mod_eq_of_lt hlt']
    · simp only []; omega
    · simp only []; omega
  unfold extractBits
  by_cases hs : (s.size : Int) < (w : Int)
  · simp only [hs, if_true]
    obtain ⟨b, k, h1, h2⟩ := core { buffer := (s.buffer <<< 32) + leNat (s.rest.take 4), size := s.size + 32, rest := s.rest.drop 4 }
      (c + 1) (by
        simp only []
        rw [field_add, hc, field_word, hbuf, shl_eq, hrest]) (by simp only []; omega) (by simp only []; omega)
      (by simp only []; omega) (by simp only []; rw [hrest, List.drop_drop]; congr 1)
    rw [h1]
    exact ⟨_, rfl, h2⟩
  · simp only [hs, if_false]
    obtain ⟨b, k, h1, h2⟩ := core s c hbuf (by omega) (by omega) hc hrest
    rw [h1]
    exact ⟨_, rfl, h2⟩

theorem at_init (body : Bytes) : At body 0 { buffer := 0, size := 0, rest := body } :=
  ⟨by simp, by simp [field], 0, by simp, by simp⟩

def StartsAt (body : Bytes) (pos : Nat) (bits : List Bool) : Prop :=
  ∀ i (h : i < bits.length), bitAt body (pos + i) = bits[i]

theorem startsAt_append (body : Bytes) (pos : Nat) (a b : List Bool) (h : StartsAt body pos (a ++ b)) :
    StartsAt body pos a ∧ StartsAt body (pos + a.length) b := by
  constructor
  · intro i hi
    rw [h i (by simp; omega), List.getElem_append_left hi]
  · intro i hi
    rw [Nat.add_assoc, h (a.length + i) (by simp; omega), List.getElem_append_right (by omega)]
    congr 1
    omega

theorem toBits_length (w n : Nat) : (toBits w n).length = w := by simp [toBits]

theorem field_toBits (body : Bytes) (pos w n : Nat) (hn : n < 2 ^ w) (h : StartsAt body pos (toBits w n)) :
    field body pos w = n := by
  have key : ∀ k, k ≤ w → field body pos k = n / 2 ^ (w - k) := by
    intro k
    induction k with
    | zero => intro _; simp [field, Nat.div_eq_of_lt hn]
    | succ k ih =>
      intro hk
      have hb := h k (by rw [toBits_length]; omega)
      rw [field, ih (by omega), hb]
      simp only [toBits, List.getElem_map, List.getElem_range]
      rw [testBit_toNat]
      obtain ⟨d, hd⟩ : ∃ d, w - k = d + 1 := ⟨w - k - 1, by omega⟩
      have e1 : w - 1 - k = d := by omega
      have e2 : w - (k + 1) = d := by omega
      rw [hd, e1, e2, Nat.pow_succ, ← Nat.div_div_eq_div_mul]
      omega
  rw [key w le_rfl]
  simp

theorem readEntry_some (body : Bytes) (pos tw bb : Nat) (htw : tw ≤ 32) (hbb : bb ≤ 32) (e : Entry) (he : e.Ok tw bb)
    (hs : StartsAt body pos (e.bits tw bb)) (s : BitState) (h : At body pos s) :
    ∃ s', readEntry (tw : Int) (bb : Int) s = .ok (some (e.dt, e.base), s') ∧ At body (pos + (e.bits tw bb).length) s' := by
  obtain ⟨hbase, hdt⟩ := he
  unfold Entry.bits at hs ⊢
  unfold readEntry
  cases hext : e.extended
  · rw [hext] at hs hdt
    simp only [Bool.false_eq_true, if_false] at hs hdt ⊢
    obtain ⟨h1, h2⟩ := startsAt_append _ _ _ _ hs
    rw [toBits_length] at h2
    obtain ⟨s1, a1, a2⟩ := extractBits_at body pos tw htw s h
    rw [field_toBits body pos tw e.dt hdt.2 h1] at a1
    obtain ⟨s2, b1, b2⟩ := extractBits_at body (pos + tw) bb hbb s1 a2
    rw [field_toBits body (pos + tw) bb e.base hbase h2] at b1
    refine ⟨s2, ?_, ?_⟩
    · simp only [a1, bind, Except.bind]
      rw [if_neg (by omega), if_neg (by omega)]
      simp only [pure, Except.pure, b1]
    · rw [List.length_append, toBits_length, toBits_length, ← Nat.add_assoc]; exact b2
  · rw [hext] at hs hdt
    simp only [if_true] at hs hdt ⊢
    obtain ⟨h1, h2⟩ := startsAt_append _ _ _ _ hs
    obtain ⟨h0, h1⟩ := startsAt_append _ _ _ _ h1
    rw [toBits_length] at h1
    rw [List.length_append, toBits_length, toBits_length] at h2
    obtain ⟨s1, a1, a2⟩ := extractBits_at body pos tw htw s h
    rw [field_toBits body pos tw 0 (by positivity) h0] at a1
    obtain ⟨s2, b1, b2⟩ := extractBits_at body (pos + tw) 32 le_rfl s1 a2
    rw [field_toBits body (pos + tw) 32 e.dt hdt h1] at b1
    obtain ⟨s3, c1, c2⟩ := extractBits_at body (pos + tw + 32) bb hbb s2 b2
    rw [field_toBits body (pos + tw + 32) bb e.base hbase (by rw [Nat.add_assoc]; exact h2)] at c1
    refine ⟨s3, ?_, ?_⟩
    · have b1' : extractBits 32 s1 = .ok (e.dt, s2) := b1
      simp only [a1, bind, Except.bind]
      rw [if_neg (by omega), if_pos trivial, b1']
      simp only [pure, Except.pure, c1]
    · rw [List.length_append, List.length_append, toBits_length, toBits_length, toBits_length, ← Nat.add_assoc, ← Nat.add_assoc]
      exact c2

theorem readEntry_none (body : Bytes) (pos tw bb : Nat) (h1 : 1 ≤ tw) (htw : tw ≤ 32) (hbb : bb ≤ 32)
    (hs : StartsAt body pos (terminator tw bb)) (s : BitState) (h : At body pos s) :
    ∃ s', readEntry (tw : Int) (bb : Int) s = .ok (none, s') := by
  unfold terminator at hs
  obtain ⟨h2, h3⟩ := startsAt_append _ _ _ _ hs
  rw [toBits_length] at h3
  obtain ⟨s1, a1, a2⟩ := extractBits_at body pos tw htw s h
  rw [field_toBits body pos tw 1 (Nat.one_lt_two_pow (by omega)) h2] at a1
  obtain ⟨s2, b1, b2⟩ := extractBits_at body (pos + tw) bb hbb s1 a2
  rw [field_toBits body (pos + tw) bb 0 (by positivity) h3] at b1
  refine ⟨s2, ?_⟩
  unfold readEntry
  simp only [a1, bind, Except.bind, if_true, b1, ne_eq, not_true_eq_false, if_false, pure, Except.pure]

theorem field_zero (body : Bytes) (pos w : Nat) (h : ∀ i, pos ≤ i → bitAt body i = false) : field body pos w = 0 := by
  induction w with
  | zero => rfl
  | succ w ih => rw [field, ih, h _ (by omega)]; rfl

theorem readEntry_zeros (body : Bytes) (pos tw bb : Nat) (htw : tw ≤ 32) (hbb : bb ≤ 32)
    (hz : ∀ i, pos ≤ i → bitAt body i = false) (s : BitState) (h : At body pos s) :
    ∃ s' pos', pos ≤ pos' ∧ readEntry (tw : Int) (bb : Int) s = .ok (some (0, 0), s') ∧ At body pos' s' := by
  obtain ⟨s1, a1, a2⟩ := extractBits_at body pos tw htw s h
  rw [field_zero body pos tw hz] at a1
  obtain ⟨s2, b1, b2⟩ := extractBits_at body (pos + tw) 32 le_rfl s1 a2
  rw [field_zero body (pos + tw) 32 (fun i hi => hz i (by omega))] at b1
  obtain ⟨s3, c1, c2⟩ := extractBits_at body (pos + tw + 32) bb hbb s2 b2
  rw [field_zero body (pos + tw + 32) bb (fun i hi => hz i (by omega))] at c1
  refine ⟨s3, _, ?_, ?_, c2⟩
  · omega
  · have b1' : extractBits 32 s1 = .ok (0, s2) := b1
    unfold readEntry
    simp only [a1, bind, Except.bind]
    rw [if_neg (by omega), if_pos trivial, b1']
    simp only [pure, Except.pure, c1]

theorem startsAt_zero (body : Bytes) (bits : List Bool) (h : Starts body bits) : StartsAt body 0 bits := by
  intro i hi
  rw [Nat.zero_add]
  exact h i hi

theorem fl53_add (a b : Nat) (h : a + b < 2 ^ 53) : fl 53 (fl 53 (a : ℚ) + fl 53 (b : ℚ)) = ((a + b : Nat) : ℚ) := by
  rw [fl_nat 53 a (by omega), fl_nat 53 b (by omega)]
  have := fl_nat 53 (a + b) h
  push_cast at this ⊢
  exact this

theorem t2_loop (body : Bytes) (tw bb : Nat) (h1 : 1 ≤ tw) (htw : tw ≤ 32) (hbb : bb ≤ 32) (es : List Entry)
    (hes : ∀ e ∈ es, e.Ok tw bb) (pos : Nat) (hs : StartsAt body pos (es.flatMap (Entry.bits tw bb) ++ terminator tw bb))
    (s : BitState) (h : At body pos s) (t0 : Nat) (hsum : ∀ x ∈ runningSums t0 es, x.1 < 2 ^ 53) (acc : List (ℚ × Nat))
    (fuel : Nat) (hf : es.length < fuel) :
    runLoop (t2Step (tw : Int) (bb : Int)) fuel { bits := s, timestamp := (t0 : ℚ), acc := acc } =
      some (.ok (acc ++ (runningSums t0 es).map (fun x => ((x.1 : ℚ), x.2)))) := by
  induction es generalizing pos s t0 acc fuel with
  | nil =>
    obtain ⟨k, rfl⟩ : ∃ k, fuel = k + 1 := ⟨fuel - 1, by simp at hf; omega⟩
    obtain ⟨s', hn⟩ := readEntry_none body pos tw bb h1 htw hbb (by simpa using hs) s h
    rw [runLoop]
    simp only [t2Step, hn, runningSums, List.map_nil, List.append_nil]
  | cons e es ih =>
    obtain ⟨k, rfl⟩ : ∃ k, fuel = k + 1 := ⟨fuel - 1, by simp at hf; omega⟩
    rw [List.flatMap_cons, List.append_assoc] at hs
    obtain ⟨g1, g2⟩ := startsAt_append _ _ _ _ hs
    obtain ⟨s', hn, hat⟩ := readEntry_some body pos tw bb htw hbb e (hes e (by simp)) g1 s h
    have hlt : t0 + e.dt < 2 ^ 53 := hsum (t0 + e.dt, e.base) (by simp [runningSums])
    rw [runLoop]
    simp only [t2Step, hn]
    rw [fl53_add t0 e.dt hlt]
    rw [ih (fun e he => hes e (by simp [he])) _ g2 s' hat (t0 + e.dt)
      (fun x hx => hsum x (by simp [runningSums, hx])) _ k (by simp at hf; omega)]
    simp [runningSums]

theorem t4_loop (body : Bytes) (tw bb : Nat) (h1 : 1 ≤ tw) (htw : tw ≤ 32) (hbb : bb ≤ 32) (es : List Entry)
    (hes : ∀ e ∈ es, e.Ok tw bb) (pos : Nat) (hs : StartsAt body pos (es.flatMap (Entry.bits tw bb) ++ terminator tw bb))
    (s : BitState) (h : At body pos s) (t0 : Int) (acc : List (Int × Nat)) (fuel : Nat) (hf : es.length < fuel) :
    runLoop (t4Step (tw : Int) (bb : Int)) fuel { bits := s, timeIndex := t0, acc := acc } =
      some (.ok (acc ++ runningIndex t0 es)) := by
  induction es generalizing pos s t0 acc fuel with
  | nil =>
    obtain ⟨k, rfl⟩ : ∃ k, fuel = k + 1 := ⟨fuel - 1, by simp at hf; omega⟩
    obtain ⟨s', hn⟩ := readEntry_none body pos tw bb h1 htw hbb (by simpa using hs) s h
    rw [runLoop]
    simp only [t4Step, hn, runningIndex, List.append_nil]
  | cons e es ih =>
    obtain ⟨k, rfl⟩ : ∃ k, fuel = k + 1 := ⟨fuel - 1, by simp at hf; omega⟩
    rw [List.flatMap_cons, List.append_assoc] at hs
    obtain ⟨g1, g2⟩ := startsAt_append _ _ _ _ hs
    obtain ⟨s', hn, hat⟩ := readEntry_some body pos tw bb htw hbb e (hes e (by simp)) g1 s h
    rw [runLoop]
    simp only [t4Step, hn]
    rw [ih (fun e he => hes e (by simp [he])) _ g2 s' hat _ _ k (by simp at hf; omega)]
    simp [runningIndex]

theorem t2_diverge (body : Bytes) (tw bb : Nat) (htw : tw ≤ 32) (hbb : bb ≤ 32) (es : List Entry)
    (hes : ∀ e ∈ es, e.Ok tw bb) (pos : Nat) (hs : StartsAt body pos (es.flatMap (Entry.bits tw bb)))
    (hz : ∀ i, pos + (es.flatMap (Entry.bits tw bb)).length ≤ i → bitAt body i = false) (s : T2State) (h : At body pos s.bits)
    (fuel : Nat) : runLoop (t2Step (tw : Int) (bb : Int)) fuel s = none := by
  induction fuel generalizing es pos s with
  | zero => rfl
  | succ k ih =>
    rw [runLoop]
    cases es with
    | nil =>
      obtain ⟨s', pos', hp, hn, hat⟩ := readEntry_zeros body pos tw bb htw hbb (by simpa using hz) s.bits h
      simp only [t2Step, hn]
      exact ih [] (by simp) pos' (by intro i hi; simp at hi) (fun i hi => hz i (by simp at hi ⊢; omega)) _ hat
    | cons e es =>
      rw [List.flatMap_cons] at hs hz
      obtain ⟨g1, g2⟩ := startsAt_append _ _ _ _ hs
      obtain ⟨s', hn, hat⟩ := readEntry_some body pos tw bb htw hbb e (hes e (by simp)) g1 s.bits h
      simp only [t2Step, hn]
      exact ih es (fun e he => hes e (by simp [he])) _ g2 (fun i hi => hz i (by rw [List.length_append]; omega)) _ hat

theorem t4_diverge (body : Bytes) (tw bb : Nat) (htw : tw ≤ 32) (hbb : bb ≤ 32) (es : List Entry)
    (hes : ∀ e ∈ es, e.Ok tw bb) (pos : Nat) (hs : StartsAt body pos (es.flatMap (Entry.bits tw bb)))
    (hz : ∀ i, pos + (es.flatMap (Entry.bits tw bb)).length ≤ i → bitAt body i = false) (s : T4State) (h : At body pos s.bits)
    (fuel : Nat) : runLoop (t4Step (tw : Int) (bb : Int)) fuel s = none := by
  induction fuel generalizing es pos s with
  | zero => rfl
  | succ k ih =>
    rw [runLoop]
    cases es with
    | nil =>
      obtain ⟨s', pos', hp, hn, hat⟩ := readEntry_zeros body pos tw bb htw hbb (by simpa using hz) s.bits h
      simp only [t4Step, hn]
      exact ih [] (by simp) pos' (by intro i hi; simp at hi) (fun i hi => hz i (by simp at hi ⊢; omega)) _ hat
    | cons e es =>
      rw [List.flatMap_cons] at hs hz
      obtain ⟨g1, g2⟩ := startsAt_append _ _ _ _ hs
      obtain ⟨s', hn, hat⟩ := readEntry_some body pos tw bb htw hbb e (hes e (by simp)) g1 s.bits h
      simp only [t4Step, hn]
      exact ih es (fun e he => hes e (by simp [he])) _ g2 (fun i hi => hz i (by rw [List.length_append]; omega)) _ hat

theorem toSigned32_small (n : Nat) (h : n ≤ 32) : toSigned32 n = (n : Int) := by
  unfold toSigned32
  rw [if_pos (by omega)]

theorem t2_header (tag epoch len tw bb proto : Nat) (h1 : tag < 2 ^ 32) (h2 : epoch < 2 ^ 32) (h3 : len < 2 ^ 32)
    (h4 : tw ≤ 32) (h5 : bb ≤ 32) (h6 : proto < 2 ^ 32) (rest : Bytes) :
    ∃ hd, readT2Header ([tag, epoch, len, tw, bb, proto].flatMap (leBytes 4) ++ rest) = .ok hd ∧ hd.epoch = epoch ∧
      hd.length = len ∧ hd.timeorder = tw ∧ hd.baseBits = bb ∧
      ([tag, epoch, len, tw, bb, proto].flatMap (leBytes 4) ++ rest).drop 24 = rest := by
  have hlen : ([tag, epoch, len, tw, bb, proto].flatMap (leBytes 4)).length = 24 := by simp
  have hlt : ∀ w ∈ [tag, epoch, len, tw, bb, proto], w < 2 ^ 32 := by
    intro w hw
    simp only [List.mem_cons, List.not_mem_nil, or_false] at hw
    rcases hw with rfl | rfl | rfl | rfl | rfl | rfl <;> omega
  unfold readT2Header
  simp only []
  rw [List.take_append_of_le_length (by omega), List.take_of_length_le (by omega), if_pos hlen]
  refine ⟨_, rfl, headWord_get _ hlt 1 (by simp), headWord_get _ hlt 2 (by simp), ?_, ?_, ?_⟩
  · simp only []
    rw [headWord_get _ hlt 3 (by simp)]
    exact toSigned32_small tw h4
  · simp only []
    rw [headWord_get _ hlt 4 (by simp)]
    exact toSigned32_small bb h5
  · rw [List.drop_append_of_le_length (by omega), List.drop_of_length_le (by omega), List.nil_append]

theorem t4_header (tag epoch len tw bb : Nat) (h1 : tag < 2 ^ 32) (h2 : epoch < 2 ^ 32) (h3 : len < 2 ^ 32)
    (h4 : tw ≤ 32) (h5 : bb ≤ 32) (rest : Bytes) :
    ∃ hd, readT4Header ([tag, epoch, len, tw, bb].flatMap (leBytes 4) ++ rest) = .ok hd ∧ hd.epoch = epoch ∧
      hd.length = len ∧ hd.timeorder = tw ∧ hd.baseBits = bb ∧
      ([tag, epoch, len, tw, bb].flatMap (leBytes 4) ++ rest).drop 20 = rest := by
  have hlen : ([tag, epoch, len, tw, bb].flatMap (leBytes 4)).length = 20 := by simp
  have hlt : ∀ w ∈ [tag, epoch, len, tw, bb], w < 2 ^ 32 := by
    intro w hw
    simp only [List.mem_cons, List.not_mem_nil, or_false] at hw
    rcases hw with rfl | rfl | rfl | rfl | rfl <;> omega
  unfold readT4Header
  simp only []
  rw [List.take_append_of_le_length (by omega), List.take_of_length_le (by omega), if_pos hlen]
  refine ⟨_, rfl, headWord_get _ hlt 1 (by simp), headWord_get _ hlt 2 (by simp), headWord_get _ hlt 3 (by simp),
    headWord_get _ hlt 4 (by simp), ?_⟩
  rw [List.drop_append_of_le_length (by omega), List.drop_of_length_le (by omega), List.nil_append]

theorem runningSums_length (t0 : Nat) (es : List Entry) : (runningSums t0 es).length = es.length := by
  induction es generalizing t0 with
  | nil => rfl
  | cons e es ih => simp [runningSums, ih]

theorem runningIndex_length (t0 : Int) (es : List Entry) : (runningIndex t0 es).length = es.length := by
  induction es generalizing t0 with
  | nil => rfl
  | cons e es ih => simp [runningIndex, ih]

/-- Everything of `read_T2` up to the final conversion. -/
theorem readT2_decoded (tag epoch len tw bb proto : Nat) (h1 : tag < 2 ^ 32) (h2 : epoch < 2 ^ 32) (h3 : len < 2 ^ 32)
    (h4 : 1 ≤ tw) (h5 : tw ≤ 32) (h6 : bb ≤ 32) (h7 : proto < 2 ^ 32) (es : List Entry) (hes : ∀ e ∈ es, e.Ok tw bb)
    (hlen : len = 0 ∨ len = es.length) (body : Bytes) (hs : Starts body (es.flatMap (Entry.bits tw bb) ++ terminator tw bb))
    (hsum : ∀ x ∈ runningSums (epoch % 2 ^ 17 * 2 ^ 32) es, x.1 < 2 ^ 53) (full : Bool) (res : Tsres) (frac : Bool) :
    Returns (fun fuel => readT2 fuel full res frac ([tag, epoch, len, tw, bb, proto].flatMap (leBytes 4) ++ body))
      (do let ts ← t2Convert epoch full res frac ((runningSums (epoch % 2 ^ 17 * 2 ^ 32) es).map (fun x => (x.1 : ℚ)))
          return ts.zip ((runningSums (epoch % 2 ^ 17 * 2 ^ 32) es).map Prod.snd)) := by
  refine ⟨es.length + 1, fun fuel hf => ?_⟩
  obtain ⟨hd, g1, g2, g3, g4, g5, g6⟩ := t2_header tag epoch len tw bb proto h1 h2 h3 h5 h6 h7 body
  have hmask : (epoch &&& ((1 <<< 17) - 1)) <<< 32 = epoch % 2 ^ 17 * 2 ^ 32 := by
    rw [shl_eq, show ((1 <<< 17) - 1 : Nat) = 2 ^ 17 - 1 from rfl, Nat.and_two_pow_sub_one_eq_mod]
  unfold readT2
  rw [g1]
  simp only []
  rw [g6, g2, g3, g4, g5, hmask]
  generalize epoch % 2 ^ 17 * 2 ^ 32 = t0 at hsum ⊢
  rw [t2_loop body tw bb h4 h5 h6 es hes 0 (startsAt_zero body _ hs) _ (at_init body) t0 hsum [] fuel (by omega)]
  simp only [List.nil_append, List.length_map, runningSums_length, List.map_map]
  rw [if_neg (by omega)]
  rfl

end Fp
