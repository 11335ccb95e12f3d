import Verif.Props.FreqcdExact
import Verif.Spec.FreqcdRate

/-! # C121: the frequency that `freqcd` applies when its input arrives in pieces -/
namespace Fp
open Spec

theorem idle_step {legacy : Bool} {r : Round} (h1 : r.selectOk = true) (h2 : r.inRead = none) (h3 : r.freqRead = none)
    (h4 : ∃ k, r.write = some k) (a : AState) : aStep legacy r a = (a, none) := by
  obtain ⟨k, h4⟩ := h4
  have hf : ∀ a : AState, aFreq none a = (a, none) := by
    intro a; unfold aFreq; cases a.freqOpen <;> rfl
  unfold aStep aInput aWrite
  simp [h1, h2, h3, h4, hf]

theorem block_step {legacy : Bool} {r : Round} {f : BitVec 32} {b : List (ℕ × ℕ)} {el : ℕ × ℕ} (hel : b.getLast? = some el) (hb2 : b.length ≤ 1024)
    (q1 : r.selectOk = true) (q2 : r.inRead = some (some (8 * b.length))) (q3 : r.freqRead = none) (q4 : ∃ k, r.write = some k ∧ 8 * b.length ≤ k)
    (a : AState) (hp : a.pend = []) (hfc : a.fcorr = f) (rest : Bytes) (hs : a.src = b.flatMap (a1Event legacy) ++ rest) (R : BitVec 64)
    (hR : R = if a.isset then a.tsref else (b.head?.map fun e => evMeas legacy (a1Event legacy e)).getD a.tsref) :
    aStep legacy r a = ({ a with
      pend := []
      isset := true
      tsmeas := evMeas legacy (a1Event legacy el)
      tscorr := tsCorr f R (evMeas legacy (a1Event legacy el))
      tsref := evMeas legacy (a1Event legacy el)
      ovf := a.ovf + tsCorr f R (evMeas legacy (a1Event legacy el))
      src := rest
      out := a.out ++ (b.map (a1Event legacy)).flatMap (evCorrect legacy f R a.ovf) }, none) := by
  obtain ⟨k', q4, hk'⟩ := q4
  have hb1 : b ≠ [] := by rintro rfl; simp at hel
  have hbpos : 0 < b.length := List.length_pos_iff.2 hb1
  have hlb : (b.flatMap (a1Event legacy)).length = 8 * b.length := by
    rw [List.length_flatMap]
    simp only [a1Event_length]
    rw [List.map_const', List.sum_replicate_nat]
    omega
  have hevs : events (b.flatMap (a1Event legacy)) = b.map (a1Event legacy) :=
    events_flatMap _ _ (fun y _ => a1Event_length legacy y)
  have hmin : min (8 * b.length) bufSize = 8 * b.length := by unfold bufSize; omega
  have hfq : ∀ a : AState, aFreq none a = (a, none) := by
    intro a; unfold aFreq; cases a.freqOpen <;> rfl
  have hdata : a.src.take (8 * b.length) = b.flatMap (a1Event legacy) := by rw [hs]; exact List.take_left' hlb
  have hdne : b.flatMap (a1Event legacy) ≠ [] := by
    intro h
    have := congrArg List.length h
    rw [hlb] at this
    simp only [List.length_nil] at this
    omega
  have hsrc2 : a.src.drop (b.flatMap (a1Event legacy)).length = rest := by
    rw [hs, List.drop_left]
  have hglast : (b.map (a1Event legacy)).getLast? = some (a1Event legacy el) := by
    rw [List.getLast?_map, hel]; rfl
  have hblock : ((b.map (a1Event legacy)).flatMap (evCorrect legacy f R a.ovf)).length ≤ k' := by
    rw [List.length_flatMap]
    simp only [evCorrect_length]
    rw [List.map_const', List.sum_replicate_nat, List.length_map]
    omega
  have hemp : (b.map (a1Event legacy)).isEmpty = false := by
    cases b with
    | nil => simp at hb1
    | cons _ _ => rfl
  have hRR : (if a.isset = true then a.tsref else (Option.map (evMeas legacy) (b.map (a1Event legacy)).head?).getD a.tsref) = R := by
    rw [hR, List.head?_map, Option.map_map]; rfl
  unfold aStep aInput
  simp only [q1, q2, q3, q4, hp, List.nil_append, List.length_nil, Nat.sub_zero, hmin, hdata, hdne, if_false, Bool.not_true, Bool.false_eq_true,
    ne_eq, not_true, hfq, hevs, hglast, Option.map_some, Option.getD_some, hfc, hRR]
  unfold aWrite
  simp only [hsrc2, List.take_of_length_le hblock]
  rw [hlb, Nat.mul_div_cancel_left _ (by norm_num), List.drop_eq_nil_of_le (by rw [hlb]), if_neg (by omega), hemp]
  simp

theorem arrives_run (legacy : Bool) (f : BitVec 32) (hf : |f.toInt| < 2 ^ 21) (rest : Bytes) {blocks : List (List (ℕ × ℕ))} {rs : List Round}
    (ha : Arrives blocks rs) : ∀ (a : AState) (ref : ℕ) (x : ℤ), a.pend = [] → a.fcorr = f → a.src = blocks.flatten.flatMap (a1Event legacy) ++ rest →
    a.ovf = BitVec.ofInt 64 x → (∀ e ∈ blocks.flatten, e.1 < 2 ^ 54 ∧ e.2 < 2 ^ 10) → (ref :: blocks.flatten.map Prod.fst).Pairwise (· ≤ ·) →
    (if a.isset then a.tsref.toNat = ref else ∀ e, blocks.flatten.head? = some e → e.1 = ref) →
    (aRun legacy rs a).1.out = a.out ++ (correctedBlocks f.toInt blocks ref x).flatMap (a1Event legacy) ∧ (aRun legacy rs a).2 = none := by
  induction ha with
  | done =>
    intro a ref x _ _ _ _ _ _ _
    simp [aRun, correctedBlocks]
  | idle bs r rs h1 h2 h3 h4 _ ih =>
    intro a ref x hp hfc hs ho hv hord href
    unfold aRun
    rw [idle_step h1 h2 h3 h4, if_neg (by simp)]
    exact ih a ref x hp hfc hs ho hv hord href
  | block b bs r rs hb1 hb2 q1 q2 q3 q4 _ ih =>
    intro a ref x hp hfc hs ho hv hord href
    obtain ⟨el, hel⟩ : ∃ el, b.getLast? = some el := ⟨_, List.getLast?_eq_some_getLast hb1⟩
    obtain ⟨e0, he0⟩ : ∃ e0, b.head? = some e0 := ⟨_, List.head?_eq_some_head hb1⟩
    have hel' : el ∈ b := List.mem_of_getLast? hel
    have he0' : e0 ∈ b := List.mem_of_mem_head? he0
    have hvb : ∀ e ∈ b, e.1 < 2 ^ 54 ∧ e.2 < 2 ^ 10 := fun e he => hv e (by rw [List.flatten_cons]; exact List.mem_append_left _ he)
    have hmeas : ∀ e ∈ b, (evMeas legacy (a1Event legacy e)).toNat = e.1 := by
      intro e he
      rw [evMeas_toNat legacy _ (a1Event_length legacy e), (evTime_a1Event legacy e (hvb e he).1 (hvb e he).2).1]
    have hordb : ∀ e ∈ b, ref ≤ e.1 := by
      intro e he
      rw [List.pairwise_cons] at hord
      exact hord.1 _ (List.mem_map_of_mem (by rw [List.flatten_cons]; exact List.mem_append_left _ he))
    obtain ⟨R, hR⟩ : ∃ R : BitVec 64, R = if a.isset then a.tsref else (b.head?.map fun e => evMeas legacy (a1Event legacy e)).getD a.tsref := ⟨_, rfl⟩
    have hRn : R.toNat = ref := by
      rw [hR]
      by_cases hi : a.isset = true
      · simp only [hi, if_true] at href ⊢; exact href
      · simp only [hi] at href ⊢
        rw [if_neg (by simp), he0, Option.map_some, Option.getD_some, hmeas e0 he0']
        refine href e0 ?_
        rw [List.flatten_cons, List.head?_append, he0]; rfl
    rw [List.flatten_cons, List.flatMap_append, List.append_assoc] at hs
    unfold aRun
    rw [block_step hel hb2 q1 q2 q3 q4 a hp hfc _ hs R hR, if_neg (by simp)]
    have htc : tsCorr f R (evMeas legacy (a1Event legacy el)) = BitVec.ofInt 64 (moveOf f.toInt ref el.1) := by
      have := (C41_no_overflow f R (evMeas legacy (a1Event legacy el)) (by rw [hRn, hmeas el hel']; exact hordb el hel')
        (by rw [hmeas el hel']; exact (hvb el hel').1) hf).1
      rw [hRn, hmeas el hel'] at this
      unfold moveOf
      rw [← this, BitVec.ofInt_toInt]
    rw [List.flatten_cons] at hord hv
    obtain ⟨r1, r2⟩ := ih { a with
        pend := []
        isset := true
        tsmeas := evMeas legacy (a1Event legacy el)
        tscorr := tsCorr f R (evMeas legacy (a1Event legacy el))
        tsref := evMeas legacy (a1Event legacy el)
        ovf := a.ovf + tsCorr f R (evMeas legacy (a1Event legacy el))
        src := bs.flatten.flatMap (a1Event legacy) ++ rest
        out := a.out ++ (b.map (a1Event legacy)).flatMap (evCorrect legacy f R a.ovf) } el.1 (x + moveOf f.toInt ref el.1)
      rfl hfc rfl
      (by show a.ovf + tsCorr f R (evMeas legacy (a1Event legacy el)) = _; rw [htc, ho, ← BitVec.ofInt_add])
      (fun e he => hv e (List.mem_append_right _ he))
      (by
        rw [List.map_append, List.pairwise_cons, List.pairwise_append] at hord
        rw [List.pairwise_cons]
        refine ⟨?_, hord.2.2.1⟩
        intro t ht
        exact hord.2.2.2 el.1 (List.mem_map_of_mem hel') t ht)
      (hmeas el hel')
    refine ⟨?_, r2⟩
    rw [r1]
    simp only [correctedBlocks, hel, Option.map_some, Option.getD_some]
    rw [List.append_assoc, List.flatMap_append]
    congr 2
    rw [List.flatMap_map, List.flatMap_map]
    apply List.flatMap_congr
    intro e he
    have := evCorrect_a1Event legacy f hf R a.ovf x ho e (hvb e he).1 (hvb e he).2 (by rw [hRn]; exact hordb e he)
    rw [hRn] at this
    exact this

/-- **C121**, the exact output: if the reads deliver whole events, every event is moved relative to the last event of the read
before, in addition to the (rounded) move of that event.  `t0` is the time of the first event; `more` is what has not been read. -/
theorem C121_exact (legacy : Bool) (f : BitVec 32) (hf : |f.toInt| < 2 ^ 21) (blocks : List (List (ℕ × ℕ))) (rs : List Round) (ha : Arrives blocks rs)
    (hv : ∀ e ∈ blocks.flatten, e.1 < 2 ^ 54 ∧ e.2 < 2 ^ 10) (hord : (blocks.flatten.map Prod.fst).Pairwise (· ≤ ·))
    (s : FState) (fo : Bool) (more fsrc : Bytes) (h : Initial s f fo (blocks.flatten.flatMap (a1Event legacy) ++ more) fsrc)
    (t0 : ℕ) (ht0 : ∀ e, blocks.flatten.head? = some e → e.1 = t0) :
    ∃ s', fRun legacy rs s = .ok (s', none) ∧ s'.out = (correctedBlocks f.toInt blocks t0 0).flatMap (a1Event legacy) := by
  obtain ⟨hwf, hoe, -, hout, hfc, hsrc, hiss, hovf⟩ := initial_wf h
  obtain ⟨s', h1, h2⟩ := run_ok legacy rs hwf hoe
  have hpend : (abst s).pend = [] := by
    obtain ⟨_, _, _, _, _, -, -, -, rfl⟩ := h
    simp [abst, fInit]
  obtain ⟨k1, k2⟩ := arrives_run legacy f hf more ha (abst s) t0 0 hpend hfc hsrc (by show s.ovf = _; rw [hovf]; rfl) hv
    (by
      rw [List.pairwise_cons]
      refine ⟨?_, hord⟩
      intro t ht
      cases hfl : blocks.flatten with
      | nil => rw [hfl] at ht; simp at ht
      | cons e0 l =>
        rw [hfl, List.map_cons] at hord ht
        rw [List.pairwise_cons] at hord
        have e0t : e0.1 = t0 := ht0 e0 (by rw [hfl]; rfl)
        rw [← e0t]
        rw [List.mem_cons] at ht
        rcases ht with rfl | ht
        · exact le_rfl
        · exact hord.1 t ht)
    (by
      have : (abst s).isset = false := hiss
      rw [this, if_neg (by simp)]
      exact ht0)
  refine ⟨s', ?_, ?_⟩
  · rw [h1, k2]
  · have e : s'.out = s.out ++ (correctedBlocks f.toInt blocks t0 0).flatMap (a1Event legacy) := by
      show (abst s').out = _
      rw [h2]; exact k1
    rw [e, hout, List.nil_append]

/-! ## Corrections that are lost -/

theorem moveOf_zero (n : ℤ) (hn : 0 ≤ n) (d ref t : ℕ) (hd : n * d ≤ 2 ^ 34) (h1 : ref ≤ t) (h2 : t < ref + d) : moveOf n ref t = 0 := by
  have hq : (0 : ℚ) ≤ ((t : ℚ) - ref) / 2 ^ 12 := by
    have : (ref : ℚ) ≤ t := by exact_mod_cast h1
    apply div_nonneg <;> linarith
  have hfl := Int.floor_nonneg.2 hq
  have hfl' := Int.floor_le (((t : ℚ) - ref) / 2 ^ 12)
  have hd' : (n : ℚ) * d ≤ 2 ^ 34 := by exact_mod_cast hd
  have h2' : (t : ℚ) - ref < d := by
    have : (t : ℚ) < ref + d := by exact_mod_cast h2
    linarith
  have hn' : (0 : ℚ) ≤ n := by exact_mod_cast hn
  unfold moveOf
  obtain ⟨q, hqe⟩ : ∃ q : ℤ, q = ⌊((t : ℚ) - ref) / 2 ^ 12⌋ := ⟨_, rfl⟩
  rw [← hqe] at hfl hfl' ⊢
  have hq0 : (0 : ℚ) ≤ q := by exact_mod_cast hfl
  have hqd : (q : ℚ) * 2 ^ 12 < d := by
    rw [le_div_iff₀ (by norm_num)] at hfl'
    linarith
  rw [Int.floor_eq_zero_iff]
  constructor
  · positivity
  · rw [div_lt_one (by norm_num)]
    rcases eq_or_lt_of_le hn' with h0 | h0
    · rw [← h0]; norm_num
    · have : (q : ℚ) * 2 ^ 12 * n < d * n := mul_lt_mul_of_pos_right hqd h0
      nlinarith

theorem moveOf_minus_one (n : ℤ) (hn : n < 0) (d ref t : ℕ) (hd : -n * d ≤ 2 ^ 34) (h1 : ref + 2 ^ 12 ≤ t) (h2 : t < ref + d) : moveOf n ref t = -1 := by
  have hq : (1 : ℚ) ≤ ((t : ℚ) - ref) / 2 ^ 12 := by
    have : (ref : ℚ) + 2 ^ 12 ≤ t := by exact_mod_cast h1
    rw [le_div_iff₀ (by norm_num)]; linarith
  have hfl : (1 : ℤ) ≤ ⌊((t : ℚ) - ref) / 2 ^ 12⌋ := by
    rw [Int.le_floor]; exact_mod_cast hq
  have hfl' := Int.floor_le (((t : ℚ) - ref) / 2 ^ 12)
  have hd' : -(n : ℚ) * d ≤ 2 ^ 34 := by exact_mod_cast hd
  have h2' : (t : ℚ) - ref < d := by
    have : (t : ℚ) < ref + d := by exact_mod_cast h2
    linarith
  have hn' : (n : ℚ) < 0 := by exact_mod_cast hn
  unfold moveOf
  obtain ⟨q, hqe⟩ : ∃ q : ℤ, q = ⌊((t : ℚ) - ref) / 2 ^ 12⌋ := ⟨_, rfl⟩
  rw [← hqe] at hfl hfl' ⊢
  have hq0 : (1 : ℚ) ≤ q := by exact_mod_cast hfl
  have hqd : (q : ℚ) * 2 ^ 12 < d := by
    rw [le_div_iff₀ (by norm_num)] at hfl'
    linarith
  rw [Int.floor_eq_iff]
  push_cast
  constructor
  · rw [le_div_iff₀ (by norm_num)]
    have : (q : ℚ) * 2 ^ 12 * -n < d * -n := mul_lt_mul_of_pos_right hqd (by linarith)
    nlinarith
  · rw [neg_add_cancel, div_lt_iff₀ (by norm_num), zero_mul]
    exact mul_neg_of_pos_of_neg (by linarith) hn'

theorem correctedBlocks_lost (n : ℤ) (hn : 0 ≤ n) (d : ℕ) (hd : n * d ≤ 2 ^ 34) : ∀ (blocks : List (List (ℕ × ℕ))) (ref : ℕ),
    (∀ b ∈ blocks, b ≠ []) → (∀ e ∈ blocks.flatten, e.1 < 2 ^ 54) → Spaced 0 d ref blocks → correctedBlocks n blocks ref 0 = blocks.flatten
  | [], _, _, _, _ => rfl
  | b :: bs, ref, hne, hv, hs => by
    obtain ⟨hs1, hs2⟩ := hs
    obtain ⟨el, hel⟩ : ∃ el, b.getLast? = some el := ⟨_, List.getLast?_eq_some_getLast (hne b (by simp))⟩
    have hel' : el ∈ b := List.mem_of_getLast? hel
    have hz : ∀ e ∈ b, moveOf n ref e.1 = 0 := fun e he => moveOf_zero n hn d ref e.1 hd (by have := (hs1 e he).1; omega) (hs1 e he).2
    have hl : lastTime ref b = el.1 := by unfold lastTime; rw [hel]; rfl
    rw [hl] at hs2
    rw [correctedBlocks, hel, Option.map_some, Option.getD_some, hz el hel', add_zero,
      correctedBlocks_lost n hn d hd bs el.1 (fun c hc => hne c (by simp [hc])) (fun e he => hv e (by simp at he ⊢; tauto)) hs2, List.flatten_cons]
    congr 1
    conv_rhs => rw [← List.map_id b]
    apply List.map_congr_left
    intro e he
    rw [hz e he]
    have := hv e (by simp; tauto)
    ext
    · simp only [id]; omega
    · rfl

theorem arrives_ne {blocks : List (List (ℕ × ℕ))} {rs : List Round} (ha : Arrives blocks rs) : ∀ b ∈ blocks, b ≠ [] := by
  induction ha with
  | done => simp
  | idle _ _ _ _ _ _ _ _ ih => exact ih
  | block b bs _ _ hb _ _ _ _ _ _ ih =>
    intro c hc
    rcases List.mem_cons.1 hc with rfl | hc
    · exact hb
    · exact ih c hc

/-- **C121 is violated** by positive corrections: if every event arrives less than `2^34/n` units of 4 ps after the last event of
the read before, nothing at all is corrected: the output is the input, however long the program runs. -/
theorem C121_lost (legacy : Bool) (f : BitVec 32) (hf : |f.toInt| < 2 ^ 21) (hn : 0 ≤ f.toInt) (d : ℕ) (hd : f.toInt * d ≤ 2 ^ 34)
    (blocks : List (List (ℕ × ℕ))) (rs : List Round) (ha : Arrives blocks rs) (hv : ∀ e ∈ blocks.flatten, e.1 < 2 ^ 54 ∧ e.2 < 2 ^ 10)
    (hord : (blocks.flatten.map Prod.fst).Pairwise (· ≤ ·)) (s : FState) (fo : Bool) (more fsrc : Bytes)
    (h : Initial s f fo (blocks.flatten.flatMap (a1Event legacy) ++ more) fsrc) (t0 : ℕ) (ht0 : ∀ e, blocks.flatten.head? = some e → e.1 = t0)
    (hs : Spaced 0 d t0 blocks) :
    ∃ s', fRun legacy rs s = .ok (s', none) ∧ s'.out = blocks.flatten.flatMap (a1Event legacy) := by
  obtain ⟨s', h1, h2⟩ := C121_exact legacy f hf blocks rs ha hv hord s fo more fsrc h t0 ht0
  refine ⟨s', h1, ?_⟩
  rw [h2, correctedBlocks_lost _ hn d hd blocks t0 (arrives_ne ha) (fun e he => (hv e he).1) hs]

/-- The same for a whole run on a regular file, which is read in blocks of 1024 events. -/
theorem C121_file_lost (w : FWorld) (argv : List Bytes) (m : FMemory) (hm : FMemory.Sized m) (rounds : List Round) (c : Config)
    (h : Ends argv (.ok c)) (hav : Available w c) (hf : |c.fcorr.toInt| < 2 ^ 21) (hn : 0 ≤ c.fcorr.toInt) (d : ℕ) (hd : c.fcorr.toInt * d ≤ 2 ^ 34)
    (raws : List (ℕ × ℕ)) (hin : FWorld.input w c.infile = raws.flatMap (a1Event c.legacy)) (hv : ∀ e ∈ raws, e.1 < 2 ^ 54 ∧ e.2 < 2 ^ 10)
    (hord : (raws.map Prod.fst).Pairwise (· ≤ ·)) (blocks : List (List (ℕ × ℕ))) (hb : IsBatching 1024 raws blocks)
    (hr : ∀ r ∈ rounds, FullRound r) (hlen : blocks.length < rounds.length) (hs : Spaced 0 d ((raws.head?.map Prod.fst).getD 0) blocks) :
    ∃ o, Outcome w argv m rounds o ∧ o.status = some 0 ∧ FOutcome.output o c.outfile = FWorld.input w c.infile := by
  obtain ⟨o, h1, h2, h3⟩ := C95_exact w argv m hm rounds c h hav hf raws hin hv hord blocks hb hr hlen
  refine ⟨o, h1, h2, ?_⟩
  rw [h3, correctedBlocks_lost _ hn d hd blocks _ (fun b hb' => (hb.2.1 b hb').1) (fun e he => (hv e (by rw [← hb.1]; exact he)).1) hs, hb.1, hin]

/-! ## Corrections that are too large -/

theorem correctedBlocks_lowered (n : ℤ) (hn : n < 0) (d : ℕ) (hd : -n * d ≤ 2 ^ 34) : ∀ (blocks : List (List (ℕ × ℕ))) (ref k : ℕ),
    (∀ b ∈ blocks, b ≠ []) → (∀ e ∈ blocks.flatten, e.1 < 2 ^ 54) → k ≤ ref → Spaced (2 ^ 12) d ref blocks →
    correctedBlocks n blocks ref (-k) = lowered k blocks
  | [], _, _, _, _, _, _ => rfl
  | b :: bs, ref, k, hne, hv, hk, hs => by
    obtain ⟨hs1, hs2⟩ := hs
    obtain ⟨el, hel⟩ : ∃ el, b.getLast? = some el := ⟨_, List.getLast?_eq_some_getLast (hne b (by simp))⟩
    have hel' : el ∈ b := List.mem_of_getLast? hel
    have hz : ∀ e ∈ b, moveOf n ref e.1 = -1 := fun e he => moveOf_minus_one n hn d ref e.1 hd (hs1 e he).1 (hs1 e he).2
    have hl : lastTime ref b = el.1 := by unfold lastTime; rw [hel]; rfl
    rw [hl] at hs2
    have ih := correctedBlocks_lowered n hn d hd bs el.1 (k + 1) (fun c hc => hne c (by simp [hc])) (fun e he => hv e (by simp at he ⊢; tauto))
      (by have := (hs1 el hel').1; omega) hs2
    rw [correctedBlocks, lowered, hel, Option.map_some, Option.getD_some, hz el hel', show -(k : ℤ) + -1 = -((k + 1 : ℕ) : ℤ) by push_cast; ring, ih]
    congr 1
    apply List.map_congr_left
    intro e he
    rw [hz e he]
    have := hv e (by simp; tauto)
    have := (hs1 e he).1
    ext
    · show _ = e.1 - (k + 1)
      omega
    · rfl

/-- **C121 is violated** by negative corrections: if every event arrives at least 2^12 and less than `2^34/|n|` units after the last
event of the read before, every read moves the events by one more unit, whatever the correction is. -/
theorem C121_excess (legacy : Bool) (f : BitVec 32) (hf : |f.toInt| < 2 ^ 21) (hn : f.toInt < 0) (d : ℕ) (hd : -f.toInt * d ≤ 2 ^ 34)
    (e0 : ℕ × ℕ) (blocks : List (List (ℕ × ℕ))) (rs : List Round) (ha : Arrives ([e0] :: blocks) rs)
    (hv : ∀ e ∈ e0 :: blocks.flatten, e.1 < 2 ^ 54 ∧ e.2 < 2 ^ 10)
    (hord : ((e0 :: blocks.flatten).map Prod.fst).Pairwise (· ≤ ·)) (s : FState) (fo : Bool) (more fsrc : Bytes)
    (h : Initial s f fo ((e0 :: blocks.flatten).flatMap (a1Event legacy) ++ more) fsrc) (hs : Spaced (2 ^ 12) d e0.1 blocks) :
    ∃ s', fRun legacy rs s = .ok (s', none) ∧ s'.out = (e0 :: lowered 0 blocks).flatMap (a1Event legacy) := by
  obtain ⟨s', h1, h2⟩ := C121_exact legacy f hf ([e0] :: blocks) rs ha hv hord s fo more fsrc h e0.1 (by intro e he; simp at he; rw [he])
  refine ⟨s', h1, ?_⟩
  have hm : moveOf f.toInt e0.1 e0.1 = 0 := by simp [moveOf]
  have h0 := (hv e0 (by simp)).1
  have key := correctedBlocks_lowered f.toInt hn d hd blocks e0.1 0 (fun b hb => arrives_ne ha b (by simp [hb]))
    (fun e he => (hv e (List.mem_cons_of_mem _ he)).1) (by omega) hs
  rw [h2, correctedBlocks, List.getLast?_singleton, Option.map_some, Option.getD_some, hm, add_zero]
  simp only [Nat.cast_zero, neg_zero] at key
  rw [key, List.map_singleton, List.singleton_append, hm, add_zero, add_zero]
  congr 2
  ext
  · show ((e0.1 : ℤ) % 2 ^ 54).toNat = e0.1
    omega
  · rfl

/-! ## A sufficient condition -/

theorem moveOf_eq (n : ℤ) (ref t : ℕ) : moveOf n ref t = corrOf n ((t : ℤ) - ref) := by
  unfold moveOf corrOf
  have g1 : ⌊((t : ℚ) - ref) / 2 ^ 12⌋ = ((t : ℤ) - ref) / 2 ^ 12 := by
    have := floor_div ((t : ℤ) - ref) (2 ^ 12)
    push_cast at this
    exact this
  rw [g1]
  have := floor_div (((t : ℤ) - ref) / 2 ^ 12 * n) (2 ^ 22)
  push_cast at this ⊢
  exact this

theorem correctedBlocks_rate (n : ℤ) (hn : |n| < 2 ^ 21) (t0 D : ℕ) (hD : 0 < D) : ∀ (blocks : List (List (ℕ × ℕ))) (ref : ℕ) (x : ℤ) (j : ℕ),
    (∀ b ∈ blocks, b ≠ []) → (ref :: blocks.flatten.map Prod.fst).Pairwise (· ≤ ·) → t0 + D * j ≤ ref →
    |(x : ℚ) - ((ref : ℚ) - t0) * n / 2 ^ 34| ≤ 3 / 2 * ((j : ℚ) + 1) → Apart D ref blocks →
    List.Forall₂ (fun e o : ℕ × ℕ => o.2 = e.2 ∧ ∃ c : ℤ, (o.1 : ℤ) = (e.1 + c) % 2 ^ 54 ∧
      |(c : ℚ) - ((e.1 : ℚ) - t0) * n / 2 ^ 34| < 3 / 2 * (((e.1 : ℚ) - t0) / D + 2)) blocks.flatten (correctedBlocks n blocks ref x)
  | [], _, _, _, _, _, _, _, _ => by simp [correctedBlocks]
  | b :: bs, ref, x, j, hne, hord, hj, hx, hs => by
    obtain ⟨hs1, hs2⟩ := hs
    obtain ⟨el, hel⟩ : ∃ el, b.getLast? = some el := ⟨_, List.getLast?_eq_some_getLast (hne b (by simp))⟩
    have hel' : el ∈ b := List.mem_of_getLast? hel
    have hl : lastTime ref b = el.1 := by unfold lastTime; rw [hel]; rfl
    rw [hl] at hs1 hs2
    have hmove : ∀ t : ℕ, |((x + moveOf n ref t : ℤ) : ℚ) - ((t : ℚ) - t0) * n / 2 ^ 34| < 3 / 2 * ((j : ℚ) + 2) := by
      intro t
      have hm := moveOf_eq n ref t
      have := corrOf_approx n ((t : ℤ) - ref) hn
      rw [← hm] at this
      have e : ((x + moveOf n ref t : ℤ) : ℚ) - ((t : ℚ) - t0) * n / 2 ^ 34 =
          ((x : ℚ) - ((ref : ℚ) - t0) * n / 2 ^ 34) + ((moveOf n ref t : ℚ) - (((t : ℤ) - ref : ℤ) : ℚ) * n / 2 ^ 34) := by
        push_cast
        ring
      rw [e]
      calc _ ≤ _ := abs_add_le _ _
        _ < 3 / 2 * ((j : ℚ) + 1) + 3 / 2 := add_lt_add_of_le_of_lt hx this
        _ = _ := by ring
    rw [List.flatten_cons, List.map_append, List.pairwise_cons, List.pairwise_append] at hord
    have ih := correctedBlocks_rate n hn t0 D hD bs el.1 (x + moveOf n ref el.1) (j + 1) (fun c hc => hne c (by simp [hc]))
      (by
        rw [List.pairwise_cons]
        exact ⟨fun t ht => hord.2.2.2 el.1 (List.mem_map_of_mem hel') t ht, hord.2.2.1⟩)
      (by rw [Nat.mul_add, Nat.mul_one]; omega) (by
        have := (hmove el.1).le
        push_cast at this ⊢
        linarith) hs2
    rw [correctedBlocks, hel, Option.map_some, Option.getD_some, List.flatten_cons]
    refine List.rel_append ?_ ih
    rw [List.forall₂_map_right_iff]
    refine List.forall₂_same.2 ?_
    intro e he
    refine ⟨rfl, x + moveOf n ref e.1, ?_, ?_⟩
    · show ((((e.1 : ℤ) + (x + moveOf n ref e.1)) % 2 ^ 54).toNat : ℤ) = _
      omega
    · refine (hmove e.1).trans_le ?_
      have hle : ref ≤ e.1 := hord.1 e.1 (List.mem_append_left _ (List.mem_map_of_mem he))
      have hjt : (D : ℚ) * j ≤ (e.1 : ℚ) - t0 := by
        have : t0 + D * j ≤ e.1 := hj.trans hle
        have : (t0 : ℚ) + D * j ≤ e.1 := by exact_mod_cast this
        linarith
      have hD' : (0 : ℚ) < D := by exact_mod_cast hD
      have : (j : ℚ) ≤ ((e.1 : ℚ) - t0) / D := by
        rw [le_div_iff₀ hD']; linarith
      linarith

/-- **C121** (partial), a sufficient condition: if the last events of successive reads are at least `D` units apart, the frequency
that is applied differs from `n / 2^34` by at most `3/(2D)`: the move of an event at `t` is right within `3/2 * ((t - t0)/D + 2)`
units.  With reads of 0.3 s (2^36 units) or more the error of the frequency is less than half a unit of `-f`. -/
theorem C121_rate_partial (legacy : Bool) (f : BitVec 32) (hf : |f.toInt| < 2 ^ 21) (D : ℕ) (hD : 0 < D) (b : List (ℕ × ℕ))
    (blocks : List (List (ℕ × ℕ))) (rs : List Round) (ha : Arrives (b :: blocks) rs)
    (hv : ∀ e ∈ b ++ blocks.flatten, e.1 < 2 ^ 54 ∧ e.2 < 2 ^ 10)
    (hord : ((b ++ blocks.flatten).map Prod.fst).Pairwise (· ≤ ·)) (s : FState) (fo : Bool) (more fsrc : Bytes)
    (h : Initial s f fo ((b ++ blocks.flatten).flatMap (a1Event legacy) ++ more) fsrc) (t0 : ℕ) (ht0 : b.head?.map Prod.fst = some t0)
    (hs : Apart D (lastTime t0 b) blocks) :
    ∃ s' outs, fRun legacy rs s = .ok (s', none) ∧ s'.out = outs.flatMap (a1Event legacy) ∧
      List.Forall₂ (fun e o : ℕ × ℕ => o.2 = e.2 ∧ ∃ c : ℤ, (o.1 : ℤ) = (e.1 + c) % 2 ^ 54 ∧
        |(c : ℚ) - ((e.1 : ℚ) - t0) * f.toInt / 2 ^ 34| < 3 / 2 * (((e.1 : ℚ) - t0) / D + 2)) (b ++ blocks.flatten) outs := by
  obtain ⟨e0, he0, rfl⟩ : ∃ e0, b.head? = some e0 ∧ e0.1 = t0 := by
    cases hb : b.head? with
    | none => rw [hb] at ht0; simp at ht0
    | some e => rw [hb] at ht0; exact ⟨e, rfl, by simpa using ht0⟩
  have hbne : b ≠ [] := arrives_ne ha b (by simp)
  have hhead : ∀ e, ((b :: blocks).flatten).head? = some e → e.1 = e0.1 := by
    intro e he
    rw [List.flatten_cons, List.head?_append, he0] at he
    simp only [Option.some_or, Option.some.injEq] at he
    rw [he]
  obtain ⟨s', h1, h2⟩ := C121_exact legacy f hf (b :: blocks) rs ha hv hord s fo more fsrc h e0.1 hhead
  refine ⟨s', _, h1, h2, ?_⟩
  obtain ⟨el, hel⟩ : ∃ el, b.getLast? = some el := ⟨_, List.getLast?_eq_some_getLast hbne⟩
  have hel' : el ∈ b := List.mem_of_getLast? hel
  have hl : lastTime e0.1 b = el.1 := by unfold lastTime; rw [hel]; rfl
  rw [hl] at hs
  have hmove : ∀ t : ℕ, |((moveOf f.toInt e0.1 t : ℤ) : ℚ) - ((t : ℚ) - e0.1) * f.toInt / 2 ^ 34| < 3 / 2 := by
    intro t
    have := corrOf_approx f.toInt ((t : ℤ) - e0.1) hf
    rw [← moveOf_eq] at this
    push_cast at this
    exact this
  rw [List.map_append, List.pairwise_append] at hord
  have hge : ∀ e ∈ b, e0.1 ≤ e.1 := by
    intro e he
    obtain ⟨b', rfl⟩ : ∃ b', b = e0 :: b' := by
      cases b with
      | nil => simp at hbne
      | cons c b' => simp at he0; exact ⟨b', by rw [he0]⟩
    have := hord.1
    rw [List.map_cons, List.pairwise_cons] at this
    rcases List.mem_cons.1 he with rfl | he
    · exact le_rfl
    · exact this.1 _ (List.mem_map_of_mem he)
  have key := correctedBlocks_rate f.toInt hf e0.1 D hD blocks el.1 (0 + moveOf f.toInt e0.1 el.1) 0 (fun c hc => arrives_ne ha c (by simp [hc]))
    (by
      rw [List.pairwise_cons]
      exact ⟨fun t ht => hord.2.2 el.1 (List.mem_map_of_mem hel') t ht, hord.2.1⟩)
    (by simpa using hge el hel') (by
      have := (hmove el.1).le
      push_cast at this ⊢
      simpa using this) hs
  rw [correctedBlocks, hel, Option.map_some, Option.getD_some]
  refine List.rel_append ?_ key
  rw [List.forall₂_map_right_iff]
  refine List.forall₂_same.2 ?_
  intro e he
  refine ⟨rfl, moveOf f.toInt e0.1 e.1, ?_, ?_⟩
  · show ((((e.1 : ℤ) + (0 + moveOf f.toInt e0.1 e.1)) % 2 ^ 54).toNat : ℤ) = _
    omega
  · refine (hmove e.1).trans_le ?_
    have : (0 : ℚ) ≤ ((e.1 : ℚ) - e0.1) / D := by
      have : (e0.1 : ℚ) ≤ e.1 := by exact_mod_cast hge e he
      apply div_nonneg
      · linarith
      · positivity
    linarith

/-! ## Examples -/

/-- The kernel delivers `k` events and accepts whatever is written. -/
def arrival (k : ℕ) : Round := { selectOk := true, inRead := some (some (8 * k)), freqRead := none, write := some 8192 }

theorem arrives_singles : ∀ l : List (ℕ × ℕ), Arrives (l.map fun e => [e]) (l.map fun _ => arrival 1)
  | [] => .done
  | _ :: l => .block _ _ _ _ (by simp) (by simp) rfl rfl rfl ⟨8192, rfl, by simp⟩ (arrives_singles l)

theorem ticks_spaced : ∀ (K j : ℕ), Spaced 0 4097 (4096 * j) ((List.range' (j + 1) K).map fun i : ℕ => [(4096 * i, 1)])
  | 0, _ => trivial
  | K + 1, j => by
    rw [List.range'_succ, List.map_cons]
    refine ⟨?_, ?_⟩
    · intro e he
      rw [List.mem_singleton] at he
      subst he
      simp only
      omega
    · exact ticks_spaced K (j + 1)

/-- **C121 is violated**: for every positive correction `n` that freqcd accepts there are recordings of any length (`K` events, 16 ns
apart, up to 2^42 of them) that are written unchanged, although the last event should be moved by `K * n / 2^22` units. -/
theorem C121_violated (f : BitVec 32) (hf : |f.toInt| < 2 ^ 21) (hn : 0 < f.toInt) (K : ℕ) (hK : K < 2 ^ 42) :
    ∃ (rs : List Round) (s s' : FState) (src : Bytes), Initial s f false src [] ∧ fRun false rs s = .ok (s', none) ∧ s'.out = src ∧
      times false src = (List.range (K + 1)).map (4096 * ·) := by
  obtain ⟨l, hl⟩ : ∃ l : List (ℕ × ℕ), l = (List.range' 0 (K + 1)).map fun i : ℕ => (4096 * i, 1) := ⟨_, rfl⟩
  have hflat : (l.map fun e => [e]).flatten = l := by
    rw [← List.flatMap_def]; simp
  have hin : Initial (fInit (List.replicate 8192 0) (List.replicate 8192 0) (List.replicate 100 0) 0 0 f false (l.flatMap (a1Event false)) []) f false
      (l.flatMap (a1Event false)) [] := ⟨_, _, _, _, _, List.length_replicate, List.length_replicate, List.length_replicate, rfl⟩
  have hv : ∀ e ∈ l, e.1 < 2 ^ 54 ∧ e.2 < 2 ^ 10 := by
    intro e he
    rw [hl, List.mem_map] at he
    obtain ⟨i, hi, rfl⟩ := he
    rw [List.mem_range'_1] at hi
    simp only
    omega
  obtain ⟨s', h1, h2⟩ := C121_lost false f hf hn.le 4097 (by
      have := (abs_lt.1 hf).2
      push_cast
      nlinarith) (l.map fun e => [e]) (l.map fun _ => arrival 1) (arrives_singles l) (by rw [hflat]; exact hv)
    (by
      rw [hflat, hl, List.map_map, List.pairwise_map]
      refine (List.pairwise_lt_range' (s := 0) (n := K + 1)).imp ?_
      intro a b hab
      simp only [Function.comp]
      omega) _ false [] [] (by rw [hflat, List.append_nil]; exact hin) 0
    (by
      rw [hflat, hl, List.range'_succ]
      intro e he
      simp at he
      rw [← he])
    (by
      rw [hl, List.range'_succ, List.map_cons, List.map_cons]
      refine ⟨by simp, ?_⟩
      rw [List.map_map]
      exact ticks_spaced K 0)
  rw [hflat] at h2
  refine ⟨_, _, s', _, hin, h1, h2, ?_⟩
  unfold times
  rw [events_flatMap _ _ (fun y _ => a1Event_length false y), List.map_map, hl, List.map_map, ← List.range_eq_range']
  apply List.map_congr_left
  intro i hi
  rw [List.mem_range] at hi
  exact (evTime_a1Event false (4096 * i, 1) (by simp only; omega) (by simp)).1

/-- Three events 100 ns apart, one per read: the hypotheses of `C121_lost` for corrections up to 687000 units (4e-5), and those of
`C121_excess`, here for a correction of -17 units (-1e-9), which becomes -1/25000 (-4e-5). -/
example : Arrives [[(0, 1)], [(25000, 1)], [(50000, 1)]] [arrival 1, arrival 1, arrival 1] :=
  arrives_singles [(0, 1), (25000, 1), (50000, 1)]

example : Spaced 0 25001 0 [[(0, 1)], [(25000, 1)], [(50000, 1)]] ∧ (687000 : ℤ) * 25001 ≤ 2 ^ 34 := by
  refine ⟨?_, by norm_num⟩
  simp [Spaced, lastTime]

example : Spaced (2 ^ 12) 25001 0 [[(25000, 1)], [(50000, 1)]] ∧ -(-17 : ℤ) * 25001 ≤ 2 ^ 34 ∧
    lowered 0 [[(25000, 1)], [(50000, 1)]] = [(24999, 1), (49998, 1)] := by
  refine ⟨?_, by norm_num, rfl⟩
  simp [Spaced, lastTime]

/-- Reads of 0.3 s satisfy the condition of `C121_rate_partial`. -/
example : Apart (2 ^ 36) 5 [[(7, 1), (2 ^ 36 + 5, 2)], [(2 ^ 36 + 9, 1), (2 ^ 37 + 6, 4)]] := by
  simp [Apart, lastTime]


end Fp
