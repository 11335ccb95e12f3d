import Verif.Props.FreqcdProgram
import Verif.Props.TestGen
import Verif.Lemmas.RawMain
import Verif.Spec.FreqcdExact

/-! # C95: the exact output of `freqcd` on regular files, and the test pipeline -/
namespace Fp
open Spec

theorem evTime_a1Event (legacy : Bool) (e : ℕ × ℕ) (h1 : e.1 < 2 ^ 54) (h2 : e.2 < 2 ^ 10) :
    evTime legacy (a1Event legacy e) = e.1 ∧ evFlags legacy (a1Event legacy e) = e.2 := by
  have hw : word legacy (a1Event legacy e) = e.1 * 2 ^ 10 + e.2 := by
    unfold word a1Event
    cases legacy
    · simp only [Bool.false_eq_true, if_false]
      rw [leNat_append, leBytes_length, leNat_leBytes, leNat_leBytes]
      norm_num
      omega
    · simp only [if_true]
      rw [List.take_left' (leBytes_length _ _), List.drop_left' (leBytes_length _ _), leNat_leBytes, leNat_leBytes]
      norm_num
      omega
  unfold evTime evFlags
  rw [hw]
  omega

theorem eq_a1Event (legacy : Bool) (w1 w2 : BitVec 32) :
    (if legacy then eventBytes w2 w1 else eventBytes w1 w2) =
      a1Event legacy (evTime legacy (if legacy then eventBytes w2 w1 else eventBytes w1 w2), evFlags legacy (if legacy then eventBytes w2 w1 else eventBytes w1 w2)) := by
  have h1 := w1.isLt
  have h2 := w2.isLt
  have hw : word legacy (if legacy then eventBytes w2 w1 else eventBytes w1 w2) = w2.toNat * 2 ^ 32 + w1.toNat := by
    unfold word eventBytes
    cases legacy
    · simp only [Bool.false_eq_true, if_false]
      rw [leNat_append, leBytes_length, leNat_leBytes, leNat_leBytes]
      norm_num
      omega
    · simp only [if_true]
      rw [List.take_left' (leBytes_length _ _), List.drop_left' (leBytes_length _ _), leNat_leBytes, leNat_leBytes]
      norm_num
      omega
  unfold evTime evFlags
  rw [hw]
  unfold a1Event eventBytes
  simp only
  rw [show (w2.toNat * 2 ^ 32 + w1.toNat) / 2 ^ 10 % 2 ^ 22 * 2 ^ 10 + (w2.toNat * 2 ^ 32 + w1.toNat) % 2 ^ 10 = w1.toNat by omega,
    show (w2.toNat * 2 ^ 32 + w1.toNat) / 2 ^ 10 / 2 ^ 22 = w2.toNat by omega]

theorem evCorrect_a1Event (legacy : Bool) (f : BitVec 32) (hf : |f.toInt| < 2 ^ 21) (tsref ovf : BitVec 64) (x : ℤ) (hx : ovf = BitVec.ofInt 64 x)
    (e : ℕ × ℕ) (h1 : e.1 < 2 ^ 54) (h2 : e.2 < 2 ^ 10) (hle : tsref.toNat ≤ e.1) :
    evCorrect legacy f tsref ovf (a1Event legacy e) =
      a1Event legacy (((e.1 + (x + moveOf f.toInt tsref.toNat e.1)) % 2 ^ 54).toNat, e.2) := by
  obtain ⟨t1, t2⟩ := evTime_a1Event legacy e h1 h2
  have hl := a1Event_length legacy e
  have htime := corrected_time legacy f tsref ovf (a1Event legacy e) hl (by rw [t1]; exact hle) hf x hx
  have hflag := evFlags_evCorrect legacy f tsref ovf (a1Event legacy e) hl
  rw [t1] at htime
  rw [t2] at hflag
  have hmove : moveOf f.toInt tsref.toNat e.1 = corrOf f.toInt ((e.1 : ℤ) - tsref.toNat) := by
    unfold moveOf corrOf
    have g1 : ⌊((e.1 : ℚ) - tsref.toNat) / 2 ^ 12⌋ = ((e.1 : ℤ) - tsref.toNat) / 2 ^ 12 := by
      have := floor_div ((e.1 : ℤ) - tsref.toNat) (2 ^ 12)
      push_cast at this
      exact this
    rw [g1]
    have := floor_div (((e.1 : ℤ) - tsref.toNat) / 2 ^ 12 * f.toInt) (2 ^ 22)
    push_cast at this ⊢
    exact this
  rw [hmove, ← htime, Int.toNat_natCast, ← hflag]
  exact eq_a1Event legacy _ _

theorem take_block (legacy : Bool) (b rest : List (ℕ × ℕ)) (hb : b.length ≤ 1024) (h : rest ≠ [] → b.length = 1024) :
    ((b ++ rest).flatMap (a1Event legacy)).take 8192 = b.flatMap (a1Event legacy) ∧
    ((b ++ rest).flatMap (a1Event legacy)).drop 8192 = rest.flatMap (a1Event legacy) := by
  have hlen : ∀ l : List (ℕ × ℕ), (l.flatMap (a1Event legacy)).length = 8 * l.length := by
    intro l
    rw [List.length_flatMap]
    simp only [a1Event_length]
    rw [List.map_const', List.sum_replicate_nat]
    omega
  rw [List.flatMap_append]
  by_cases hr : rest = []
  · subst hr
    have := hlen b
    simp only [List.flatMap_nil, List.append_nil]
    exact ⟨List.take_of_length_le (by omega), List.drop_eq_nil_of_le (by omega)⟩
  · have := hlen b
    rw [h hr] at this
    exact ⟨List.take_left' this, List.drop_left' this⟩

def afterBlock (legacy : Bool) (a : AState) (f : BitVec 32) (R : BitVec 64) (el : ℕ × ℕ) (b rest : List (ℕ × ℕ)) : AState :=
  { a with
    pend := []
    isset := true
    tsmeas := evMeas legacy (a1Event legacy el)
    tscorr := tsCorr f R (evMeas legacy (a1Event legacy el))
    tsref := evMeas legacy (a1Event legacy el)
    ovf := a.ovf + tsCorr f R (evMeas legacy (a1Event legacy el))
    src := rest.flatMap (a1Event legacy)
    out := a.out ++ (b.map (a1Event legacy)).flatMap (evCorrect legacy f R a.ovf) }

theorem exact_run (legacy : Bool) (f : BitVec 32) (hf : |f.toInt| < 2 ^ 21) : ∀ (blocks : List (List (ℕ × ℕ))) (rs : List Round) (a : AState) (ref : ℕ) (x : ℤ),
    (∀ r ∈ rs, FullRound r) → blocks.length < rs.length → a.pend = [] → a.fcorr = f → a.src = blocks.flatten.flatMap (a1Event legacy) →
    a.ovf = BitVec.ofInt 64 x → (∀ b ∈ blocks, b ≠ [] ∧ b.length ≤ 1024) → (∀ b ∈ blocks.dropLast, b.length = 1024) →
    (∀ e ∈ blocks.flatten, e.1 < 2 ^ 54 ∧ e.2 < 2 ^ 10) → (ref :: blocks.flatten.map Prod.fst).Pairwise (· ≤ ·) →
    (if a.isset then a.tsref.toNat = ref else ∀ e, blocks.flatten.head? = some e → e.1 = ref) →
    (aRun legacy rs a).1.out = a.out ++ (correctedBlocks f.toInt blocks ref x).flatMap (a1Event legacy) ∧ (aRun legacy rs a).2 = some .inputClosed := by
  intro blocks
  induction blocks with
  | nil =>
    intro rs a ref x hr hlen hp hfc hs ho _ _ _ _ _
    cases rs with
    | nil => simp at hlen
    | cons r rs =>
      have hs : a.src = [] := by simpa using hs
      have := (full_step (legacy := legacy) (hr r (by simp)) hp (by rw [hs]; simp)).1 hs
      unfold aRun
      rw [this]
      simp [correctedBlocks]
  | cons b bs ih =>
    intro rs a ref x hr hlen hp hfc hs ho hne hfull hv hord href
    cases rs with
    | nil => simp at hlen
    | cons r rs =>
      obtain ⟨hb1, hb2⟩ := hne b (by simp)
      have hrest : bs.flatten ≠ [] → b.length = 1024 := by
        intro hne'
        apply hfull
        cases bs with
        | nil => simp at hne'
        | cons b' bs' => simp
      obtain ⟨ht, hd⟩ := take_block legacy b bs.flatten hb2 hrest
      rw [List.flatten_cons] at hs
      have hlb : (b.flatMap (a1Event legacy)).length = 8 * b.length := by
        rw [List.length_flatMap]
        simp only [a1Event_length]
        rw [List.map_const', List.sum_replicate_nat]
        omega
      have hbpos : 0 < b.length := List.length_pos_iff.2 hb1
      have h8 : 8 ∣ a.src.length := by
        rw [hs, List.length_flatMap]
        simp only [a1Event_length]
        rw [List.map_const', List.sum_replicate_nat]
        exact ⟨_, Nat.mul_comm _ _⟩
      have hsne : a.src ≠ [] := by
        intro h
        rw [hs, List.flatMap_append] at h
        have := congrArg List.length h
        rw [List.length_append, hlb] at this
        simp only [List.length_nil] at this
        omega
      obtain ⟨k1, k2, k3⟩ := (full_step (legacy := legacy) (hr r (by simp)) hp h8).2 hsne
      -- the step in detail
      obtain ⟨e0, b', rfl⟩ := List.exists_cons_of_ne_nil hb1
      obtain ⟨el, hel⟩ : ∃ el, (e0 :: b').getLast? = some el := ⟨_, List.getLast?_eq_some_getLast (by simp)⟩
      have hel' : el ∈ e0 :: b' := List.mem_of_getLast? hel
      have hevs : events ((e0 :: b').flatMap (a1Event legacy)) = (e0 :: b').map (a1Event legacy) :=
        events_flatMap _ _ (fun y _ => a1Event_length legacy y)
      have hvb : ∀ e ∈ e0 :: b', e.1 < 2 ^ 54 ∧ e.2 < 2 ^ 10 := fun e he => hv e (by rw [List.flatten_cons]; exact List.mem_append_left _ he)
      have hmeas : ∀ e ∈ e0 :: b', (evMeas legacy (a1Event legacy e)).toNat = e.1 := by
        intro e he
        rw [evMeas_toNat legacy _ (a1Event_length legacy e), (evTime_a1Event legacy e (hvb e he).1 (hvb e he).2).1]
      have hordb : ∀ e ∈ e0 :: b', ref ≤ e.1 := by
        intro e he
        rw [List.pairwise_cons] at hord
        exact hord.1 _ (List.mem_map_of_mem (by rw [List.flatten_cons]; exact List.mem_append_left _ he))
      set R : BitVec 64 := if a.isset then a.tsref else evMeas legacy (a1Event legacy e0) with hR
      have hRn : R.toNat = ref := by
        rw [hR]
        by_cases hi : a.isset = true
        · simp only [hi, if_true] at href ⊢; exact href
        · simp only [hi] at href ⊢
          rw [if_neg (by simp), hmeas e0 (by simp)]
          exact href e0 (by simp)
      have hstep : (aStep legacy r a).1 = afterBlock legacy a f R el (e0 :: b') bs.flatten := by
        obtain ⟨q1, ⟨k, q2, hk⟩, q3, k', q4, hk'⟩ := hr r (by simp)
        have hmin : min k bufSize = 8192 := by unfold bufSize; omega
        have hfq : ∀ a : AState, aFreq none a = (a, none) := by
          intro a; unfold aFreq; cases a.freqOpen <;> rfl
        have hdata : a.src.take 8192 = (e0 :: b').flatMap (a1Event legacy) := by rw [hs]; exact ht
        have hdrop : a.src.drop 8192 = bs.flatten.flatMap (a1Event legacy) := by rw [hs]; exact hd
        have hdne : (e0 :: b').flatMap (a1Event legacy) ≠ [] := by
          intro h
          have := congrArg List.length h
          rw [hlb] at this
          simp at this
        have hsrc2 : a.src.drop ((e0 :: b').flatMap (a1Event legacy)).length = bs.flatten.flatMap (a1Event legacy) := by
          rw [hs, List.flatMap_append, List.drop_left]
        have hglast : (List.map (a1Event legacy) (e0 :: b')).getLast? = some (a1Event legacy el) := by
          rw [List.getLast?_map, hel]; rfl
        have hblock : (((e0 :: b').map (a1Event legacy)).flatMap (evCorrect legacy f R a.ovf)).length ≤ k' := by
          rw [List.length_flatMap]
          simp only [evCorrect_length]
          rw [List.map_const', List.sum_replicate_nat, List.length_map]
          omega
        unfold aStep aInput
        simp only [q1, q2, q3, q4, hp, List.nil_append, List.length_nil, Nat.sub_zero, hmin, hdata, hdne, if_false, Bool.not_true, Bool.false_eq_true,
          ne_eq, not_true, hfq, hevs, hglast, Option.map_some, Option.getD_some, hfc]
        rw [show (if a.isset = true then a.tsref else (Option.map (evMeas legacy) (List.map (a1Event legacy) (e0 :: b')).head?).getD a.tsref) = R by
          rw [hR]; rfl]
        unfold aWrite
        simp only [hsrc2, List.take_of_length_le hblock]
        rw [hlb, Nat.mul_div_cancel_left _ (by norm_num), List.drop_eq_nil_of_le (by rw [hlb])]
        simp [afterBlock]
        exact hfc.symm
      unfold aRun
      rw [k1, if_neg (by simp), hstep]
      have htc : tsCorr f R (evMeas legacy (a1Event legacy el)) = BitVec.ofInt 64 (moveOf f.toInt ref el.1) := by
        have := (C41_no_overflow f R (evMeas legacy (a1Event legacy el)) (by rw [hRn, hmeas el hel']; exact hordb el hel')
          (by rw [hmeas el hel']; exact (hvb el hel').1) hf).1
        rw [hRn, hmeas el hel'] at this
        unfold moveOf
        rw [← this, BitVec.ofInt_toInt]
      rw [List.flatten_cons] at hord hv
      obtain ⟨r1, r2⟩ := ih rs (afterBlock legacy a f R el (e0 :: b') bs.flatten) el.1 (x + moveOf f.toInt ref el.1)
        (fun r hr' => hr r (by simp [hr'])) (by simp only [List.length_cons] at hlen; omega) rfl hfc rfl
        (by show a.ovf + tsCorr f R (evMeas legacy (a1Event legacy el)) = _; rw [htc, ho, ← BitVec.ofInt_add])
        (fun b hb => hne b (by simp [hb]))
        (fun b hb => hfull b (by
          cases bs with
          | nil => simp at hb
          | cons b2 bs2 => rw [List.dropLast_cons_of_ne_nil (by simp)]; simp [hb]))
        (fun e he => hv e (List.mem_append_right _ he))
        (by
          rw [List.map_append, List.pairwise_cons, List.pairwise_append] at hord
          rw [List.pairwise_cons]
          refine ⟨?_, hord.2.2.1⟩
          intro t ht
          exact hord.2.2.2 el.1 (List.mem_map_of_mem hel') t ht)
        (hmeas el hel')
      refine ⟨?_, r2⟩
      rw [r1]
      simp only [afterBlock, correctedBlocks, hel, Option.map_some, Option.getD_some]
      rw [List.append_assoc, List.flatMap_append]
      congr 2
      rw [List.flatMap_map, List.flatMap_map]
      apply List.flatMap_congr
      intro e he
      have := evCorrect_a1Event legacy f hf R a.ovf x ho e (hvb e he).1 (hvb e he).2 (by rw [hRn]; exact hordb e he)
      rw [hRn] at this
      exact this

/-- **C95**: on a regular file of events in order of time, without frequency channel, the output is that of the blocks of 1024
events (the last one possibly shorter), each corrected relative to the last event before it.  In particular it does not depend
on the contents of uninitialised memory. -/
theorem C95_exact (w : FWorld) (argv : List Bytes) (m : FMemory) (hm : FMemory.Sized m) (rounds : List Round) (c : Config)
    (h : Ends argv (.ok c)) (hav : Available w c) (hf : |c.fcorr.toInt| < 2 ^ 21)
    (raws : List (ℕ × ℕ)) (hin : FWorld.input w c.infile = raws.flatMap (a1Event c.legacy)) (hv : ∀ e ∈ raws, e.1 < 2 ^ 54 ∧ e.2 < 2 ^ 10)
    (hord : (raws.map Prod.fst).Pairwise (· ≤ ·)) (blocks : List (List (ℕ × ℕ))) (hb : IsBatching 1024 raws blocks)
    (hr : ∀ r ∈ rounds, FullRound r) (hlen : blocks.length < rounds.length) :
    ∃ o, Outcome w argv m rounds o ∧ o.status = some 0 ∧
      FOutcome.output o c.outfile = (correctedBlocks c.fcorr.toInt blocks ((raws.head?.map Prod.fst).getD 0) 0).flatMap (a1Event c.legacy) := by
  obtain ⟨o, s, s', stop, h1, h2, h3, h4, -, -, -, h9⟩ := C94_started w argv m hm rounds c h hav
  obtain ⟨hwf, hoe, -, hout, hfc, hsrc, hiss, hovf⟩ := initial_wf h2
  have hpend : (abst s).pend = [] := by
    obtain ⟨_, _, _, _, _, -, -, -, rfl⟩ := h2
    simp [abst, fInit]
  have hsrc' : (abst s).src = blocks.flatten.flatMap (a1Event c.legacy) := by
    show s.src = _
    rw [hsrc, hin, hb.1]
  have key := exact_run c.legacy c.fcorr hf blocks rounds (abst s) ((raws.head?.map Prod.fst).getD 0) 0 hr hlen hpend hfc hsrc'
    (by show s.ovf = _; rw [hovf]; rfl) hb.2.1 hb.2.2 (by rw [hb.1]; exact hv)
    (by
      rw [hb.1, List.pairwise_cons]
      refine ⟨?_, hord⟩
      intro t ht
      cases raws with
      | nil => simp at ht
      | cons e0 l =>
        rw [List.map_cons, List.pairwise_cons] at hord
        rw [List.map_cons, List.mem_cons] at ht
        rcases ht with rfl | ht
        · exact le_rfl
        · exact hord.1 t ht)
    (by
      have : (abst s).isset = false := hiss
      rw [this, if_neg (by simp), hb.1]
      intro e he
      rw [he]; rfl)
  rw [run_abst hwf hoe h3] at key
  obtain ⟨k1, k2⟩ := key
  have k2 : stop = some .inputClosed := k2
  have k1 : s'.out = s.out ++ _ := k1
  refine ⟨o, h1, by rw [h9, k2]; rfl, ?_⟩
  rw [h4, k1, hout, List.nil_append]

/-- **C95**, up to 1024 events: every time `t` becomes `t + ⌊⌊(t - t0) / 2^12⌋ * n / 2^22⌋`. -/
theorem C95_one_block (w : FWorld) (argv : List Bytes) (m : FMemory) (hm : FMemory.Sized m) (rounds : List Round) (c : Config)
    (h : Ends argv (.ok c)) (hav : Available w c) (hf : |c.fcorr.toInt| < 2 ^ 21)
    (e0 : ℕ × ℕ) (raws : List (ℕ × ℕ)) (hin : FWorld.input w c.infile = (e0 :: raws).flatMap (a1Event c.legacy))
    (hv : ∀ e ∈ e0 :: raws, e.1 < 2 ^ 54 ∧ e.2 < 2 ^ 10) (hord : ((e0 :: raws).map Prod.fst).Pairwise (· ≤ ·)) (hl : raws.length < 1024)
    (hr : ∀ r ∈ rounds, FullRound r) (hlen : 2 ≤ rounds.length) :
    ∃ o, Outcome w argv m rounds o ∧ o.status = some 0 ∧
      FOutcome.output o c.outfile = (e0 :: raws).flatMap fun e => a1Event c.legacy (((e.1 + moveOf c.fcorr.toInt e0.1 e.1) % 2 ^ 54).toNat, e.2) := by
  obtain ⟨o, h1, h2, h3⟩ := C95_exact w argv m hm rounds c h hav hf (e0 :: raws) hin hv hord [e0 :: raws]
    ⟨by simp, by intro x hx; rw [List.mem_singleton] at hx; subst hx; exact ⟨by simp, by simp only [List.length_cons]; omega⟩, by simp⟩ hr (by simp only [List.length_singleton]; omega)
  refine ⟨o, h1, h2, h3.trans ?_⟩
  simp only [correctedBlocks, List.append_nil, List.head?_cons, Option.map_some, Option.getD_some, zero_add]
  rw [List.flatMap_map]

/-- A file of three events, as in the test of the repository. -/
example : [(0, 1), (1000000000, 1), (2000000000, 1)].map (fun e : ℕ × ℕ => ((e.1 + moveOf 1000000 0 e.1) % 2 ^ 54).toNat) =
    [0, 1000058207, 2000116415] := by decide +kernel

/-! ## The test pipeline -/

/-- **C95**, `generate_freqcd_testcase.py -t ts | freqcd -f n | generate_freqcd_testcase.py -`: for at most 1024 times in order,
read at once, the formula above. -/
theorem C95_pipeline (fw : Nat) (hfw : 54 ≤ fw) (prog v : Bytes) (n : ℤ) (hn : Numeral v n) (hrange : |n| < 2 ^ 21) (t0 : ℕ) (ts : List ℕ)
    (hts : ∀ t ∈ t0 :: ts, t < 2 ^ 54) (hord : (t0 :: ts).Pairwise (· ≤ ·)) (hl : ts.length < 1024)
    (m : FMemory) (hm : FMemory.Sized m) (rounds : List Round) (hr : ∀ r ∈ rounds, FullRound r) (hlen : 2 ≤ rounds.length) (temp : List Char) :
    PipelinePrints fw ((t0 :: ts).map fun t : ℕ => (t : ℤ)) [prog, [45, 102], v] m rounds temp ((t0 :: ts).map fun t : ℕ => (t + moveOf n t0 t) % 2 ^ 54) := by
  have hof : (BitVec.ofInt 32 n).toInt = n := by
    rw [abs_lt] at hrange
    rw [BitVec.toInt_ofInt]
    exact Int.bmod_eq_of_le (by omega) (by omega)
  have hs : Sound [Item.arg 102 v] := by
    intro it hit
    rw [List.mem_singleton] at hit
    subst hit
    rw [abs_lt] at hrange
    exact Or.inr ⟨rfl, n, hn, by omega, by omega⟩
  have hends := C53_meaning prog [Item.arg 102 v] _ (Written.separate [] 102 v [] [] (by simp) (by simp [ArgLetter]) Written.nil) hs n hn
  have hno : Item.flag 100 ∉ [Item.arg 102 v] := by simp
  simp only [if_neg hno] at hends
  rw [if_pos (Or.inl (by rw [hof]; exact hrange))] at hends
  have hends : Ends [prog, [45, 102], v] (.ok (⟨BitVec.ofInt 32 n, false, [], [], []⟩ : Config)) := by simpa [lastArg] using hends
  have hgen := C56_stdout_partial fw [] ((t0 :: ts).map fun t : ℕ => (t : ℤ)) (by simp)
    (by intro t ht; obtain ⟨k, -, rfl⟩ := List.mem_map.mp ht; omega) false none [] [] ⟨fun _ => none, []⟩
  have hbytes : outBytes (genMain fw { o := none, t := some ((t0 :: ts).map fun t : ℕ => (t : ℤ)), x := false, infile := none } [] [] [] ⟨fun _ => none, []⟩).1.out =
      ((t0 :: ts).map fun t : ℕ => (t, 1)).flatMap (a1Event false) := by
    rw [hgen]
    unfold outBytes
    simp only [List.nil_append]
    rw [List.flatMap_map, List.flatMap_map, List.flatMap_map]
    apply List.flatMap_congr
    intro t ht
    have := hts t ht
    simp only [Int.toNat_natCast]
    rw [Nat.mod_eq_of_lt this]
  have hraw : (t0 :: ts).map (fun t : ℕ => (t, 1)) = (t0, 1) :: ts.map fun t : ℕ => (t, 1) := rfl
  obtain ⟨o, h1, h2, h3⟩ := C95_one_block ⟨fun _ => none, fun _ => false,
      outBytes (genMain fw { o := none, t := some ((t0 :: ts).map fun t : ℕ => (t : ℤ)), x := false, infile := none } [] [] [] ⟨fun _ => none, []⟩).1.out⟩
    _ m hm rounds _ hends ⟨by simp, by simp, by simp⟩ (by rw [hof]; exact hrange) (t0, 1) (ts.map fun t : ℕ => (t, 1))
    (by rw [← hraw]; exact hbytes)
    (by
      rw [← hraw]
      intro e he
      obtain ⟨t, ht, rfl⟩ := List.mem_map.mp he
      exact ⟨hts t ht, by norm_num⟩)
    (by
      rw [← hraw, List.map_map]
      have : (Prod.fst ∘ fun t : ℕ => (t, 1)) = id := rfl
      rw [this, List.map_id]
      exact hord)
    (by rw [List.length_map]; exact hl) hr hlen
  refine ⟨o, h1, h2, ?_⟩
  have hout : o.stdout = ((t0 :: ts).map fun t : ℕ => (((t + moveOf n t0 t) % 2 ^ 54).toNat, 1)).flatMap (a1Event false) := by
    have h3 : o.stdout = _ := h3
    rw [h3, ← hraw, List.flatMap_map, List.flatMap_map]
    apply List.flatMap_congr
    intro t _
    simp only [hof]
  have hnum : (((t0 :: ts).map fun t : ℕ => (((t + moveOf n t0 t) % 2 ^ 54).toNat, 1)).map fun r : ℕ × ℕ => Out.num r.1) =
      ((t0 :: ts).map fun t : ℕ => (t + moveOf n t0 t) % 2 ^ 54).map Out.num := by
    rw [List.map_map, List.map_map]
    apply List.map_congr_left
    intro t _
    have h0 := Int.emod_nonneg ((t : ℤ) + moveOf n t0 t) (by norm_num : (2 ^ 54 : ℤ) ≠ 0)
    show Out.num ((((t : ℤ) + moveOf n t0 t) % 2 ^ 54).toNat : ℤ) = Out.num (((t : ℤ) + moveOf n t0 t) % 2 ^ 54)
    rw [Int.toNat_of_nonneg h0]
  rw [hout, C57_stdin_partial fw hfw temp false _ _ [] ⟨fun _ => none, []⟩ rfl, hnum]
  · rfl
  · intro e he
    obtain ⟨t, -, rfl⟩ := List.mem_map.mp he
    have h1 := Int.emod_nonneg ((t : ℤ) + moveOf n t0 t) (by norm_num : (2 ^ 54 : ℤ) ≠ 0)
    have h2 := Int.emod_lt_of_pos ((t : ℤ) + moveOf n t0 t) (by norm_num : (0 : ℤ) < 2 ^ 54)
    refine ⟨?_, by norm_num⟩
    show ((t + moveOf n t0 t) % 2 ^ 54).toNat < 2 ^ 54
    generalize ((t : ℤ) + moveOf n t0 t) % 2 ^ 54 = z at h1 h2
    omega

theorem numeral_million : Numeral [49, 48, 48, 48, 48, 48, 48] 1000000 :=
  ⟨[], [], [49, 48, 48, 48, 48, 48, 48], rfl, by simp, by simp, by decide, Or.inl ⟨rfl, by decide⟩⟩

/-- The test of the repository (tests/freqcd/test_freqcd.py), with all events read at once. -/
example (m : FMemory) (hm : FMemory.Sized m) (temp : List Char) :
    PipelinePrints 64 [0, 1000000000, 2000000000] [[], [45, 102], [49, 48, 48, 48, 48, 48, 48]] m [rd 8192, rd 8192] temp [0, 1000058207, 2000116415] := by
  have hfull : FullRound (rd 8192) := ⟨rfl, ⟨8192, rfl, le_rfl⟩, rfl, 8192, rfl, le_rfl⟩
  have h := C95_pipeline 64 (by norm_num) [] _ 1000000 numeral_million (by norm_num) 0 [1000000000, 2000000000] (by decide) (by decide) (by simp) m hm
    [rd 8192, rd 8192] (by simp [hfull]) (by simp) temp
  have e1 : ([0, 1000000000, 2000000000] : List ℕ).map (fun t : ℕ => (t : ℤ)) = [0, 1000000000, 2000000000] := rfl
  have e2 : ([0, 1000000000, 2000000000] : List ℕ).map (fun t : ℕ => (t + moveOf 1000000 0 t) % 2 ^ 54) = [0, 1000058207, 2000116415] := by decide +kernel
  rw [e1, e2] at h
  exact h

/-- **C95** at the end of the range, the numbers expected in tests/freqcd/test_freqcd_overflow.py: with the smallest correction
2^-34 and a first event at 0, the last time that is not wrapped around is 2^54 - 2^20. -/
theorem C95_end_of_range (m : FMemory) (hm : FMemory.Sized m) (rounds : List Round) (hr : ∀ r ∈ rounds, FullRound r) (hlen : 2 ≤ rounds.length)
    (temp : List Char) : PipelinePrints 64 [0, 18014398508433408, 18014398508433409, 18014398508433410, 18014398509481983] [[], [45, 102], [49]] m rounds temp
      [0, 18014398509481983, 0, 1, 1048574] := by
  have h := C95_pipeline 64 (by norm_num) [] [49] 1 ⟨[], [], [49], rfl, by simp, by simp, by decide, Or.inl ⟨rfl, by decide⟩⟩ (by norm_num) 0
    [18014398508433408, 18014398508433409, 18014398508433410, 18014398509481983] (by decide) (by decide) (by simp) m hm rounds hr hlen temp
  have e1 : ([0, 18014398508433408, 18014398508433409, 18014398508433410, 18014398509481983] : List ℕ).map (fun t : ℕ => (t : ℤ)) =
      [0, 18014398508433408, 18014398508433409, 18014398508433410, 18014398509481983] := rfl
  have e2 : ([0, 18014398508433408, 18014398508433409, 18014398508433410, 18014398509481983] : List ℕ).map (fun t : ℕ => (t + moveOf 1 0 t) % 2 ^ 54) =
      [0, 18014398509481983, 0, 1, 1048574] := by decide +kernel
  rw [e1, e2] at h
  exact h

/-- **C95**, the number printed depends on how the pipe is read: with one event per read the test of the repository gives another
last number (2000116414 instead of 2000116415). -/
theorem C95_reads_violated : ∃ (m : FMemory) (rounds : List Round), FMemory.Sized m ∧ ∀ temp, PipelinePrints 64 [0, 1000000000, 2000000000]
    [[], [45, 102], [49, 48, 48, 48, 48, 48, 48]] m rounds temp [0, 1000058207, 2000116414] := by
  have hends : Ends [[], [45, 102], [49, 48, 48, 48, 48, 48, 48]] (.ok (⟨1000000, false, [], [], []⟩ : Config)) := by
    have hs : Sound [Item.arg 102 [49, 48, 48, 48, 48, 48, 48]] := by
      intro it hit
      rw [List.mem_singleton] at hit
      subst hit
      exact Or.inr ⟨rfl, _, numeral_million, by norm_num, by norm_num⟩
    have hends := C53_meaning [] [Item.arg 102 [49, 48, 48, 48, 48, 48, 48]] _ (Written.separate [] 102 _ [] [] (by simp) (by simp [ArgLetter]) Written.nil) hs _ numeral_million
    have hno : Item.flag 100 ∉ [Item.arg 102 [49, 48, 48, 48, 48, 48, 48]] := by simp
    simp only [if_neg hno] at hends
    rw [if_pos (Or.inl (by decide))] at hends
    simpa [lastArg] using hends
  obtain ⟨s', h1, h2, -⟩ := demo_run false [rd 8, rd 8, rd 8, rd 8] 0 1000000 false
    ([(0, 1), (1000000000, 1), (2000000000, 1)].flatMap (a1Event false)) []
    ([(0, 1), (1000058207, 1), (2000116414, 1)].flatMap (a1Event false)) [] 1000000 (some .inputClosed) (by decide +kernel)
  refine ⟨⟨List.replicate 8192 0, List.replicate 8192 0, List.replicate 100 0, 0, 0⟩, [rd 8, rd 8, rd 8, rd 8],
    ⟨List.length_replicate, List.length_replicate, List.length_replicate⟩, ?_⟩
  intro temp
  have hgen : outBytes (genMain 64 { o := none, t := some [0, 1000000000, 2000000000], x := false, infile := none } [] [] [] ⟨fun _ => none, []⟩).1.out =
      [(0, 1), (1000000000, 1), (2000000000, 1)].flatMap (a1Event false) := by
    rw [C56_stdout_partial 64 [] [0, 1000000000, 2000000000] (by simp) (by simp)]
    decide +kernel
  refine ⟨⟨some 0, fun _ => none, s'.out⟩, outcome_of_ends hends ?_, rfl, ?_⟩
  · have h1' : fRun false [rd 8, rd 8, rd 8, rd 8] (fInit (List.replicate 8192 0) (List.replicate 8192 0) (List.replicate 100 0) 0 0 1000000 false
      ([(0, 1), (1000000000, 1), (2000000000, 1)].flatMap (a1Event false)) []) = .ok (s', some .inputClosed) := h1
    unfold freqcdRun openFiles
    simp only [ne_eq, not_true, false_and, if_false, if_true, decide_false, hgen]
    rw [h1']
    simp
  · simp only [h2]
    rw [C57_stdin_partial 64 (by norm_num) temp false [(0, 1), (1000058207, 1), (2000116414, 1)] (by simp [Valid]) [] ⟨fun _ => none, []⟩ rfl]
    rfl

end Fp
