import Verif.Props.Freqcd
import Verif.Props.FreqcdMain
import Verif.Spec.FreqcdProgram

/-! # C94: whole runs of `freqcd` -/
namespace Fp
open Spec

theorem outcome_of_ends {w : FWorld} {argv : List Bytes} {m : FMemory} {rounds : List Round} {c : Config} (h : Ends argv (.ok c))
    {o : FOutcome} (ho : freqcdRun w c m rounds = .ok o) : Outcome w argv m rounds o := by
  obtain ⟨N, hN⟩ := h
  refine ⟨N, fun fuel hf => ?_⟩
  unfold freqcdMain
  rw [hN fuel hf]
  simp only [ho]

theorem fInit_initial {m : FMemory} (hm : FMemory.Sized m) (fcorr : BitVec 32) (fo : Bool) (src fsrc : Bytes) :
    Initial (fInit m.inbuf m.outbuf m.freqbuf m.tsmeas m.tscorr fcorr fo src fsrc) fcorr fo src fsrc :=
  ⟨_, _, _, _, _, hm.1, hm.2.1, hm.2.2, rfl⟩

theorem openFiles_available {w : FWorld} {c : Config} (h : Available w c) :
    openFiles w c = .ok (FWorld.input w c.infile, if c.freqfile = [] then [] else (w.files c.freqfile).getD [],
      if c.outfile = [] then w.files else setFile w.files c.outfile []) := by
  obtain ⟨h1, h2, h3⟩ := h
  unfold openFiles FWorld.input
  rw [if_neg (fun g => h1 g.1 g.2), if_neg (fun g => by rw [(h3 g.1).1] at g; exact absurd g.2 (by simp))]
  by_cases ho : c.outfile = []
  · simp only [ho, if_true]
    rw [if_neg (fun g => h2 g.1 g.2)]
  · obtain ⟨-, g1, g2⟩ := h3 ho
    simp only [ho, if_false, setFile, g1, g2]
    rw [if_neg (fun g => h2 g.1 g.2)]

/-- **C94**, a run that starts: the program corrects what is in its input and puts the result in the file given with `-o` (or on
the standard output), no other file is touched, and nothing is printed if there is an output file.  Whatever ends the run, the
exit status is 0. -/
theorem C94_started (w : FWorld) (argv : List Bytes) (m : FMemory) (hm : FMemory.Sized m) (rounds : List Round) (c : Config)
    (h : Ends argv (.ok c)) (hav : Available w c) :
    ∃ o s s' stop, Outcome w argv m rounds o ∧
      Initial s c.fcorr (decide (c.freqfile ≠ [])) (FWorld.input w c.infile) (if c.freqfile = [] then [] else (w.files c.freqfile).getD []) ∧
      fRun c.legacy rounds s = .ok (s', stop) ∧
      FOutcome.output o c.outfile = s'.out ∧ (c.outfile ≠ [] → o.stdout = []) ∧ (∀ n, n ≠ c.outfile → o.files n = w.files n) ∧
      (c.outfile = [] → o.files = w.files) ∧
      o.status = (if stop = none then none else some 0) := by
  have hi := fInit_initial hm c.fcorr (decide (c.freqfile ≠ [])) (FWorld.input w c.infile)
    (if c.freqfile = [] then [] else (w.files c.freqfile).getD [])
  obtain ⟨s', stop, hrun⟩ := C44_no_fault c.legacy rounds _ _ _ _ _ hi
  refine ⟨⟨if stop = none then none else some 0,
    if c.outfile = [] then w.files else setFile (setFile w.files c.outfile []) c.outfile s'.out, if c.outfile = [] then s'.out else []⟩,
    _, s', stop, outcome_of_ends h ?_, hi, hrun, ?_, ?_, ?_, ?_, rfl⟩
  · unfold freqcdRun
    rw [openFiles_available hav]
    simp only [hrun]
    by_cases ho : c.outfile = [] <;> simp [ho]
  · unfold FOutcome.output
    by_cases ho : c.outfile = [] <;> simp [ho, setFile]
  · intro ho; simp [ho]
  · intro n hn
    by_cases ho : c.outfile = [] <;> simp [ho, setFile, hn]
  · intro ho; simp [ho]

/-! ## Runs on regular files -/

theorem full_step {legacy : Bool} {r : Round} (hr : FullRound r) {a : AState} (hp : a.pend = []) (h8 : 8 ∣ a.src.length) :
    (a.src = [] → aStep legacy r a = (a, some .inputClosed)) ∧
    (a.src ≠ [] → (aStep legacy r a).2 = none ∧ (aStep legacy r a).1.pend = [] ∧ (aStep legacy r a).1.src = a.src.drop 8192) := by
  obtain ⟨h1, ⟨k, h2, hk⟩, h3, k', h4, hk'⟩ := hr
  have hmin : min k bufSize = 8192 := by unfold bufSize; omega
  have hf : ∀ a : AState, aFreq none a = (a, none) := by
    intro a; unfold aFreq; cases a.freqOpen <;> rfl
  constructor
  · intro he
    unfold aStep aInput
    simp [h1, h2, he]
  · intro he
    have hne : a.src.take 8192 ≠ [] := by
      rw [ne_eq, List.take_eq_nil_iff]
      simp [he]
    have hl8 : 8 ∣ (a.src.take 8192).length := by
      rw [List.length_take]
      rcases Nat.le_total 8192 a.src.length with h | h
      · rw [Nat.min_eq_left h]; norm_num
      · rw [Nat.min_eq_right h]; exact h8
    have hlen : ((events (a.src.take 8192)).flatMap (evCorrect legacy a.fcorr
        (if a.isset then a.tsref else ((events (a.src.take 8192)).head?.map (evMeas legacy)).getD a.tsref) a.ovf)).length ≤ 8192 := by
      rw [List.length_flatMap]
      have : ∀ ev : Bytes, ∀ t : BitVec 64, (evCorrect legacy a.fcorr t a.ovf ev).length = 8 := by
        intro ev t
        unfold evCorrect eventBytes
        cases legacy <;> simp
      simp only [this]
      rw [List.map_const', List.sum_replicate_nat]
      unfold events
      rw [List.length_map, List.length_range, List.length_take]
      omega
    unfold aStep aInput
    simp only [h1, h2, h3, h4, hp, List.nil_append, List.length_nil, Nat.sub_zero, hmin, hne, if_false, Bool.not_true, Bool.false_eq_true,
      ne_eq, not_true, hf]
    unfold aWrite
    simp only
    refine ⟨?_, ?_, ?_⟩
    · rw [if_neg]
      have := hlen
      omega
    · rw [Nat.mul_div_cancel' hl8, List.drop_length]
    · rw [List.length_take]
      rcases Nat.le_total 8192 a.src.length with h | h
      · rw [Nat.min_eq_left h]
      · rw [Nat.min_eq_right h, List.drop_length, List.drop_eq_nil_of_le h]

theorem full_run (legacy : Bool) : ∀ (rs : List Round) (a : AState), (∀ r ∈ rs, FullRound r) → a.pend = [] → 8 ∣ a.src.length →
    a.src.length < 8192 * rs.length → a.src.length + 8192 ≤ 8192 * rs.length →
    (aRun legacy rs a).2 = some .inputClosed ∧ (aRun legacy rs a).1.src = []
  | [], a, _, _, _, hl, _ => absurd hl (by simp)
  | r :: rs, a, hr, hp, h8, hl, hl' => by
    obtain ⟨g1, g2⟩ := full_step (legacy := legacy) (hr r (by simp)) hp h8
    unfold aRun
    by_cases he : a.src = []
    · rw [g1 he]
      simp [he]
    · obtain ⟨k1, k2, k3⟩ := g2 he
      rw [k1, if_neg (by simp)]
      have hlen : (aStep legacy r a).1.src.length = a.src.length - 8192 := by rw [k3, List.length_drop]
      have hpos : 0 < a.src.length := List.length_pos_iff.2 he
      simp only [List.length_cons] at hl hl'
      apply full_run legacy rs _ (fun r hr' => hr r (by simp [hr'])) k2
      · rw [hlen]; omega
      · rw [hlen]
        omega
      · rw [hlen]
        omega

theorem full_clean (legacy : Bool) : ∀ (rs : List Round) (a a' : AState), (∀ r ∈ rs, FullRound r) → a.pend = [] → 8 ∣ a.src.length →
    aRun legacy rs a = (a', none) → a'.pend = [] ∧ 8 ∣ a'.src.length
  | [], a, a', _, hp, h8, h => by
    unfold aRun at h
    rw [Prod.mk.injEq] at h
    rw [← h.1]; exact ⟨hp, h8⟩
  | r :: rs, a, a', hr, hp, h8, h => by
    obtain ⟨g1, g2⟩ := full_step (legacy := legacy) (hr r (by simp)) hp h8
    unfold aRun at h
    by_cases he : a.src = []
    · rw [g1 he, if_pos (by simp)] at h
      simp at h
    · obtain ⟨k1, k2, k3⟩ := g2 he
      rw [k1, if_neg (by simp)] at h
      exact full_clean legacy rs _ a' (fun r hr' => hr r (by simp [hr'])) k2 (by rw [k3, List.length_drop]; omega) h

theorem full_reads {rs : List Round} (h : ∀ r ∈ rs, FullRound r) : reads rs = rs.length := by
  unfold reads
  rw [List.countP_eq_length]
  intro r hr
  obtain ⟨-, ⟨k, h2, -⟩, -⟩ := h r hr
  rw [h2]; rfl

theorem full_noStall {legacy : Bool} {rs : List Round} (hr : ∀ r ∈ rs, FullRound r) {s : FState} {f : BitVec 32} {fo : Bool} {src fsrc : Bytes}
    (h : Initial s f fo src fsrc) (h8 : 8 ∣ src.length) : NoStall legacy rs s := by
  obtain ⟨hw, ho, hp, -, -, hsrc, -⟩ := initial_wf h
  have hpend : (abst s).pend = [] := by
    obtain ⟨_, _, _, _, _, -, -, -, rfl⟩ := h
    simp [abst, fInit]
  have hs8 : 8 ∣ (abst s).src.length := by show 8 ∣ s.src.length; rw [hsrc]; exact h8
  intro rs1 r s1 s2 hpre hr1 hr2 hne heq
  have hmem : ∀ x ∈ rs1 ++ [r], FullRound x := fun x hx => hr x (hpre.subset hx)
  have e1 := full_clean legacy rs1 _ _ (fun x hx => hmem x (by simp [hx])) hpend hs8 (run_abst hw ho hr1)
  have e2 := full_clean legacy _ _ _ hmem hpend hs8 (run_abst hw ho hr2)
  obtain ⟨n1, l1, d1, o1, -⟩ := C39_events legacy rs1 s s1 f fo src fsrc h none hr1 (by simp) (by simp)
  obtain ⟨n2, l2, d2, o2, -⟩ := C39_events legacy _ s s2 f fo src fsrc h none hr2 (by simp) (by simp)
  have a1 : 8 ∣ s1.src.length := e1.2
  have a2 : 8 ∣ s2.src.length := e2.2
  rw [d1, List.length_drop] at a1
  rw [d2, List.length_drop] at a2
  rw [heq, o1] at o2
  apply hne
  rw [d1, d2]
  congr 1
  omega

/-- A run on a regular file, with the correction `f` found on the command line. -/
theorem regular_file (w : FWorld) (prog : Bytes) (os : List Item) (args : List Bytes) (hs : Sound os) (f : BitVec 32)
    (hends : Ends (prog :: args) (.ok ⟨f, decide (Item.flag 120 ∈ os), (lastArg 105 os).getD [], (lastArg 111 os).getD [],
      (lastArg 70 os).getD []⟩)) (hrange : |f.toInt| < 2 ^ 21)
    (hF : lastArg 70 os = none) (inp : Bytes) (hin : FWorld.input w ((lastArg 105 os).getD []) = inp)
    (hi : ∀ v, lastArg 105 os = some v → w.files v ≠ none)
    (ho : ∀ v, lastArg 111 os = some v → w.writable v = true ∧ lastArg 105 os ≠ some v)
    (h8 : 8 ∣ inp.length) (hord : (times (decide (Item.flag 120 ∈ os)) inp).Pairwise (· ≤ ·))
    (m : FMemory) (hm : FMemory.Sized m) (rounds : List Round) (hr : ∀ r ∈ rounds, FullRound r) (hlen : inp.length + 8192 ≤ 8192 * rounds.length) :
    ∃ o, Outcome w (prog :: args) m rounds o ∧ o.status = some 0 ∧
      (∀ v, lastArg 111 os = some v → o.stdout = []) ∧ (∀ v, lastArg 111 os ≠ some v → v ≠ [] → o.files v = w.files v) ∧
      (FOutcome.output o ((lastArg 111 os).getD [])).length = inp.length ∧
      flags (decide (Item.flag 120 ∈ os)) (FOutcome.output o ((lastArg 111 os).getD [])) = flags (decide (Item.flag 120 ∈ os)) inp ∧
      ∀ (i : Nat) (y t t0 : ℕ), (times (decide (Item.flag 120 ∈ os)) (FOutcome.output o ((lastArg 111 os).getD [])))[i]? = some y →
        (times (decide (Item.flag 120 ∈ os)) inp)[i]? = some t → (times (decide (Item.flag 120 ∈ os)) inp).head? = some t0 →
        ∃ c : ℤ, (y : ℤ) = (t + c) % 2 ^ 54 ∧ |(c : ℚ) - ((t : ℚ) - t0) * f.toInt / 2 ^ 34| < (3 / 2 : ℚ) * (rounds.length : ℚ) := by
  have hgood : ∀ (c : UInt8) v, (c = 105 ∨ c = 111 ∨ c = 70) → lastArg c os = some v → v ≠ [] := by
    intro c v hc hl
    have key : ∀ os : List Item, Sound os → lastArg c os = some v → v ≠ [] := by
      intro os
      induction os with
      | nil => intro _ h; simp [lastArg] at h
      | cons it os ih =>
        intro hs h
        have hs' : Sound os := fun y hy => hs y (by simp [hy])
        cases it with
        | flag c' => exact ih hs' h
        | arg c' v' =>
          simp only [lastArg] at h
          cases hr : lastArg c os with
          | some v'' => rw [hr] at h; simp at h; exact ih hs' (by rw [hr, h])
          | none =>
            rw [hr] at h
            simp only [Option.none_or] at h
            split at h
            · next e =>
              rw [Option.some.injEq] at h
              subst h
              have := hs (.arg c' v') (by simp)
              simp only at this
              rcases this with ⟨-, g⟩ | ⟨g, -⟩
              · exact g.1
              · exfalso
                rw [← e, g] at hc
                revert hc; decide
            · simp at h
    exact key os hs hl
  have hav : Available w (⟨f, decide (Item.flag 120 ∈ os), (lastArg 105 os).getD [],
      (lastArg 111 os).getD [], (lastArg 70 os).getD []⟩ : Config) := by
    refine ⟨?_, ?_, ?_⟩
    · cases h : lastArg 105 os with
      | none => simp
      | some v => intro _; exact hi v h
    · rw [hF]; simp
    · cases h : lastArg 111 os with
      | none => simp
      | some v =>
        intro _
        refine ⟨(ho v h).1, ?_, ?_⟩
        · have := (ho v h).2
          cases h' : lastArg 105 os with
          | none => simpa using (hgood 111 v (by simp) h).symm
          | some v' => rw [h'] at this; simpa using this
        · rw [hF]; simpa using (hgood 111 v (by simp) h).symm
  obtain ⟨o, s, s', stop, h1, h2, h3, h4, h5, h6, h7, h9⟩ := C94_started w _ m hm rounds _ hends hav
  simp only [hF, Option.getD_none, ne_eq, not_true, decide_false, if_true, hin] at h2 h3 h4 h5 h6 h7 h9
  obtain ⟨hwf, hoe, hp, -, -, hsrc, -⟩ := initial_wf h2
  have hpend : (abst s).pend = [] := by
    obtain ⟨_, _, _, _, _, -, -, -, rfl⟩ := h2
    simp [abst, fInit]
  have hasrc : (abst s).src = inp := hsrc
  have hfull := full_run (decide (Item.flag 120 ∈ os)) rounds (abst s) hr hpend (by rw [hasrc]; exact h8) (by rw [hasrc]; omega) (by rw [hasrc]; omega)
  rw [run_abst hwf hoe h3] at hfull
  obtain ⟨hst, hsnil⟩ := hfull
  have hst : stop = some .inputClosed := hst
  have hsn : s'.src = [] := hsnil
  subst hst
  obtain ⟨k, k1, k2, k3, k4⟩ := C39_events _ rounds s s' _ _ _ _ h2 _ h3 (by simp) (by simp)
  have hk : k = inp.length := by
    rw [k2, List.drop_eq_nil_iff] at hsn
    omega
  subst hk
  refine ⟨o, h1, by rw [h9]; rfl, ?_, ?_, ?_, ?_, ?_⟩
  · intro v hv
    apply h5
    rw [hv]; exact hgood 111 v (by simp) hv
  · intro v hv hv'
    apply h6
    intro e
    cases h : lastArg 111 os with
    | none => rw [h] at e; exact hv' e
    | some v' => rw [h] at e hv; simp at e hv; exact hv e.symm
  · rw [h4, k3, Nat.mul_div_cancel' h8]
  · rw [h4, k4, List.take_length]
  · intro i y t t0 hy ht ht0
    rw [h4] at hy
    have := C42_approximation_partial _ rounds s s' _ _ _ _ h2 _ h3 hrange (closed_const h2) hord (full_noStall hr h2 h8) i y t t0 hy ht ht0
    rw [full_reads hr] at this
    exact this

/-- **C94**, from command line to output file (without frequency channel): on a regular file with whole events in order of time the
program ends with status 0, and the output has the events of the input with the same detector bits, each with the time
`t + (t - t0) * n / 2^34` up to 1.5 units for every 1024 events. -/
theorem C94_regular_file (w : FWorld) (prog : Bytes) (os : List Item) (args : List Bytes) (hw : Written os args) (hs : Sound os) (n : Int)
    (hn : match lastArg 102 os with | none => n = 0 | some v => Numeral v n) (hrange : |n| < 2 ^ 21) (hd : Item.flag 100 ∉ os)
    (hF : lastArg 70 os = none) (inp : Bytes) (hin : FWorld.input w ((lastArg 105 os).getD []) = inp)
    (hi : ∀ v, lastArg 105 os = some v → w.files v ≠ none)
    (ho : ∀ v, lastArg 111 os = some v → w.writable v = true ∧ lastArg 105 os ≠ some v)
    (h8 : 8 ∣ inp.length) (hord : (times (decide (Item.flag 120 ∈ os)) inp).Pairwise (· ≤ ·))
    (m : FMemory) (hm : FMemory.Sized m) (rounds : List Round) (hr : ∀ r ∈ rounds, FullRound r) (hlen : inp.length + 8192 ≤ 8192 * rounds.length) :
    ∃ o, Outcome w (prog :: args) m rounds o ∧ o.status = some 0 ∧
      (∀ v, lastArg 111 os = some v → o.stdout = []) ∧ (∀ v, lastArg 111 os ≠ some v → v ≠ [] → o.files v = w.files v) ∧
      (FOutcome.output o ((lastArg 111 os).getD [])).length = inp.length ∧
      flags (decide (Item.flag 120 ∈ os)) (FOutcome.output o ((lastArg 111 os).getD [])) = flags (decide (Item.flag 120 ∈ os)) inp ∧
      ∀ (i : Nat) (y t t0 : ℕ), (times (decide (Item.flag 120 ∈ os)) (FOutcome.output o ((lastArg 111 os).getD [])))[i]? = some y →
        (times (decide (Item.flag 120 ∈ os)) inp)[i]? = some t → (times (decide (Item.flag 120 ∈ os)) inp).head? = some t0 →
        ∃ c : ℤ, (y : ℤ) = (t + c) % 2 ^ 54 ∧ |(c : ℚ) - ((t : ℚ) - t0) * n / 2 ^ 34| < (3 / 2 : ℚ) * (rounds.length : ℚ) := by
  have hof : (BitVec.ofInt 32 n).toInt = n := by
    rw [abs_lt] at hrange
    rw [BitVec.toInt_ofInt]
    exact Int.bmod_eq_of_le (by omega) (by omega)
  have hends := C53_meaning prog os args hw hs n hn
  simp only [if_neg hd] at hends
  rw [if_pos (Or.inl (by rw [hof]; exact hrange))] at hends
  obtain ⟨o, h⟩ := regular_file w prog os args hs _ hends (by rw [hof]; exact hrange) hF inp hin hi ho h8 hord m hm rounds hr hlen
  rw [hof] at h
  exact ⟨o, h⟩

/-- `freqcd -f 1000000 -i a -o b` on a file with two events. -/
example : ∃ o, Outcome ⟨fun n => if n = [97] then some [5, 0, 0, 0, 0, 0, 0, 0, 6, 0, 0, 0, 0, 1, 0, 0] else none, fun _ => true, []⟩
    [[], [45, 102], [49, 48, 48, 48, 48, 48, 48], [45, 105], [97], [45, 111], [98]]
    ⟨List.replicate 8192 0, List.replicate 8192 0, List.replicate 100 0, 7, 9⟩ [rd 8192, rd 8192] o ∧ o.status = some 0 ∧
    ((o.files [98]).getD []).length = 16 ∧ o.files [97] = some [5, 0, 0, 0, 0, 0, 0, 0, 6, 0, 0, 0, 0, 1, 0, 0] := by
  have hv : Numeral [49, 48, 48, 48, 48, 48, 48] 1000000 :=
    ⟨[], [], [49, 48, 48, 48, 48, 48, 48], rfl, by simp, by simp, by decide, Or.inl ⟨rfl, by decide⟩⟩
  have hfull : FullRound (rd 8192) := ⟨rfl, ⟨8192, rfl, le_rfl⟩, rfl, 8192, rfl, le_rfl⟩
  obtain ⟨o, h1, h2, -, h4, h5, -⟩ := C94_regular_file
    ⟨fun n => if n = [97] then some [5, 0, 0, 0, 0, 0, 0, 0, 6, 0, 0, 0, 0, 1, 0, 0] else none, fun _ => true, []⟩ []
    [.arg 102 [49, 48, 48, 48, 48, 48, 48], .arg 105 [97], .arg 111 [98]] _
    (Written.separate [] 102 _ _ _ (by simp) (by simp [ArgLetter]) (Written.separate [] 105 _ _ _ (by simp) (by simp [ArgLetter])
      (Written.separate [] 111 _ _ _ (by simp) (by simp [ArgLetter]) Written.nil)))
    (by
      intro it hit
      simp only [List.mem_cons, List.not_mem_nil, or_false] at hit
      rcases hit with rfl | rfl | rfl
      · exact Or.inr ⟨rfl, _, hv, by norm_num, by norm_num⟩
      · exact Or.inl ⟨by decide, by simp, by simp, by decide⟩
      · exact Or.inl ⟨by decide, by simp, by simp, by decide⟩)
    1000000 hv (by norm_num) (by decide) (by decide) [5, 0, 0, 0, 0, 0, 0, 0, 6, 0, 0, 0, 0, 1, 0, 0] (by decide)
    (by intro v hv; have : v = [97] := by simpa [lastArg] using hv.symm
        subst this; simp)
    (by intro v hv; have : v = [98] := by simpa [lastArg] using hv.symm
        subst this; exact ⟨rfl, by decide⟩)
    (by decide) (by decide) ⟨List.replicate 8192 0, List.replicate 8192 0, List.replicate 100 0, 7, 9⟩
    ⟨List.length_replicate, List.length_replicate, List.length_replicate⟩ [rd 8192, rd 8192] (by simp [hfull]) (by simp)
  exact ⟨o, h1, h2, h5, h4 [97] (by decide) (by simp)⟩

/-! ## Runs that do not start, and the exit status -/

/-- The error numbers of the options. -/
theorem exit_code (argv : List Bytes) (code : Nat) (h : Ends argv (.error (.error code))) : 0 < code ∧ code < 256 := by
  obtain ⟨N, hN⟩ := h
  have h := hN N le_rfl
  have hscan : ∀ k arg buf, scanName k arg buf = .error (.error code) → code = k := by
    intro k arg buf h
    unfold scanName at h
    dsimp only at h
    split at h
    · simpa using h.symm
    · split at h <;> simp at h
  have happ : ∀ o c arg, applyOpt o c arg = .error (.error code) → 0 < code ∧ code < 256 := by
    intro o c arg h
    have hmap : ∀ {α β : Type} (x : Except Exit α) (f : α → β), x.map f = .error (.error code) → x = .error (.error code) := by
      intro α β x f h
      cases x with
      | error e => simpa [Except.map] using h
      | ok a => simp [Except.map] at h
    unfold applyOpt at h
    split at h
    · have := hscan _ _ _ (hmap _ _ h); omega
    split at h
    · have := hscan _ _ _ (hmap _ _ h); omega
    split at h
    · have := hscan _ _ _ (hmap _ _ h); omega
    split at h
    · have h := hmap _ _ h
      unfold scanInt at h
      split at h
      · simp at h
      · have : 4 = code := by simpa using h
        omega
    split at h
    · simp at h
    split at h
    · simp at h
    split at h <;> simp at h
  have hloop : ∀ fuel g o, optLoop argv fuel g o = some (.error (.error code)) → 0 < code ∧ code < 256 := by
    intro fuel
    induction fuel with
    | zero => intro g o h; simp [optLoop] at h
    | succ k ih =>
      intro g o h
      unfold optLoop at h
      split at h
      · simp at h
      · exact ih _ _ h
      · split at h
        · next e he =>
          simp only [Option.some.injEq, Except.error.injEq] at h
          subst h
          exact happ _ _ _ he
        · exact ih _ _ h
  unfold mainOpts at h
  cases hl : optLoop argv N ⟨1, []⟩ opts0 with
  | none => rw [hl] at h; simp at h
  | some r =>
    rw [hl] at h
    cases r with
    | error e =>
      have : e = .error code := by simpa [Except.bind] using h
      subst this
      exact hloop _ _ _ hl
    | ok o =>
      have h : finish o = .error (.error code) := by simpa [Except.bind] using h
      unfold finish at h
      dsimp only at h
      generalize (if o.isdecimal = true then decimalCorr o.fcorr else o.fcorr) = f at h
      split at h
      · simp at h
      · have : 5 = code := by simpa using h
        omega

/-- **C94**, errors in the options, a missing input or an output that cannot be opened: the exit status is not 0, nothing is
written and no file is touched. -/
theorem C94_not_started_partial (w : FWorld) (argv : List Bytes) (m : FMemory) (rounds : List Round) :
    (∀ e, Ends argv (.error e) → e ≠ .overrun → ∃ st, st ≠ 0 ∧ st < 256 ∧ Outcome w argv m rounds ⟨some st, w.files, []⟩) ∧
    (∀ c, Ends argv (.ok c) → (c.infile ≠ [] ∧ w.files c.infile = none ∨ c.outfile ≠ [] ∧ w.writable c.outfile = false) →
      ∃ st, st ≠ 0 ∧ st < 256 ∧ Outcome w argv m rounds ⟨some st, w.files, []⟩) ∧
    (∀ c, Ends argv (.ok c) → c.outfile = [] → c.freqfile ≠ [] → w.files c.freqfile = none →
      ∃ st, st ≠ 0 ∧ st < 256 ∧ Outcome w argv m rounds ⟨some st, w.files, []⟩) := by
  refine ⟨?_, ?_, ?_⟩
  · intro e he hne
    cases e with
    | overrun => exact absurd rfl hne
    | usage =>
      obtain ⟨N, hN⟩ := he
      refine ⟨1, by simp, by simp, N, fun fuel hf => ?_⟩
      unfold freqcdMain
      rw [hN fuel hf]
    | error code =>
      have hcode := exit_code argv code he
      obtain ⟨N, hN⟩ := he
      refine ⟨errorStatus code, by unfold errorStatus; omega, by unfold errorStatus; omega, N, fun fuel hf => ?_⟩
      unfold freqcdMain
      rw [hN fuel hf]
  · intro c hc h
    by_cases h1 : c.infile ≠ [] ∧ w.files c.infile = none
    · refine ⟨errorStatus 3, by decide, by decide, outcome_of_ends hc ?_⟩
      unfold freqcdRun openFiles
      rw [if_pos h1]
    · have h2 := h.resolve_left h1
      refine ⟨errorStatus 9, by decide, by decide, outcome_of_ends hc ?_⟩
      unfold freqcdRun openFiles
      rw [if_neg h1, if_pos h2]
  · intro c hc ho hf hm
    by_cases h1 : c.infile ≠ [] ∧ w.files c.infile = none
    · refine ⟨errorStatus 3, by decide, by decide, outcome_of_ends hc ?_⟩
      unfold freqcdRun openFiles
      rw [if_pos h1]
    · refine ⟨errorStatus 11, by decide, by decide, outcome_of_ends hc ?_⟩
      unfold freqcdRun openFiles
      rw [if_neg h1, if_neg (fun g => g.1 ho)]
      simp only [ho, if_true]
      rw [if_pos ⟨hf, hm⟩]

/-- **C94 fails**, whenever the frequency channel cannot be opened: the output file has been emptied already. -/
theorem C94_channel_violated (w : FWorld) (argv : List Bytes) (m : FMemory) (rounds : List Round) (c : Config) (h : Ends argv (.ok c))
    (hi : c.infile ≠ [] → w.files c.infile ≠ none) (ho : c.outfile ≠ []) (hw : w.writable c.outfile = true) (hf : c.freqfile ≠ [])
    (hm : w.files c.freqfile = none) (hne : c.freqfile ≠ c.outfile) :
    ∃ o, Outcome w argv m rounds o ∧ o.status = some 245 ∧ o.files c.outfile = some [] := by
  refine ⟨⟨some 245, setFile w.files c.outfile [], []⟩, outcome_of_ends h ?_, rfl, by simp [setFile]⟩
  unfold freqcdRun openFiles
  rw [if_neg (fun g => hi g.1 g.2), if_neg (fun g => by rw [hw] at g; exact absurd g.2 (by simp))]
  simp only [ho, if_false]
  rw [if_pos ⟨hf, by simp [setFile, hne, hm]⟩]
  rfl

/-- `freqcd -o b -F c` without a file `c`. -/
example (old : Bytes) (m : FMemory) : ∃ o, Outcome ⟨fun n => if n = [98] then some old else none, fun _ => true, []⟩ [[], [45, 111, 98], [45, 70, 99]] m [] o ∧
    o.status = some 245 ∧ o.files [98] = some [] := by
  have hends := C53_meaning [] [.arg 111 [98], .arg 70 [99]] _ (Written.attached [] 111 [98] _ _ (by simp) (by simp [ArgLetter]) (by simp)
    (Written.attached [] 70 [99] _ _ (by simp) (by simp [ArgLetter]) (by simp) Written.nil))
    (by
      intro it hit
      simp only [List.mem_cons, List.not_mem_nil, or_false] at hit
      rcases hit with rfl | rfl
      · exact Or.inl ⟨by decide, by simp, by simp, by decide⟩
      · exact Or.inl ⟨by decide, by simp, by simp, by decide⟩) 0 rfl
  exact C94_channel_violated _ _ m [] ⟨0, false, [], [98], [99]⟩ (by simpa [lastArg] using hends) (by simp) (by simp) rfl (by simp) (by simp) (by decide)

theorem empty_out (legacy : Bool) : ∀ (rs : List Round) (a : AState), a.src = [] → a.out = [] → (aRun legacy rs a).1.out = []
  | [], a, _, h => h
  | r :: rs, a, hs, ho => by
    have key : (aStep legacy r a).1.src = [] ∧ (aStep legacy r a).1.out = [] := by
      unfold aStep
      split
      · exact ⟨hs, ho⟩
      · have hin : (aInput legacy r.inRead a).1 = a ∧ (aInput legacy r.inRead a).2.1 = [] := by
          unfold aInput
          split
          · exact ⟨rfl, rfl⟩
          · exact ⟨rfl, rfl⟩
          · simp [hs]
        have hfr : (aFreq r.freqRead a).1.src = [] ∧ (aFreq r.freqRead a).1.out = [] := by
          unfold aFreq
          split
          · exact ⟨hs, ho⟩
          · split
            · exact ⟨hs, ho⟩
            · exact ⟨hs, ho⟩
            · dsimp only
              split <;> exact ⟨hs, ho⟩
        simp only [hin.1, hin.2]
        split
        · exact ⟨hs, ho⟩
        · split
          · exact hfr
          · unfold aWrite
            split
            · exact hfr
            · simp [hfr.1, hfr.2]
    unfold aRun
    split
    · exact key.2
    · exact empty_out legacy rs _ key.1 key.2

/-- **C94 fails**, whenever the output file is the input file (a way to correct a file in place): its contents are lost, and if the
program ends the status is 0. -/
theorem C94_same_file_violated (w : FWorld) (argv : List Bytes) (m : FMemory) (hm : FMemory.Sized m) (rounds : List Round) (c : Config)
    (h : Ends argv (.ok c)) (ho : c.outfile ≠ []) (hio : c.infile = c.outfile) (hf : c.freqfile = []) (hw : w.writable c.outfile = true)
    (hx : w.files c.infile ≠ none) :
    ∃ o, Outcome w argv m rounds o ∧ (o.status = none ∨ o.status = some 0) ∧ o.files c.outfile = some [] := by
  have hi := fInit_initial hm c.fcorr false [] []
  obtain ⟨hwf, hoe, -⟩ := initial_wf hi
  obtain ⟨s', stop, hrun⟩ := C44_no_fault c.legacy rounds _ _ _ _ _ hi
  have hout : s'.out = [] := by
    have := empty_out c.legacy rounds (abst (fInit m.inbuf m.outbuf m.freqbuf m.tsmeas m.tscorr c.fcorr false [] [])) rfl rfl
    rw [run_abst hwf hoe hrun] at this
    exact this
  refine ⟨⟨if stop = none then none else some 0, setFile (setFile w.files c.outfile []) c.outfile s'.out, []⟩, outcome_of_ends h ?_, ?_, ?_⟩
  · unfold freqcdRun openFiles
    rw [if_neg (fun g => hx g.2), if_neg (fun g => by rw [hw] at g; exact absurd g.2 (by simp))]
    simp only [ho, hf, hio, if_false, ne_eq, not_true, false_and, if_true, setFile, Option.getD_some, decide_false]
    rw [hrun]
  · by_cases hs : stop = none <;> simp [hs]
  · simp [setFile, hout]

/-- `freqcd -i a -o a`. -/
example (old : Bytes) : ∃ o, Outcome ⟨fun n => if n = [97] then some old else none, fun _ => true, []⟩ [[], [45, 105, 97], [45, 111, 97]]
    ⟨List.replicate 8192 0, List.replicate 8192 0, List.replicate 100 0, 0, 0⟩ [rd 8192] o ∧
    (o.status = none ∨ o.status = some 0) ∧ o.files [97] = some [] := by
  have hends := C53_meaning [] [.arg 105 [97], .arg 111 [97]] _ (Written.attached [] 105 [97] _ _ (by simp) (by simp [ArgLetter]) (by simp)
    (Written.attached [] 111 [97] _ _ (by simp) (by simp [ArgLetter]) (by simp) Written.nil))
    (by
      intro it hit
      simp only [List.mem_cons, List.not_mem_nil, or_false] at hit
      rcases hit with rfl | rfl
      · exact Or.inl ⟨by decide, by simp, by simp, by decide⟩
      · exact Or.inl ⟨by decide, by simp, by simp, by decide⟩) 0 rfl
  exact C94_same_file_violated _ _ _ ⟨List.length_replicate, List.length_replicate, List.length_replicate⟩ [rd 8192] ⟨0, false, [97], [97], []⟩
    (by simpa [lastArg] using hends) (by simp) rfl rfl rfl (by simp)

/-- **C94 fails**: a run in which writing fails, and all of the input is lost, ends with status 0 as well. -/
theorem C94_status_violated : ∃ (w : FWorld) (argv : List Bytes) (m : FMemory) (rounds : List Round), FMemory.Sized m ∧
    w.stdin.length = 8 ∧ Outcome w argv m rounds ⟨some 0, w.files, []⟩ := by
  have hends : Ends [[]] (.ok (⟨0, false, [], [], []⟩ : Config)) := by
    have := C53_meaning [] [] [] Written.nil (by intro it hit; simp at hit) 0 rfl
    simpa [lastArg] using this
  obtain ⟨s', h1, h2, -⟩ := demo_run false [{ rd 8 with write := none }] 0 0 false [1, 2, 3, 4, 5, 6, 7, 8] [] [] [] 0 (some .writeError)
    (by decide +kernel)
  refine ⟨⟨fun _ => none, fun _ => false, [1, 2, 3, 4, 5, 6, 7, 8]⟩, [[]],
    ⟨List.replicate 8192 0, List.replicate 8192 0, List.replicate 100 0, 0, 0⟩, [{ rd 8 with write := none }],
    ⟨List.length_replicate, List.length_replicate, List.length_replicate⟩, rfl, outcome_of_ends hends ?_⟩
  have h1' : fRun false [{ rd 8 with write := none }] (fInit (List.replicate 8192 0) (List.replicate 8192 0) (List.replicate 100 0) 0 0 0 false
    [1, 2, 3, 4, 5, 6, 7, 8] []) = .ok (s', some .writeError) := h1
  unfold freqcdRun openFiles
  simp only [ne_eq, not_true, false_and, if_false, if_true, decide_false]
  rw [h1']
  simp [h2]

end Fp
