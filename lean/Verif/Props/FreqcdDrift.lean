import Verif.Props.FreqcdFaults
import Verif.Spec.FreqcdDrift

/-! # C123: corrections that change add up over time -/
namespace Fp
open Spec

theorem accumulated_succ (f : ℕ → ℤ) (T : ℕ → ℕ) (m t : ℕ) :
    accumulated f T (m + 1) t = accumulated f T m t + (f m : ℚ) * ((min t (T (m + 1)) : ℕ) - (min t (T m) : ℕ)) / 2 ^ 34 := by
  unfold accumulated
  rw [Finset.sum_range_succ]

theorem accumulated_old (f : ℕ → ℤ) (T : ℕ → ℕ) (m t : ℕ) (h : t ≤ T m) (h' : T m ≤ T (m + 1)) :
    accumulated f T (m + 1) t = accumulated f T m t := by
  rw [accumulated_succ, min_eq_left h, min_eq_left (h.trans h')]
  simp

theorem accumulated_late (f : ℕ → ℤ) (T : ℕ → ℕ) (m t : ℕ) (h : T m ≤ t) (h' : ∀ q ≤ m, T q ≤ T m) :
    accumulated f T m t = accumulated f T m (T m) := by
  unfold accumulated
  apply Finset.sum_congr rfl
  intro q hq
  have hq := Finset.mem_range.mp hq
  have a1 := h' q hq.le
  have a2 := h' (q + 1) hq
  rw [min_eq_right (a1.trans h), min_eq_right (a2.trans h), min_eq_right a1, min_eq_right a2]

theorem accumulated_new (f : ℕ → ℤ) (T : ℕ → ℕ) (m t : ℕ) (h : T m ≤ t) (h1 : t ≤ T (m + 1)) (h' : ∀ q ≤ m, T q ≤ T m) :
    accumulated f T (m + 1) t = accumulated f T m (T m) + (f m : ℚ) * ((t : ℚ) - T m) / 2 ^ 34 := by
  rw [accumulated_succ, accumulated_late f T m t h h', min_eq_left h1, min_eq_right h]

/-- What holds after some passes: `c` is the offset of the last event written. -/
structure Drift (legacy : Bool) (src : Bytes) (f : ℕ → ℤ) (T : ℕ → ℕ) (p k : ℕ) (a : AState) (n : ℕ) : Prop where
  len : a.out.length = 8 * (n / 8)
  mono : ∀ q ≤ p, T q ≤ T p
  off : (n / 8 = 0 ∧ a.isset = false ∧ a.ovf = 0#64 ∧ ∀ q ≤ p, T q = T 0) ∨
    (a.isset = true ∧ 0 < n / 8 ∧ a.tsref.toNat = T p ∧ ∃ c : ℤ, a.ovf = BitVec.ofInt 64 c ∧ |(c : ℚ) - accumulated f T p (T p)| ≤ (3 / 2 : ℚ) * k)
  good : ∀ j t, j < n / 8 → (times legacy src)[j]? = some t → t ≤ T p ∧ ∃ (o : ℕ) (c : ℤ), (times legacy a.out)[j]? = some o ∧
    (o : ℤ) = (t + c) % 2 ^ 54 ∧ |(c : ℚ) - accumulated f T p t| < (3 / 2 : ℚ) * k

theorem sorted_index {l : List ℕ} (h : l.Pairwise (· ≤ ·)) {i j a b : ℕ} (hi : l[i]? = some a) (hj : l[j]? = some b) (hij : i ≤ j) : a ≤ b := by
  obtain ⟨h1, rfl⟩ := List.getElem?_eq_some_iff.mp hi
  obtain ⟨h2, rfl⟩ := List.getElem?_eq_some_iff.mp hj
  rcases Nat.eq_or_lt_of_le hij with e | e
  · subst e; exact le_refl _
  · exact List.pairwise_iff_getElem.mp h i j h1 h2 e

theorem drift_read {legacy : Bool} {src : Bytes} {f : ℕ → ℤ} {T : ℕ → ℕ} {p k : ℕ} {a a' : AState} {n n' : ℕ}
    (hord : (times legacy src).Pairwise (· ≤ ·)) (hfp : a.fcorr.toInt = f p) (hf : |f p| < 2 ^ 21)
    (hT : T p = ((times legacy src)[n / 8 - 1]?).getD 0) (hT' : T (p + 1) = ((times legacy src)[n' / 8 - 1]?).getD 0)
    (hi : Drift legacy src f T p k a n) (hlt : n < n') (hpos' : Pos src a' n') (hne : between src n n' ≠ [])
    (he : a'.e = eRead legacy a.fcorr (between src n n') a.e)
    (ho : a'.out = a.out ++ eBlock legacy a.fcorr (between src n n') a.e) :
    Drift legacy src f T (p + 1) (k + 1) a' n' := by
  have hle := hpos'.le
  have hd := Nat.div_le_div_right (c := 8) hlt.le
  have hbl := between_length src n n' hle
  have hb0 : 0 < (between src n n').length := List.length_pos_iff.mpr hne
  have htl : (times legacy src).length = src.length / 8 := by simp [times, events_length]
  have hn8 : n' / 8 ≤ src.length / 8 := Nat.div_le_div_right hle
  -- events of the block
  have hblk : ∀ j (hj : j < (between src n n').length), (times legacy src)[n / 8 + j]? = some (evTime legacy (between src n n')[j]) := by
    intro j hj
    have h1 : ((between src n n').map (evTime legacy))[j]? = some (evTime legacy (between src n n')[j]) := by
      rw [List.getElem?_map, List.getElem?_eq_getElem hj]; rfl
    rw [times_between, List.getElem?_drop, List.getElem?_take_of_lt (by omega)] at h1
    exact h1
  -- the last event
  obtain ⟨z, hz⟩ : ∃ z, (between src n n').getLast? = some z := by
    cases hc : (between src n n').getLast? with
    | none => rw [List.getLast?_eq_none_iff] at hc; exact absurd hc hne
    | some z => exact ⟨z, rfl⟩
  have hz8 := between_mem (List.mem_of_getLast? hz)
  have hzt : (times legacy src)[n' / 8 - 1]? = some (evTime legacy z) := by
    have h1 := hblk ((between src n n').length - 1) (by omega)
    rw [List.getLast?_eq_getElem?, List.getElem?_eq_getElem (by omega), Option.some.injEq] at hz
    rw [hz, show n / 8 + ((between src n n').length - 1) = n' / 8 - 1 by omega] at h1
    exact h1
  have hTz : T (p + 1) = evTime legacy z := by rw [hT', hzt]; rfl
  obtain ⟨tp, htp⟩ : ∃ tp, (times legacy src)[n / 8 - 1]? = some tp := ⟨_, List.getElem?_eq_getElem (by omega)⟩
  have hTp : T p = tp := by rw [hT, htp]; rfl
  have hmono1 : T p ≤ T (p + 1) := by
    rw [hTp, hTz]
    exact sorted_index hord htp hzt (by omega)
  -- the reference
  obtain ⟨R, hR⟩ : ∃ R, eRef legacy (between src n n') a.e = R := ⟨_, rfl⟩
  have href : R.toNat = T p ∧ ∃ c : ℤ, a.ovf = BitVec.ofInt 64 c ∧ |(c : ℚ) - accumulated f T p (T p)| ≤ (3 / 2 : ℚ) * k := by
    rcases hi.off with ⟨i1, i2, i3, i4⟩ | ⟨i1, i2, i3, i4⟩
    · refine ⟨?_, 0, by rw [i3]; rfl, ?_⟩
      · have h1 := hblk 0 hb0
        rw [Nat.add_zero, i1] at h1
        rw [i1, Nat.zero_sub, h1, Option.some.injEq] at htp
        rw [hTp, ← htp, ← hR]
        unfold eRef
        rw [show a.e.isset = false from i2]
        obtain ⟨x, xs, hx⟩ := List.exists_cons_of_ne_nil hne
        have hx8 : x.length = 8 := between_mem (src := src) (n := n) (n' := n') (by rw [hx]; simp)
        simp only [hx, List.head?_cons, Option.map_some, Option.getD_some, Bool.false_eq_true, if_false, List.getElem_cons_zero]
        exact evMeas_toNat _ _ hx8
      · have : accumulated f T p (T p) = 0 := by
          unfold accumulated
          apply Finset.sum_eq_zero
          intro q hq
          have hq := Finset.mem_range.mp hq
          rw [i4 q hq.le, i4 (q + 1) hq]
          simp
        rw [this]
        simp
    · refine ⟨?_, i4⟩
      rw [← i3, ← hR]
      unfold eRef
      rw [show a.e.isset = true from i1]
      rfl
  obtain ⟨hRp, c, hc, hcb⟩ := href
  have hf' : |a.fcorr.toInt| < 2 ^ 21 := by rw [hfp]; exact hf
  -- offsets of the events of the block
  have hoff : ∀ t : ℕ, T p ≤ t → t ≤ T (p + 1) →
      |((c + corrOf a.fcorr.toInt ((t : ℤ) - R.toNat) : ℤ) : ℚ) - accumulated f T (p + 1) t| < (3 / 2 : ℚ) * ((k + 1 : ℕ) : ℚ) := by
    intro t h1 h2
    have hap := corrOf_approx a.fcorr.toInt ((t : ℤ) - R.toNat) hf'
    rw [accumulated_new f T p t h1 h2 hi.mono]
    have e : ((c + corrOf a.fcorr.toInt ((t : ℤ) - R.toNat) : ℤ) : ℚ) - (accumulated f T p (T p) + (f p : ℚ) * ((t : ℚ) - T p) / 2 ^ 34) =
        ((c : ℚ) - accumulated f T p (T p)) + ((corrOf a.fcorr.toInt ((t : ℤ) - R.toNat) : ℚ) - (((t : ℤ) - R.toNat : ℤ) : ℚ) * a.fcorr.toInt / 2 ^ 34) := by
      rw [hfp, hRp]
      push_cast
      ring
    rw [e]
    have h3 := abs_add_le ((c : ℚ) - accumulated f T p (T p)) ((corrOf a.fcorr.toInt ((t : ℤ) - R.toNat) : ℚ) - (((t : ℤ) - R.toNat : ℤ) : ℚ) * a.fcorr.toInt / 2 ^ 34)
    push_cast at h3 hap ⊢
    linarith
  have hmz : T p ≤ evTime legacy z := by rw [← hTz]; exact hmono1
  refine ⟨?_, ?_, ?_, ?_⟩
  · rw [ho, List.length_append, block_length, hbl, hi.len]
    omega
  · intro q hq
    rcases Nat.lt_or_ge p q with h | h
    · have : q = p + 1 := by omega
      rw [this]
    · exact (hi.mono q h).trans hmono1
  · right
    have f1 : a'.isset = (eRead legacy a.fcorr (between src n n') a.e).isset := congrArg EState.isset he
    have f2 : a'.ovf = (eRead legacy a.fcorr (between src n n') a.e).ovf := congrArg EState.ovf he
    have f3 : a'.tsref = (eRead legacy a.fcorr (between src n n') a.e).tsref := congrArg EState.tsref he
    refine ⟨?_, by omega, ?_, c + corrOf a.fcorr.toInt ((evTime legacy z : ℤ) - R.toNat), ?_, ?_⟩
    · rw [f1]
      unfold eRead
      simp [hne]
    · rw [f3, hTz]
      unfold eRead
      simp only [hz, Option.map_some, Option.getD_some]
      exact evMeas_toNat _ _ hz8
    · have hcorrz : tsCorr a.fcorr R (evMeas legacy z) = BitVec.ofInt 64 (corrOf a.fcorr.toInt ((evTime legacy z : ℤ) - R.toNat)) := by
        have hm := evMeas_toNat legacy z hz8
        have hzlt := evTime_lt legacy z hz8
        have ht := tsCorr_toInt a.fcorr R (evMeas legacy z) (by omega) (by omega) hf'
        rw [hm] at ht
        unfold corrOf
        rw [← ht, BitVec.ofInt_toInt]
      rw [f2]
      unfold eRead
      simp only [hz, Option.map_some, Option.getD_some, hR]
      rw [hcorrz, show a.e.ovf = BitVec.ofInt 64 c from hc, ← BitVec.ofInt_add]
    · rw [hTz]
      exact (hoff _ hmz hTz.ge).le
  · intro j t hj ht
    have hsplit : times legacy a'.out = times legacy a.out ++ times legacy (eBlock legacy a.fcorr (between src n n') a.e) := by
      unfold times
      rw [ho, events_append _ _ _ hi.len, List.map_append]
    have hol : (times legacy a.out).length = n / 8 := by
      simp only [times, List.length_map, events_length, hi.len]
      omega
    rcases Nat.lt_or_ge j (n / 8) with h | h
    · obtain ⟨h1, o, c', h2, h3, h4⟩ := hi.good j t h ht
      refine ⟨h1.trans hmono1, o, c', ?_, h3, ?_⟩
      · rw [hsplit, List.getElem?_append_left (by omega)]; exact h2
      · rw [accumulated_old f T p t h1 hmono1]
        push_cast
        linarith
    · have hj' : j - n / 8 < (between src n n').length := by omega
      have h1 := hblk (j - n / 8) hj'
      rw [show n / 8 + (j - n / 8) = j by omega, ht, Option.some.injEq] at h1
      have hev := between_mem (src := src) (n := n) (n' := n') (List.getElem_mem hj')
      have htz : t ≤ T (p + 1) := by
        rw [hTz]
        exact sorted_index hord ht hzt (by omega)
      have htp' : T p ≤ t := by
        rw [hTp]
        exact sorted_index hord htp ht (by omega)
      refine ⟨htz, evTime legacy (evCorrect legacy a.fcorr R a.ovf (between src n n')[j - n / 8]), c + corrOf a.fcorr.toInt ((t : ℤ) - R.toNat),
        ?_, ?_, hoff t htp' htz⟩
      · rw [hsplit, List.getElem?_append_right (by omega), hol]
        unfold times
        rw [events_block, hR, List.map_map, List.getElem?_map, List.getElem?_eq_getElem hj']
        rfl
      · have := corrected_time legacy a.fcorr R a.ovf (between src n n')[j - n / 8] hev (by rw [hRp, ← h1]; exact htp') hf' c hc
        rw [this, h1]

theorem drift_run (legacy : Bool) (rs : List Round) (s s' : FState) (fcorr : BitVec 32) (fo : Bool) (src fsrc : Bytes)
    (h : Initial s fcorr fo src fsrc) (hrun : fRun legacy rs s = .ok (s', none)) (f : ℕ → ℤ) (T : ℕ → ℕ)
    (hist : Corrections legacy rs s src f T) (hf : ∀ p < rs.length, |f p| < 2 ^ 21)
    (hord : (times legacy src).Pairwise (· ≤ ·)) (hns : NoStall legacy rs s) :
    T 0 = ((times legacy src)[0]?).getD 0 ∧ ∃ n, Drift legacy src f T rs.length (reads rs) (abst s') n := by
  obtain ⟨hw, ho, hp, hout, -, -, hset, hovf⟩ := initial_wf h
  have hreads : ∀ rs1 r, reads (rs1 ++ [r]) = reads rs1 + if r.inRead.isSome then 1 else 0 := by
    intro rs1 r
    simp [reads, List.countP_append, List.countP_cons]
  have hhist : ∀ rs1 x, rs1 <+: rs → fRun legacy rs1 s = .ok (x, none) → x.fcorr.toInt = f rs1.length ∧ writtenUpTo legacy src x = T rs1.length := by
    intro rs1 x hpre hx
    exact hist rs1.length hpre.length_le x (by rw [← List.prefix_iff_eq_take.mp hpre]; exact hx)
  have hT0 : T 0 = ((times legacy src)[0]?).getD 0 := by
    have : writtenUpTo legacy src s = T 0 := (hhist [] s List.nil_prefix rfl).2
    rw [← this]
    unfold writtenUpTo
    rw [show s.out = [] from hout]
    rfl
  have ha := run_abst hw ho hrun
  obtain ⟨n, g1, hD⟩ := clean_ind (legacy := legacy) (rs := rs) (a0 := abst s) (src := src)
    (fun rs2 a n => Drift legacy src f T rs2.length (reads rs2) a n) hp
    (by
      refine ⟨?_, ?_, Or.inl ⟨rfl, hset, hovf, ?_⟩, ?_⟩
      · rw [show (abst s).out = [] from hout]; rfl
      · intro q hq; have : q = 0 := by simpa using hq
        rw [this]; exact le_refl _
      · intro q hq; have : q = 0 := by simpa using hq
        rw [this]
      · intro j t hj; simp at hj)
    (by
      rintro rs2 r a a1 n hpre2 hr1 hr2 hpos hi hst
      obtain ⟨s1, hs1, hs1'⟩ := run_of_abst hw ho hr1
      obtain ⟨s2, hs2, hs2'⟩ := run_of_abst hw ho hr2
      have hpre1 : rs2 <+: rs := (List.prefix_append _ _).trans hpre2
      have hlt : rs2.length < rs.length := by
        have := hpre2.length_le
        simp at this
        omega
      obtain ⟨k1, k2⟩ := hhist rs2 s1 hpre1 hs1
      obtain ⟨-, k4⟩ := hhist (rs2 ++ [r]) s2 hpre2 hs2
      rw [List.length_append, List.length_singleton] at k4
      have o1 : s1.out = a.out := by rw [← hs1']; rfl
      have o2 : s2.out = a1.out := by rw [← hs2']; rfl
      have hfp : a.fcorr.toInt = f rs2.length := by rw [← k1, ← hs1']; rfl
      unfold writtenUpTo at k2 k4
      rw [o1, hi.len, show 8 * (n / 8) / 8 = n / 8 by omega] at k2
      rw [List.length_append, List.length_singleton, hreads]
      obtain ⟨-, -, -, -, -, ⟨g1, ge, g2⟩ | ⟨n', g1, gr, g2, ge, g3⟩⟩ := aStep_clean legacy r src a a1 n hpos hst
      · refine ⟨n, g1, ?_⟩
        have e1 : a1.isset = a.isset := congrArg EState.isset ge
        have e2 : a1.ovf = a.ovf := congrArg EState.ovf ge
        have e3 : a1.tsref = a.tsref := congrArg EState.tsref ge
        rw [o2, g2, hi.len, show 8 * (n / 8) / 8 = n / 8 by omega] at k4
        have hTe : T (rs2.length + 1) = T rs2.length := by rw [← k4, ← k2]
        have hacc : ∀ t, accumulated f T (rs2.length + 1) t = accumulated f T rs2.length t := by
          intro t
          rw [accumulated_succ, hTe]
          simp
        have hk : (3 / 2 : ℚ) * (reads rs2 : ℚ) ≤ (3 / 2 : ℚ) * ((reads rs2 + if r.inRead.isSome then 1 else 0 : ℕ) : ℚ) := by
          have : (reads rs2 : ℚ) ≤ ((reads rs2 + if r.inRead.isSome then 1 else 0 : ℕ) : ℚ) := by exact_mod_cast Nat.le_add_right _ _
          linarith
        refine ⟨by rw [g2]; exact hi.len, ?_, ?_, ?_⟩
        · intro q hq
          rw [hTe]
          rcases Nat.lt_or_ge rs2.length q with hc | hc
          · have : q = rs2.length + 1 := by omega
            rw [this, hTe]
          · exact hi.mono q hc
        · rw [e1, e2, e3, hTe]
          rcases hi.off with ⟨i1, i2, i3, i4⟩ | ⟨i1, i2, i3, c, i4, i5⟩
          · refine Or.inl ⟨i1, i2, i3, ?_⟩
            intro q hq
            rcases Nat.lt_or_ge rs2.length q with hc | hc
            · have : q = rs2.length + 1 := by omega
              rw [this, hTe]; exact i4 _ (le_refl _)
            · exact i4 q hc
          · exact Or.inr ⟨i1, i2, i3, c, i4, by rw [hacc]; exact i5.trans hk⟩
        · intro j t hj ht
          obtain ⟨h1, o, c, h2, h3, h4⟩ := hi.good j t hj ht
          exact ⟨by rw [hTe]; exact h1, o, c, by rw [g2]; exact h2, h3, by rw [hacc]; exact h4.trans_le hk⟩
      · have hne : between src n n' ≠ [] := by
          intro hb
          have e1 : s2.src ≠ s1.src := by
            have h1 : s1.src = a.src := by rw [← hs1']; rfl
            have h2 : s2.src = a1.src := by rw [← hs2']; rfl
            rw [h1, h2, hpos.src, g2.src]
            intro hc
            have hlen := congrArg List.length hc
            rw [List.length_drop, List.length_drop] at hlen
            have := g2.le
            omega
          apply hns rs2 r s1 s2 hpre2 hs1 hs2 e1
          rw [o1, o2, g3, hb]
          simp [eBlock]
        have hl : a1.out.length = 8 * (n' / 8) := by
          have hbl := between_length src n n' g2.le
          have hd := Nat.div_le_div_right (c := 8) g1.le
          rw [g3, List.length_append, block_length, hbl, hi.len]
          omega
        rw [o2, hl, show 8 * (n' / 8) / 8 = n' / 8 by omega] at k4
        refine ⟨n', g2, ?_⟩
        rw [if_pos (by rw [Option.isSome_iff_ne_none]; exact gr)]
        exact drift_read hord hfp (hf _ hlt) k2.symm k4.symm hi g1 g2 hne ge g3)
    _ ha
  exact ⟨hT0, n, hD⟩

/-- **C123** (for reads that complete an event): whatever the corrections are and whenever they change, every event is moved
by the corrections in force added up over time, from the first event to it, up to 3/2 units per read. -/
theorem C123_changing_partial (legacy : Bool) (rs : List Round) (s s' : FState) (fcorr : BitVec 32) (fo : Bool) (src fsrc : Bytes)
    (h : Initial s fcorr fo src fsrc) (hrun : fRun legacy rs s = .ok (s', none)) (f : ℕ → ℤ) (T : ℕ → ℕ)
    (hist : Corrections legacy rs s src f T) (hf : ∀ p < rs.length, |f p| < 2 ^ 21)
    (hord : (times legacy src).Pairwise (· ≤ ·)) (hns : NoStall legacy rs s)
    (i : Nat) (o t : ℕ) (hi : (times legacy s'.out)[i]? = some o) (hti : (times legacy src)[i]? = some t) :
    ∃ c : ℤ, (o : ℤ) = (t + c) % 2 ^ 54 ∧ |(c : ℚ) - accumulated f T rs.length t| < (3 / 2 : ℚ) * (reads rs : ℚ) := by
  obtain ⟨-, n, hD⟩ := drift_run legacy rs s s' fcorr fo src fsrc h hrun f T hist hf hord hns
  have hil : i < n / 8 := by
    have h1 := (List.getElem?_eq_some_iff.mp hi).1
    have h2 : s'.out.length = 8 * (n / 8) := hD.len
    simp only [times, List.length_map, events_length, h2] at h1
    omega
  obtain ⟨-, o', c, h2, h3, h4⟩ := hD.good i t hil hti
  have h2' : (times legacy s'.out)[i]? = some o' := h2
  rw [hi, Option.some.injEq] at h2'
  rw [h2']
  exact ⟨c, h3, h4⟩

theorem aRun_prefix {legacy : Bool} (rs1 rs2 : List Round) (a a' : AState) (h : aRun legacy (rs1 ++ rs2) a = (a', none)) :
    ∃ b, aRun legacy rs1 a = (b, none) := by
  induction rs2 using List.reverseRecOn generalizing a' with
  | nil => rw [List.append_nil] at h; exact ⟨a', h⟩
  | append_singleton rs2 r ih =>
    rw [← List.append_assoc] at h
    obtain ⟨b, hb, -⟩ := aRun_concat _ _ _ _ _ h
    exact ih b hb

theorem accumulated_bounds (f : ℕ → ℤ) (T : ℕ → ℕ) (lo hi : ℤ) (m t : ℕ) (hb : ∀ p < m, lo ≤ f p ∧ f p ≤ hi) (hm : ∀ p < m, T p ≤ T (p + 1)) :
    (lo : ℚ) * ((min t (T m) : ℕ) - (min t (T 0) : ℕ)) / 2 ^ 34 ≤ accumulated f T m t ∧
      accumulated f T m t ≤ (hi : ℚ) * ((min t (T m) : ℕ) - (min t (T 0) : ℕ)) / 2 ^ 34 := by
  induction m with
  | zero => simp [accumulated]
  | succ m ih =>
    obtain ⟨h1, h2⟩ := ih (fun p hp => hb p (by omega)) (fun p hp => hm p (by omega))
    rw [accumulated_succ]
    obtain ⟨b1, b2⟩ := hb m (by omega)
    have hd : (0 : ℚ) ≤ ((min t (T (m + 1)) : ℕ) : ℚ) - (min t (T m) : ℕ) := by
      have : min t (T m) ≤ min t (T (m + 1)) := min_le_min (le_refl _) (hm m (by omega))
      have : ((min t (T m) : ℕ) : ℚ) ≤ (min t (T (m + 1)) : ℕ) := by exact_mod_cast this
      linarith
    have b1' : (lo : ℚ) ≤ f m := by exact_mod_cast b1
    have b2' : (f m : ℚ) ≤ hi := by exact_mod_cast b2
    have m1 := mul_le_mul_of_nonneg_right b1' hd
    have m2 := mul_le_mul_of_nonneg_right b2' hd
    constructor
    · calc (lo : ℚ) * ((min t (T (m + 1)) : ℕ) - (min t (T 0) : ℕ)) / 2 ^ 34
          = (lo : ℚ) * ((min t (T m) : ℕ) - (min t (T 0) : ℕ)) / 2 ^ 34 + (lo : ℚ) * ((min t (T (m + 1)) : ℕ) - (min t (T m) : ℕ)) / 2 ^ 34 := by ring
        _ ≤ _ := add_le_add h1 (div_le_div_of_nonneg_right m1 (by positivity))
    · calc _ ≤ (hi : ℚ) * ((min t (T m) : ℕ) - (min t (T 0) : ℕ)) / 2 ^ 34 + (hi : ℚ) * ((min t (T (m + 1)) : ℕ) - (min t (T m) : ℕ)) / 2 ^ 34 :=
            add_le_add h2 (div_le_div_of_nonneg_right m2 (by positivity))
        _ = _ := by ring

/-- **C123**, bounds (for reads that complete an event): as long as the corrections in force stay between `lo` and `hi`, every
event is moved by at least the correction `lo` and at most the correction `hi`, each applied from the first event on, up to
3/2 units per read. -/
theorem C123_between_partial (legacy : Bool) (rs : List Round) (s s' : FState) (fcorr : BitVec 32) (fo : Bool) (src fsrc : Bytes)
    (h : Initial s fcorr fo src fsrc) (hrun : fRun legacy rs s = .ok (s', none)) (lo hi : ℤ) (hlo : -2 ^ 21 < lo) (hhi : hi < 2 ^ 21)
    (hb : Throughout legacy rs s fun x => lo ≤ x.fcorr.toInt ∧ x.fcorr.toInt ≤ hi)
    (hord : (times legacy src).Pairwise (· ≤ ·)) (hns : NoStall legacy rs s)
    (i : Nat) (o t t0 : ℕ) (hi' : (times legacy s'.out)[i]? = some o) (hti : (times legacy src)[i]? = some t)
    (ht0 : (times legacy src).head? = some t0) :
    ∃ c : ℤ, (o : ℤ) = (t + c) % 2 ^ 54 ∧ (lo : ℚ) * ((t : ℚ) - t0) / 2 ^ 34 - (3 / 2 : ℚ) * (reads rs : ℚ) < c ∧
      (c : ℚ) < (hi : ℚ) * ((t : ℚ) - t0) / 2 ^ 34 + (3 / 2 : ℚ) * (reads rs : ℚ) := by
  classical
  -- the history of this run
  have hex : ∀ p, p ≤ rs.length → ∃ x, fRun legacy (rs.take p) s = .ok (x, none) := by
    obtain ⟨hw, ho, -⟩ := initial_wf h
    have ha := run_abst hw ho hrun
    intro p hp
    obtain ⟨b, hb1⟩ := aRun_prefix (rs.take p) (rs.drop p) (abst s) (abst s') (by rw [List.take_append_drop]; exact ha)
    obtain ⟨x, hx, -⟩ := run_of_abst hw ho hb1
    exact ⟨x, hx⟩
  obtain ⟨X, hX⟩ : ∃ X : ℕ → FState, ∀ p ≤ rs.length, fRun legacy (rs.take p) s = .ok (X p, none) := by
    refine ⟨fun p => if hp : p ≤ rs.length then (hex p hp).choose else s, ?_⟩
    intro p hp
    simp only [dif_pos hp]
    exact (hex p hp).choose_spec
  have hist : Corrections legacy rs s src (fun p => (X p).fcorr.toInt) (fun p => writtenUpTo legacy src (X p)) := by
    intro p hp x hx
    rw [hX p hp] at hx
    injection hx with hx
    injection hx with hx _
    subst hx
    exact ⟨rfl, rfl⟩
  have hbp : ∀ p < rs.length, lo ≤ (X p).fcorr.toInt ∧ (X p).fcorr.toInt ≤ hi := by
    intro p hp
    refine hb (rs.take p) rs[p] (X p) ?_ (hX p hp.le)
    rw [List.take_append_getElem hp]
    exact List.take_prefix _ _
  have hfb : ∀ p < rs.length, |(X p).fcorr.toInt| < 2 ^ 21 := by
    intro p hp
    obtain ⟨b1, b2⟩ := hbp p hp
    rw [abs_lt]
    constructor <;> omega
  obtain ⟨hT0, n, hD⟩ := drift_run legacy rs s s' fcorr fo src fsrc h hrun _ _ hist hfb hord hns
  obtain ⟨c, e1, e2⟩ := C123_changing_partial legacy rs s s' fcorr fo src fsrc h hrun _ _ hist hfb hord hns i o t hi' hti
  have hmono : ∀ p < rs.length, writtenUpTo legacy src (X p) ≤ writtenUpTo legacy src (X (p + 1)) := by
    intro p hp
    have hpre : fRun legacy (rs.take (p + 1)) s = .ok (X (p + 1), none) := hX (p + 1) hp
    have hns' : NoStall legacy (rs.take (p + 1)) s := fun rs1 r s1 s2 hq => hns rs1 r s1 s2 (hq.trans (List.take_prefix _ _))
    have hist' : Corrections legacy (rs.take (p + 1)) s src (fun p => (X p).fcorr.toInt) (fun p => writtenUpTo legacy src (X p)) := by
      intro q hq x hx
      rw [List.length_take, min_eq_left hp] at hq
      rw [List.take_take, min_eq_left hq] at hx
      exact hist q (by omega) x hx
    obtain ⟨-, n', hD'⟩ := drift_run legacy (rs.take (p + 1)) s (X (p + 1)) fcorr fo src fsrc h hpre _ _ hist'
      (fun q hq => hfb q (by rw [List.length_take, min_eq_left hp] at hq; omega)) hord hns'
    have := hD'.mono p (by rw [List.length_take, min_eq_left hp]; omega)
    rw [List.length_take, min_eq_left hp] at this
    exact this
  obtain ⟨a1, a2⟩ := accumulated_bounds (fun p => (X p).fcorr.toInt) (fun p => writtenUpTo legacy src (X p)) lo hi rs.length t hbp hmono
  have hil : i < n / 8 := by
    have h1 := (List.getElem?_eq_some_iff.mp hi').1
    have h2 : s'.out.length = 8 * (n / 8) := hD.len
    simp only [times, List.length_map, events_length, h2] at h1
    omega
  have htm := (hD.good i t hil hti).1
  have ht0' : (times legacy src)[0]? = some t0 := by rw [← List.head?_eq_getElem?]; exact ht0
  have ht00 : t0 ≤ t := sorted_index hord ht0' hti (Nat.zero_le _)
  rw [ht0', Option.getD_some] at hT0
  rw [hT0, min_eq_left htm, min_eq_right ht00] at a1 a2
  rw [abs_lt] at e2
  exact ⟨c, e1, by linarith, by linarith⟩

/-- Two events 65536 units apart, each read in a pass of its own.  In the first pass the correction is 0 and the update to
`2^20` arrives; the second event is moved by 4 units: the integral of the correction over time. -/
example : ∃ s s' : FState, Initial s 0 true [0, 0, 0, 0, 0, 0, 0, 0, 0, 0, 0, 4, 0, 0, 0, 0] [49, 48, 52, 56, 53, 55, 54, 10] ∧
    fRun false ([{ selectOk := true, inRead := some (some 8), freqRead := some (some 50), write := some 8192 }] ++ [rd 8]) s = .ok (s', none) ∧
    NoStall false ([{ selectOk := true, inRead := some (some 8), freqRead := some (some 50), write := some 8192 }] ++ [rd 8]) s ∧
    times false s'.out = [0, 65540] ∧
    Corrections false ([{ selectOk := true, inRead := some (some 8), freqRead := some (some 50), write := some 8192 }] ++ [rd 8]) s
      [0, 0, 0, 0, 0, 0, 0, 0, 0, 0, 0, 4, 0, 0, 0, 0] (fun p => if p = 0 then 0 else 2 ^ 20) (fun p => if p = 2 then 65536 else 0) ∧
    accumulated (fun p => if p = 0 then 0 else 2 ^ 20) (fun p => if p = 2 then 65536 else 0) 2 65536 = 4 := by
  obtain ⟨s1, h1, h2, h3, h4⟩ := demo_run false [{ selectOk := true, inRead := some (some 8), freqRead := some (some 50), write := some 8192 }] 0 0 true
    [0, 0, 0, 0, 0, 0, 0, 0, 0, 0, 0, 4, 0, 0, 0, 0] [49, 48, 52, 56, 53, 55, 54, 10] _ _ _ none ⟨rfl, rfl, rfl, by decide +kernel⟩
  obtain ⟨s2, g1, g2, g3, g4⟩ := demo_run false ([{ selectOk := true, inRead := some (some 8), freqRead := some (some 50), write := some 8192 }] ++ [rd 8]) 0 0 true
    [0, 0, 0, 0, 0, 0, 0, 0, 0, 0, 0, 4, 0, 0, 0, 0] [49, 48, 52, 56, 53, 55, 54, 10] _ _ _ none ⟨rfl, rfl, rfl, by decide +kernel⟩
  refine ⟨_, s2, demo_initial 0 _ _ _ _, g1, demo_noStall (by decide +kernel), by rw [g2]; decide +kernel, ?_, ?_⟩
  · intro p hp x hx
    have hp' : p = 0 ∨ p = 1 ∨ p = 2 := by
      simp at hp
      omega
    rcases hp' with rfl | rfl | rfl
    · simp only [List.take_zero, fRun, Except.ok.injEq, Prod.mk.injEq, and_true] at hx
      rw [← hx]
      exact ⟨by decide +kernel, by decide +kernel⟩
    · have hx' := h1.symm.trans hx
      simp only [Except.ok.injEq, Prod.mk.injEq, and_true] at hx'
      rw [← hx']
      refine ⟨by rw [h4]; decide +kernel, ?_⟩
      unfold writtenUpTo
      rw [h2]
      decide +kernel
    · have hx' := g1.symm.trans hx
      simp only [Except.ok.injEq, Prod.mk.injEq, and_true] at hx'
      rw [← hx']
      refine ⟨by rw [g4]; decide +kernel, ?_⟩
      unfold writtenUpTo
      rw [g2]
      decide +kernel
  · simp [accumulated, Finset.sum_range_succ]
    norm_num
end Fp
