import Verif.Lemmas.FreqcdRefine
import Verif.Lemmas.FreqcdArith

/-! Steps of the machine without buffers in terms of the events of the whole input. -/
namespace Fp
open Spec

theorem events_take (b : Bytes) (n : Nat) (h : n ≤ b.length) : events (b.take n) = (events b).take (n / 8) := by
  unfold events
  rw [← List.map_take, List.take_range, List.length_take, min_eq_left h, min_eq_left (by omega)]
  apply List.map_congr_left
  intro i hi
  rw [List.mem_range] at hi
  rw [List.drop_take, List.take_take, min_eq_left (by omega)]

theorem events_drop (b : Bytes) (k : Nat) : events (b.drop (8 * k)) = (events b).drop k := by
  unfold events
  apply List.ext_getElem?
  intro i
  rw [List.getElem?_drop, List.getElem?_map, List.getElem?_map, List.length_drop]
  by_cases hi : k + i < b.length / 8
  · rw [List.getElem?_range (by omega), List.getElem?_range hi]
    simp only [Option.map_some, List.drop_drop]
    congr 3
    ring
  · rw [List.getElem?_eq_none (by simp; omega), List.getElem?_eq_none (by simp; omega)]
    rfl

theorem mem_events {b ev : Bytes} (h : ev ∈ events b) : ev.length = 8 := by
  unfold events at h
  rw [List.mem_map] at h
  obtain ⟨i, hi, rfl⟩ := h
  rw [List.mem_range] at hi
  simp only [List.length_take, List.length_drop]
  omega

theorem events_append (a b : Bytes) (k : Nat) (h : a.length = 8 * k) : events (a ++ b) = events a ++ events b := by
  have h1 : (events (a ++ b)).take k = events a := by
    have := events_take (a ++ b) (8 * k) (by simp; omega)
    rw [show 8 * k / 8 = k by omega] at this
    rw [← this, ← h, List.take_left]
  have h2 : (events (a ++ b)).drop k = events b := by
    have := events_drop (a ++ b) k
    rw [← this, ← h, List.drop_left]
  rw [← List.take_append_drop k (events (a ++ b)), h1, h2]

theorem events_single (ev : Bytes) (h : ev.length = 8) : events ev = [ev] := by
  unfold events
  rw [h]
  change [(ev.drop (8 * 0)).take 8] = [ev]
  rw [Nat.mul_zero, List.drop_zero, List.take_of_length_le (by omega)]

theorem events_flatMap {α : Type} (l : List α) (g : α → Bytes) (h : ∀ x ∈ l, (g x).length = 8) : events (l.flatMap g) = l.map g := by
  induction l with
  | nil => simp [events]
  | cons x l ih =>
    rw [List.flatMap_cons, events_append _ _ 1 (h x (by simp)), events_single _ (h x (by simp)),
      ih (fun y hy => h y (by simp [hy])), List.map_cons]
    rfl

/-- The variables that determine the corrections. -/
structure EState where
  tsref : BitVec 64
  isset : Bool
  tsmeas : BitVec 64
  tscorr : BitVec 64
  ovf : BitVec 64

def AState.e (a : AState) : EState := { tsref := a.tsref, isset := a.isset, tsmeas := a.tsmeas, tscorr := a.tscorr, ovf := a.ovf }

/-- Reference time used for the events of a read. -/
def eRef (legacy : Bool) (evs : List Bytes) (e : EState) : BitVec 64 :=
  if e.isset then e.tsref else (evs.head?.map (evMeas legacy)).getD e.tsref

/-- State after a read that completes the events `evs`. -/
def eRead (legacy : Bool) (fcorr : BitVec 32) (evs : List Bytes) (e : EState) : EState :=
  let tsmeas := (evs.getLast?.map (evMeas legacy)).getD e.tsmeas
  let tscorr := (evs.getLast?.map fun ev => tsCorr fcorr (eRef legacy evs e) (evMeas legacy ev)).getD e.tscorr
  { tsref := tsmeas, isset := e.isset || !evs.isEmpty, tsmeas := tsmeas, tscorr := tscorr, ovf := e.ovf + tscorr }

/-- The output of such a read. -/
def eBlock (legacy : Bool) (fcorr : BitVec 32) (evs : List Bytes) (e : EState) : Bytes :=
  evs.flatMap (evCorrect legacy fcorr (eRef legacy evs e) e.ovf)

/-- `n` bytes of `src` have been read. -/
structure Pos (whole : Bytes) (a : AState) (n : Nat) : Prop where
  le : n ≤ whole.length
  src : a.src = whole.drop n
  pend : a.pend = (whole.take n).drop (8 * (n / 8))

/-- Events completed by reading from position `n` to `n'`. -/
def between (src : Bytes) (n n' : Nat) : List Bytes := ((events src).take (n' / 8)).drop (n / 8)

theorem Pos.pend_length {src : Bytes} {a : AState} {n : Nat} (h : Pos src a n) : a.pend.length = n % 8 := by
  rw [h.pend, List.length_drop, List.length_take, min_eq_left h.le]
  omega

/-- A read that delivers data. -/
theorem aInput_read (legacy : Bool) (k : Nat) (src : Bytes) (a : AState) (n : Nat) (hp : Pos src a n)
    (hd : a.src.take (min k (bufSize - n % 8)) ≠ []) :
    let i := aInput legacy (some (some k)) a
    i.2.2 = none ∧ ∃ n', n < n' ∧ Pos src i.1 n' ∧ i.1.e = eRead legacy a.fcorr (between src n n') a.e ∧
      i.2.1 = eBlock legacy a.fcorr (between src n n') a.e ∧ i.1.out = a.out ∧ i.1.fcorr = a.fcorr ∧ i.1.freqOpen = a.freqOpen ∧
      i.1.fpend = a.fpend ∧ i.1.freqSrc = a.freqSrc ∧ n' = min (n + min k (bufSize - n % 8)) src.length := by
  simp only
  have hpl := hp.pend_length
  unfold aInput
  simp only [hpl]
  rw [if_neg hd]
  have hdl : (a.src.take (min k (bufSize - n % 8))).length = min (min k (bufSize - n % 8)) (src.length - n) := by
    rw [List.length_take, hp.src, List.length_drop]
  have hpos : 0 < (a.src.take (min k (bufSize - n % 8))).length := List.length_pos_iff.mpr hd
  have hle := hp.le
  refine ⟨rfl, n + (a.src.take (min k (bufSize - n % 8))).length, by omega, ?_⟩
  have hall : a.pend ++ a.src.take (min k (bufSize - n % 8)) =
      (src.take (n + (a.src.take (min k (bufSize - n % 8))).length)).drop (8 * (n / 8)) := by
    have h1 : src.take (n + (a.src.take (min k (bufSize - n % 8))).length) = src.take n ++ a.src.take (min k (bufSize - n % 8)) := by
      rw [List.take_add, ← hp.src]
      congr 1
      rw [hdl, List.take_eq_take_iff, hp.src, List.length_drop]
      omega
    rw [h1, List.drop_append_of_le_length (by rw [List.length_take]; omega), ← hp.pend]
  have hn' : n + (a.src.take (min k (bufSize - n % 8))).length ≤ src.length := by omega
  generalize hL : (a.src.take (min k (bufSize - n % 8))).length = L at *
  rw [hall]
  have hev : events ((src.take (n + L)).drop (8 * (n / 8))) = between src n (n + L) := by
    rw [events_drop, events_take _ _ hn']; rfl
  rw [hev]
  refine ⟨⟨hn', ?_, ?_⟩, rfl, rfl, rfl, rfl, rfl, rfl, rfl, by omega⟩
  · simp only [hp.src, List.drop_drop]
  · simp only [List.drop_drop, List.length_drop, List.length_take, min_eq_left hn']
    congr 1
    omega

/-- The input part of a step. -/
theorem aInput_cases (legacy : Bool) (r : Option (Option Nat)) (src : Bytes) (a : AState) (n : Nat) (hp : Pos src a n) :
    let i := aInput legacy r a
    (i.2.2 ≠ none ∧ i.1 = a ∧ i.2.1 = [] ∧ (i.2.2 = some .inputClosed ∨ i.2.2 = some .inputError)) ∨
    (i = (a, [], none)) ∨
    (i.2.2 = none ∧ ∃ n', n < n' ∧ Pos src i.1 n' ∧ i.1.e = eRead legacy a.fcorr (between src n n') a.e ∧
      i.2.1 = eBlock legacy a.fcorr (between src n n') a.e ∧ i.1.out = a.out ∧ i.1.fcorr = a.fcorr ∧ i.1.freqOpen = a.freqOpen ∧
      i.1.fpend = a.fpend ∧ i.1.freqSrc = a.freqSrc ∧
      ∃ k, r = some (some k) ∧ n' = min (n + min k (bufSize - n % 8)) src.length) := by
  match r with
  | none => right; left; rfl
  | some none => left; exact ⟨by simp [aInput], rfl, rfl, Or.inr rfl⟩
  | some (some k) =>
    by_cases hd : a.src.take (min k (bufSize - n % 8)) = []
    · left
      unfold aInput
      simp only [hp.pend_length, hd]
      simp
    · right; right
      obtain ⟨h0, n', h1, h2, h3, h4, h5, h6, h7, h8, h9, h10⟩ := aInput_read legacy k src a n hp hd
      exact ⟨h0, n', h1, h2, h3, h4, h5, h6, h7, h8, h9, k, rfl, h10⟩

/-- A step that continues. -/
theorem aStep_clean (legacy : Bool) (r : Round) (src : Bytes) (a a' : AState) (n : Nat) (hp : Pos src a n)
    (h : aStep legacy r a = (a', none)) :
    a'.fcorr = (aFreq r.freqRead a).1.fcorr ∧ a'.freqOpen = (aFreq r.freqRead a).1.freqOpen ∧ a'.fpend = (aFreq r.freqRead a).1.fpend ∧
    a'.freqSrc = (aFreq r.freqRead a).1.freqSrc ∧ (aFreq r.freqRead a).2 = none ∧
    ((Pos src a' n ∧ a'.e = a.e ∧ a'.out = a.out) ∨
     ∃ n', n < n' ∧ r.inRead ≠ none ∧ Pos src a' n' ∧ a'.e = eRead legacy a.fcorr (between src n n') a.e ∧
       a'.out = a.out ++ eBlock legacy a.fcorr (between src n n') a.e) := by
  unfold aStep at h
  split at h
  · simp at h
  · simp only at h
    split at h
    · rename_i h1
      rw [Prod.mk.injEq] at h
      exact absurd h.2 h1
    · rename_i hsel hin
      rw [not_not] at hin
      split at h
      · rename_i h1
        rw [h] at h1
        exact absurd rfl h1
      · rename_i hfr
        rw [not_not] at hfr
        -- the frequency part commutes with the input part
        have hcomm : ∀ b : AState, b.freqOpen = a.freqOpen → b.fpend = a.fpend → b.freqSrc = a.freqSrc → b.fcorr = a.fcorr →
            (aFreq r.freqRead b).2 = (aFreq r.freqRead a).2 ∧ (aFreq r.freqRead b).1.fcorr = (aFreq r.freqRead a).1.fcorr ∧
            (aFreq r.freqRead b).1.freqOpen = (aFreq r.freqRead a).1.freqOpen ∧ (aFreq r.freqRead b).1.fpend = (aFreq r.freqRead a).1.fpend ∧
            (aFreq r.freqRead b).1.freqSrc = (aFreq r.freqRead a).1.freqSrc ∧ (aFreq r.freqRead b).1.e = b.e ∧
            (aFreq r.freqRead b).1.out = b.out ∧ (aFreq r.freqRead b).1.src = b.src ∧ (aFreq r.freqRead b).1.pend = b.pend := by
          intro b hb1 hb2 hb3 hb4
          unfold aFreq
          rw [hb1]
          cases a.freqOpen
          · simp [hb1, hb2, hb3, hb4]
          · simp only [Bool.not_true, Bool.false_eq_true, if_false]
            match r.freqRead with
            | none => simp [hb1, hb2, hb3, hb4]
            | some none => simp [hb1, hb2, hb3, hb4]
            | some (some k) =>
              simp only [hb2, hb3, hb4]
              split <;> simp [AState.e, hb2]
        rcases aInput_cases legacy r.inRead src a n hp with ⟨h1, -⟩ | h1 | ⟨-, n', h1, h2, h3, h4, h5, h6, h7, h8, h9, k, h10, -⟩
        · exact absurd hin h1
        · rw [h1] at h hfr
          simp only at h hfr
          obtain ⟨c1, c2, c3, c4, c5, c6, c7, c8, c9⟩ := hcomm a rfl rfl rfl rfl
          unfold aWrite at h
          cases hw : r.write with
          | none => rw [hw] at h; simp at h
          | some k =>
            rw [hw] at h
            simp only [List.take_nil, List.append_nil, Prod.mk.injEq] at h
            obtain ⟨h, -⟩ := h
            subst h
            refine ⟨rfl, rfl, rfl, rfl, hfr, Or.inl ⟨⟨hp.le, ?_, ?_⟩, ?_, ?_⟩⟩
            · simp only [c8, hp.src]
            · simp only [c9, hp.pend]
            · exact c6
            · exact c7
        · obtain ⟨c1, c2, c3, c4, c5, c6, c7, c8, c9⟩ := hcomm (aInput legacy r.inRead a).1 h7 h8 h9 h6
          rw [h4] at h
          unfold aWrite at h
          cases hw : r.write with
          | none => rw [hw] at h; simp at h
          | some k =>
            rw [hw] at h
            simp only [Prod.mk.injEq] at h
            obtain ⟨h, h'⟩ := h
            subst h
            have hk : ¬ k < (eBlock legacy a.fcorr (between src n n') a.e).length := by
              intro hc
              rw [if_pos hc] at h'
              simp at h'
            refine ⟨c2, c3, c4, c5, c1.symm.trans hfr, Or.inr ⟨n', h1, by rw [h10]; simp, ⟨h2.le, ?_, ?_⟩, ?_, ?_⟩⟩
            · simp only [c8, h2.src]
            · simp only [c9, h2.pend]
            · exact c6.trans h3
            · simp only [c7, h5]
              rw [List.take_of_length_le (by omega)]

/-- A run that is stopped continues up to the stopping step. -/
theorem aRun_split (legacy : Bool) (rs : List Round) (a a' : AState) (stop : Stop) (h : aRun legacy rs a = (a', some stop)) :
    ∃ rs1 r rs2 a1, rs = rs1 ++ r :: rs2 ∧ aRun legacy rs1 a = (a1, none) ∧ aStep legacy r a1 = (a', some stop) := by
  induction rs generalizing a with
  | nil => simp [aRun] at h
  | cons r rs ih =>
    unfold aRun at h
    by_cases hst : (aStep legacy r a).2 = none
    · rw [if_neg (by simp [hst])] at h
      obtain ⟨rs1, r', rs2, a1, e1, e2, e3⟩ := ih _ h
      refine ⟨r :: rs1, r', rs2, a1, by rw [e1]; rfl, ?_, e3⟩
      unfold aRun
      rw [if_neg (by simp [hst])]
      exact e2
    · rw [if_pos hst] at h
      exact ⟨[], r, rs, a, rfl, rfl, h⟩

theorem aRun_append (legacy : Bool) (rs1 rs2 : List Round) (a a1 : AState) (h : aRun legacy rs1 a = (a1, none)) :
    aRun legacy (rs1 ++ rs2) a = aRun legacy rs2 a1 := by
  induction rs1 generalizing a with
  | nil => simp [aRun] at h; rw [h]; rfl
  | cons r rs ih =>
    unfold aRun at h
    by_cases hst : (aStep legacy r a).2 = none
    · rw [if_neg (by simp [hst])] at h
      rw [List.cons_append, aRun, if_neg (by simp [hst])]
      exact ih _ h
    · rw [if_pos hst] at h
      rw [h] at hst
      exact absurd rfl hst

/-- Stopping steps other than write errors leave everything written and, unless the frequency channel fails, everything read. -/
theorem aStep_stop (legacy : Bool) (r : Round) (src : Bytes) (a a' : AState) (n : Nat) (hp : Pos src a n) (stop : Stop)
    (h : aStep legacy r a = (a', some stop)) :
    ((stop = .selectError ∨ stop = .inputClosed ∨ stop = .inputError) ∧ a' = a) ∨
    (stop = .freqError ∧ a'.out = a.out ∧ a.freqOpen = true ∧ r.freqRead = some none) ∨
    (stop = .writeError ∧ ∃ n', n ≤ n' ∧ n' ≤ src.length ∧ (n < n' → r.inRead ≠ none) ∧ ∃ k, a'.out = a.out ++ (eBlock legacy a.fcorr (between src n n') a.e).take k) := by
  unfold aStep at h
  split at h
  · simp only [Prod.mk.injEq, Option.some.injEq] at h
    exact Or.inl ⟨Or.inl h.2.symm, h.1.symm⟩
  · simp only at h
    have hfout : ∀ b : AState, (aFreq r.freqRead b).1.out = b.out := by
      intro b
      unfold aFreq
      split
      · rfl
      · split
        · rfl
        · rfl
        · simp only; split <;> rfl
    rcases aInput_cases legacy r.inRead src a n hp with ⟨h1, h2, -, h3⟩ | h1 | ⟨hin, n', h1, h2, h3, h4, h5, h6, h7, h8, h9, k, h10, -⟩
    · rw [if_pos h1, Prod.mk.injEq] at h
      refine Or.inl ⟨?_, by rw [← h.1, h2]⟩
      rcases h3 with h3 | h3 <;> rw [h3, Option.some.injEq] at h
      · exact Or.inr (Or.inl h.2.symm)
      · exact Or.inr (Or.inr h.2.symm)
    · rw [h1] at h
      simp only [ne_eq, not_true_eq_false, if_false] at h
      split at h
      · rename_i hf
        right; left
        have hout := hfout a
        rw [h] at hout
        unfold aFreq at h
        by_cases ho : a.freqOpen
        · simp only [ho, Bool.not_true, Bool.false_eq_true, if_false] at h
          match hr : r.freqRead with
          | none => rw [hr] at h; simp at h
          | some none => rw [hr] at h; simp at h; exact ⟨h.2.symm, hout, ho, rfl⟩
          | some (some k) => rw [hr] at h; simp only at h; split at h <;> simp at h
        · simp [ho] at h
      · right; right
        unfold aWrite at h
        cases hw : r.write with
        | none =>
          rw [hw] at h
          simp only [Prod.mk.injEq, Option.some.injEq] at h
          exact ⟨h.2.symm, n, le_rfl, hp.le, fun hc => absurd hc (lt_irrefl _), 0, by rw [← h.1, hfout]; simp⟩
        | some k =>
          rw [hw] at h
          simp at h
    · rw [hin] at h
      simp only [ne_eq, not_true_eq_false, if_false] at h
      split at h
      · rename_i hf
        right; left
        have hout := hfout (aInput legacy r.inRead a).1
        rw [h] at hout
        unfold aFreq at h
        by_cases ho : (aInput legacy r.inRead a).1.freqOpen
        · simp only [ho, Bool.not_true, Bool.false_eq_true, if_false] at h
          match hr : r.freqRead with
          | none => rw [hr] at h; simp at h
          | some none => rw [hr] at h; simp at h; exact ⟨h.2.symm, hout.trans h5, by rw [← h7]; exact ho, rfl⟩
          | some (some k) => rw [hr] at h; simp only at h; split at h <;> simp at h
        · simp [ho] at h
      · right; right
        rw [h4] at h
        unfold aWrite at h
        cases hw : r.write with
        | none =>
          rw [hw] at h
          simp only [Prod.mk.injEq, Option.some.injEq] at h
          exact ⟨h.2.symm, n, le_rfl, hp.le, fun hc => absurd hc (lt_irrefl _), 0, by rw [← h.1, hfout, h5]; simp⟩
        | some k =>
          rw [hw] at h
          simp only [Prod.mk.injEq] at h
          obtain ⟨ha, hs⟩ := h
          refine ⟨?_, n', h1.le, h2.le, fun _ => by rw [h10]; simp, k, ?_⟩
          · split at hs
            · simp at hs; exact hs.symm
            · simp at hs
          · rw [← ha]; simp only [hfout, h5]

end Fp
