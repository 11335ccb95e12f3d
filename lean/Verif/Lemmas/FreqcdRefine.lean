import Verif.Lemmas.FreqcdBuf

/-! Refinement of the buffer machine of `freqcd`, part by part. -/
namespace Fp
open Spec

theorem top_ok {s : FState} (h : WF s) : ∃ b, copyLoop .inbuffer (s.inbytesread - s.inbytesread % 8) (s.inbytesread % 8) 0 s.inbuf = .ok b ∧
    WF { s with inbuf := b } ∧ abst { s with inbuf := b } = abst s ∧ b.take (s.inbytesread % 8) = (abst s).pend := by
  have hb := h.inb
  have hl := h.inbuf
  refine ⟨_, copyLoop_ok _ _ _ _ _ (by omega), ?_, ?_, ?_⟩
  · refine ⟨?_, h.outbuf, h.freqbuf, h.inb, h.fp, h.fn⟩
    simp only [List.length_append, List.length_take, List.length_drop]
    omega
  · unfold abst
    simp only [AState.mk.injEq, and_true, List.take_zero, List.nil_append, Nat.add_zero, Nat.zero_add]
    by_cases h8 : s.inbytesread < 8
    · have e : s.inbytesread - s.inbytesread % 8 = 0 := by omega
      rw [e]
      simp
    · rw [List.drop_append]
      rw [List.drop_eq_nil_of_le (by simp; omega), List.nil_append, List.drop_drop]
      congr 2
      simp only [List.length_take, List.length_drop]
      omega
  · unfold abst
    simp only [List.take_zero, List.nil_append, Nat.add_zero, Nat.zero_add]
    rw [List.take_append_of_le_length (by simp; omega), List.take_take, min_self]

theorem events_length (b : Bytes) : (events b).length = b.length / 8 := by simp [events]

theorem head?_events (b : Bytes) : (events b).head? = if 8 ≤ b.length then some (b.take 8) else none := by
  unfold events
  rw [List.head?_map, List.head?_range]
  by_cases h : 8 ≤ b.length
  · rw [if_neg (by omega), if_pos h]; rfl
  · rw [if_pos (by omega), if_neg h]; rfl

theorem getLast?_events (b : Bytes) : (events b).getLast? = if 8 ≤ b.length then some (evAt b (b.length / 8 - 1)) else none := by
  unfold events
  rw [List.getLast?_map, List.getLast?_range]
  by_cases h : 8 ≤ b.length
  · rw [if_neg (by omega), if_pos h]; rfl
  · rw [if_pos (by omega), if_neg h]; rfl

theorem flatMap_length_fixed {α : Type} (l : List α) (g : α → Bytes) (n : Nat) (h : ∀ x, (g x).length = n) :
    (l.flatMap g).length = n * l.length := by
  induction l with
  | nil => simp
  | cons a l ih => rw [List.flatMap_cons, List.length_append, ih, h, List.length_cons]; ring

theorem input_ok (legacy : Bool) (r : Option (Option Nat)) {s : FState} (h : WF s) (ho : s.outevents = 0)
    (hp : s.inbuf.take (s.inbytesread % 8) = (abst s).pend) :
    ∃ s' n, fInput legacy r s = .ok (s', n, (aInput legacy r (abst s)).2.2) ∧ abst s' = (aInput legacy r (abst s)).1 ∧ WF s' ∧
      s'.outevents = n ∧ 8 * n ≤ bufSize ∧ s'.outbuf.take (8 * n) = (aInput legacy r (abst s)).2.1 := by
  have hpl := pend_length h
  match r with
  | none => exact ⟨s, 0, rfl, rfl, h, ho, by simp, by simp [aInput]⟩
  | some none => exact ⟨s, 0, rfl, rfl, h, ho, by simp, by simp [aInput]⟩
  | some (some k) =>
    unfold fInput aInput
    simp only [hpl, List.length_eq_zero_iff]
    rw [show (abst s).src = s.src from rfl]
    generalize hdata : s.src.take (min k (bufSize - s.inbytesread % 8)) = data
    by_cases hd : data = []
    · simp only [hd, if_true]
      exact ⟨s, 0, rfl, rfl, h, ho, by simp, by simp⟩
    · simp only [hd, if_false]
      have hdl : s.inbytesread % 8 + data.length ≤ bufSize := by
        rw [← hdata]
        simp only [List.length_take]
        unfold bufSize
        omega
      rw [bwrite_ok _ _ _ _ (by rw [h.inbuf]; exact hdl)]
      simp only [bind, Except.bind, pure, Except.pure]
      have hsl := splice_length s.inbuf data (s.inbytesread % 8) (by rw [h.inbuf]; exact hdl)
      have htake := splice_take_add s.inbuf data (s.inbytesread % 8) (by rw [h.inbuf]; exact hdl)
      generalize s.inbuf.take (s.inbytesread % 8) ++ data ++ s.inbuf.drop (s.inbytesread % 8 + data.length) = I at hsl htake ⊢
      rw [hp] at htake
      generalize hall : (abst s).pend ++ data = all at htake ⊢
      have hlen : all.length = s.inbytesread % 8 + data.length := by rw [← hall, List.length_append, hpl]
      rw [← hlen] at htake hdl ⊢
      have hil : I.length = bufSize := by rw [hsl, h.inbuf]
      have hev : ∀ i, 8 * (i + 1) ≤ all.length → evAt I i = evAt all i := by
        intro i hi
        unfold evAt
        rw [← htake, List.drop_take, List.take_take, min_eq_left (by omega)]
      -- reference time
      have href : initRef legacy s.isset s.tsref I (all.length / 8) =
          .ok (if s.isset then s.tsref else ((events all).head?.map (evMeas legacy)).getD s.tsref) := by
        unfold initRef
        by_cases h8 : 8 ≤ all.length
        · have : 0 < all.length / 8 := by omega
          rw [bread_ok _ _ _ _ (by omega), head?_events, if_pos h8]
          have he : (I.drop 0).take 8 = all.take 8 := hev 0 (by omega)
          rw [he]
          cases s.isset <;> simp [this, Except.map]
        · have : ¬ 0 < all.length / 8 := by omega
          rw [head?_events, if_neg h8]
          cases s.isset <;> simp [this]
      rw [href]
      simp only [show (abst s).isset = s.isset from rfl, show (abst s).tsref = s.tsref from rfl]
      generalize (if s.isset = true then s.tsref else ((events all).head?.map (evMeas legacy)).getD s.tsref) = R
      have hout := h.outbuf
      obtain ⟨d, e1, e2, e3, e4, e5, e6, e7, e8⟩ := digestLoop_ok legacy s.fcorr R s.ovf (all.length / 8) 0
        { inbuf := I, outbuf := s.outbuf, outevents := s.outevents, tsmeas := s.tsmeas, tscorr := s.tscorr }
        (by simp only; omega) (by simp only; omega)
      simp only at e2 e3 e4 e5 e6 e7 e8
      refine ⟨{ s with inbuf := d.inbuf, outbuf := d.outbuf, outevents := d.outevents, inbytesread := all.length,
                       isset := s.isset || decide (0 < all.length / 8), tsmeas := d.tsmeas, tscorr := d.tscorr,
                       tsref := d.tsmeas, ovf := s.ovf + d.tscorr, src := s.src.drop data.length }, all.length / 8, ?_, ?_, ?_, ?_, ?_, ?_⟩
      · simp only [e1]
      · have hm : ((events all).getLast?.map (evMeas legacy)).getD s.tsmeas = d.tsmeas := by
          rw [e7, getLast?_events]
          by_cases h8 : 8 ≤ all.length
          · rw [if_pos h8, if_neg (by omega), Nat.zero_add, hev _ (by omega)]; rfl
          · rw [if_neg h8, if_pos (by omega)]; rfl
        have hc : ((events all).getLast?.map fun ev => tsCorr s.fcorr R (evMeas legacy ev)).getD s.tscorr = d.tscorr := by
          rw [e8, getLast?_events]
          by_cases h8 : 8 ≤ all.length
          · rw [if_pos h8, if_neg (by omega), Nat.zero_add, hev _ (by omega)]; rfl
          · rw [if_neg h8, if_pos (by omega)]; rfl
        unfold abst at *
        simp only [AState.mk.injEq]
        refine ⟨?_, trivial, trivial, trivial, hm.symm, ?_, hm.symm, hc.symm, ?_, trivial, trivial, trivial⟩
        · have e9 : all.length - all.length % 8 = 8 * (0 + all.length / 8) := by omega
          rw [e9, e4, ← htake, List.drop_take, htake]
          congr 1
          · omega
          · congr 1; omega
        · congr 1
          by_cases h8 : 8 ≤ all.length
          · have : 0 < all.length / 8 := by omega
            have h2 : events all ≠ [] := by intro hc; have := events_length all; rw [hc] at this; simp at this; omega
            simp [this, h2]
          · have : ¬ 0 < all.length / 8 := by omega
            have h2 : events all = [] := by rw [← List.length_eq_zero_iff, events_length]; omega
            simp [this, h2]
        · rw [hc]
      · exact ⟨by rw [e2, hil], by rw [e3, hout], h.freqbuf, hdl, h.fp, h.fn⟩
      · simp only; omega
      · omega
      · simp only
        rw [ho] at e6
        simp only [Nat.zero_add, Nat.mul_zero, List.take_zero, List.nil_append] at e6
        rw [e6]
        have : ((List.range (all.length / 8)).map fun k : Nat => evAt I k) = events all := by
          unfold events
          apply List.map_congr_left
          intro k hk
          rw [List.mem_range] at hk
          exact hev k (by omega)
        rw [this]
        rfl

theorem aLines_no_newline (fc : BitVec 32) (line rest : Bytes) (h : (10 : UInt8) ∉ rest) : aLines fc line rest = (fc, line ++ rest) := by
  induction rest generalizing line with
  | nil => simp [aLines]
  | cons c cs ih =>
    rw [aLines, if_neg (by rintro rfl; simp at h), ih _ (by intro hc; exact h (by simp [hc]))]
    simp

theorem takeWhile_zero (line rest : Bytes) : (line ++ 0 :: rest).takeWhile (· ≠ 0) = line.takeWhile (· ≠ 0) := by
  induction line with
  | nil => simp
  | cons c cs ih =>
    by_cases hc : c = 0
    · simp [hc]
    · rw [List.cons_append, List.takeWhile_cons, List.takeWhile_cons, ih]

theorem scan_ok (n i next : Nat) (buf : Bytes) (fc : BitVec 32) (hl : i + n ≤ buf.length) (hn : next ≤ i) :
    ∃ buf' next', freqScan n i (buf, next, fc) =
        .ok (buf', next', (aLines fc ((buf.drop next).take (i - next)) ((buf.drop i).take n)).1) ∧
      buf'.length = buf.length ∧ next ≤ next' ∧ next' ≤ i + n ∧
      (buf'.drop next').take (i + n - next') = (aLines fc ((buf.drop next).take (i - next)) ((buf.drop i).take n)).2 ∧
      ((10 : UInt8) ∈ (buf.drop i).take n → 0 < next') ∧ ((10 : UInt8) ∉ (buf.drop i).take n → next' = next ∧ buf' = buf) := by
  induction n generalizing i next buf fc with
  | zero => exact ⟨buf, next, rfl, rfl, le_rfl, hn, rfl, by simp, fun _ => ⟨rfl, rfl⟩⟩
  | succ n ih =>
    have hi : i < buf.length := by omega
    have hrest : (buf.drop i).take (n + 1) = buf[i] :: (buf.drop (i + 1)).take n := by
      rw [List.drop_eq_getElem_cons hi, List.take_succ_cons]
    have hline : (buf.drop next).take (i - next) ++ [buf[i]] = (buf.drop next).take (i + 1 - next) := by
      rw [show i + 1 - next = i - next + 1 by omega, List.take_add_one, List.getElem?_drop, show next + (i - next) = i by omega,
        List.getElem?_eq_getElem hi]
      rfl
    rw [hrest]
    rw [freqScan, bget, List.getElem?_eq_getElem hi]
    simp only [bind, Except.bind]
    by_cases hc : buf[i] = 10
    · rw [if_pos hc, bset, if_pos hi]
      simp only
      have hstr : (buf.set i 0).drop next = (buf.drop next).take (i - next) ++ 0 :: buf.drop (i + 1) := by
        have h1 : (buf.drop next) = (buf.drop next).take (i - next) ++ buf[i] :: buf.drop (i + 1) := by
          conv_lhs => rw [← List.take_append_drop (i - next) (buf.drop next)]
          rw [List.drop_drop, show next + (i - next) = i by omega, List.drop_eq_getElem_cons hi]
        have hll : ((buf.drop next).take (i - next)).length = i - next := by simp; omega
        rw [List.drop_set, if_neg (by omega)]
        generalize (buf.drop next).take (i - next) = L at h1 hll ⊢
        rw [h1, List.set_append_right _ _ (by omega), hll, Nat.sub_self, List.set_cons_zero]
      rw [cstring, if_pos (by rw [hstr]; simp), hstr, takeWhile_zero]
      simp only
      obtain ⟨b', n', h1, h2, h3, h4, h5, h6, h7⟩ := ih (i + 1) (i + 1) (buf.set i 0)
        (fcorrUpdate fc (((buf.drop next).take (i - next)).takeWhile (· ≠ 0))) (by simp; omega) le_rfl
      rw [List.drop_set_of_lt (by omega)] at h1 h5 h6 h7
      simp only [Nat.sub_self, List.take_zero] at h1 h5
      rw [show i + 1 + n = i + (n + 1) by ring] at h4 h5
      refine ⟨b', n', ?_, by simpa using h2, by omega, h4, ?_, fun _ => by omega, ?_⟩
      · rw [h1, aLines, if_pos hc]
      · rw [h5, aLines, if_pos hc]
      · rw [hc]; intro hx; exact absurd (by simp) hx
    · rw [if_neg hc]
      obtain ⟨b', n', h1, h2, h3, h4, h5, h6, h7⟩ := ih (i + 1) next buf fc (by omega) (by omega)
      rw [show i + 1 + n = i + (n + 1) by ring] at h4 h5
      refine ⟨b', n', ?_, h2, h3, h4, ?_, ?_, ?_⟩
      · rw [h1, aLines, if_neg hc, hline]
      · rw [h5, aLines, if_neg hc, hline]
      · intro hx
        rcases List.mem_cons.mp hx with hx | hx
        · exact absurd hx.symm hc
        · exact h6 hx
      · intro hx
        exact h7 (fun hy => hx (List.mem_cons_of_mem _ hy))

theorem freq_ok (r : Option (Option Nat)) {s : FState} (h : WF s) :
    ∃ s', fFreq r s = .ok (s', (aFreq r (abst s)).2) ∧ abst s' = (aFreq r (abst s)).1 ∧ WF s' ∧
      s'.outevents = s.outevents ∧ s'.outbuf = s.outbuf := by
  have hpl := fpend_length h
  have hfn := h.fn
  have hfp := h.fp
  have hfl := h.freqbuf
  unfold fFreq aFreq
  rw [show (abst s).freqOpen = s.freqOpen from rfl]
  by_cases hopen : s.freqOpen
  · simp only [hopen, Bool.not_true, Bool.false_eq_true, if_false]
    match r with
    | none => exact ⟨s, rfl, rfl, h, rfl, rfl⟩
    | some none => exact ⟨s, rfl, rfl, h, rfl, rfl⟩
    | some (some k) =>
      simp only [hpl]
      rw [show (abst s).freqSrc = s.freqSrc from rfl]
      generalize hdata : s.freqSrc.take (min k (freqBufSize - s.freqPartial - 1)) = data
      have hdl : s.freqPartial + data.length ≤ 99 := by
        rw [← hdata]
        simp only [List.length_take, freqBufSize]
        omega
      have hsl : s.freqPartial + data.length ≤ s.freqbuf.length := by rw [hfl]; unfold freqBufSize; omega
      rw [hfn, bwrite_ok _ _ _ _ hsl]
      simp only [bind, Except.bind, pure, Except.pure]
      have hlen := splice_length _ _ _ hsl
      have htake := splice_take_add _ _ _ hsl
      have hold := splice_take s.freqbuf data s.freqPartial s.freqPartial hsl le_rfl
      generalize s.freqbuf.take s.freqPartial ++ data ++ s.freqbuf.drop (s.freqPartial + data.length) = B at hlen htake hold ⊢
      rw [show s.freqbuf.take s.freqPartial = (abst s).fpend from rfl] at htake hold
      obtain ⟨b', n', h1, h2, h3, h4, h5, h6, h7⟩ := scan_ok (s.freqPartial + data.length) 0 0 B s.fcorr (by rw [hlen]; omega) le_rfl
      simp only [Nat.sub_self, List.take_zero, List.drop_zero, Nat.zero_add] at h1 h4 h5 h6 h7
      rw [htake] at h1 h5 h6 h7
      rw [h1]
      simp only
      by_cases hnl : (10 : UInt8) ∈ (abst s).fpend ++ data
      · have hpos := h6 hnl
        rw [if_pos hnl, if_pos hpos]
        have hb'l : b'.length = freqBufSize := by rw [h2, hlen, hfl]
        have hrest : s.freqPartial + data.length - (s.freqPartial + data.length - n') = n' := by omega
        rw [hrest, copyLoop_ok _ _ _ _ _ (by rw [hb'l]; unfold freqBufSize; omega)]
        simp only [List.take_zero, List.nil_append, Nat.add_zero, Nat.zero_add]
        refine ⟨_, rfl, ?_, ?_, rfl, rfl⟩
        · unfold abst at *
          simp only [AState.mk.injEq]
          refine ⟨trivial, ?_, trivial, trivial, trivial, trivial, trivial, trivial, trivial, trivial, trivial, trivial⟩
          rw [List.take_append_of_le_length (by
            simp only [List.length_take, List.length_drop]
            rw [hb'l]; unfold freqBufSize; omega), List.take_take, min_self, h5]
        · refine ⟨h.inbuf, h.outbuf, ?_, h.inb, by simp only; omega, rfl⟩
          simp only [List.length_append, List.length_take, List.length_drop]
          rw [hb'l]; unfold freqBufSize; omega
      · obtain ⟨hn0, rfl⟩ := h7 hnl
        rw [if_neg hnl, hn0, if_neg (by omega)]
        refine ⟨_, rfl, ?_, ?_, rfl, rfl⟩
        · unfold abst at *
          simp only [AState.mk.injEq]
          refine ⟨trivial, hold, trivial, ?_, trivial, trivial, trivial, trivial, trivial, trivial, trivial, trivial⟩
          rw [aLines_no_newline _ _ _ hnl]
        · exact ⟨h.inbuf, h.outbuf, by simp only; rw [hlen, hfl], h.inb, h.fp, rfl⟩
  · simp only [hopen, Bool.not_false, if_true]
    exact ⟨s, rfl, rfl, h, rfl, rfl⟩

theorem write_ok (r : Option Nat) (n : Nat) {s : FState} (h : WF s) (hn : 8 * n ≤ bufSize) (hs : s.outevents = n) :
    ∃ s', fWrite r n s = .ok (s', (aWrite r (s.outbuf.take (8 * n)) (abst s)).2) ∧
      abst s' = (aWrite r (s.outbuf.take (8 * n)) (abst s)).1 ∧ WF s' ∧
      ((aWrite r (s.outbuf.take (8 * n)) (abst s)).2 = none → s'.outevents = 0) := by
  have hl := h.outbuf
  unfold fWrite aWrite
  rw [bread_ok _ _ _ _ (by omega), List.drop_zero]
  simp only [bind, Except.bind, pure, Except.pure]
  match r with
  | none => exact ⟨s, rfl, rfl, h, by simp⟩
  | some k =>
    simp only
    have hlen : (s.outbuf.take (8 * n)).length = 8 * n := by simp; omega
    by_cases hk : k < 8 * n
    · rw [if_pos (by simp only [List.length_take]; omega), hlen, if_pos hk]
      exact ⟨_, rfl, rfl, ⟨h.inbuf, h.outbuf, h.freqbuf, h.inb, h.fp, h.fn⟩, by simp⟩
    · rw [if_neg (by simp only [List.length_take]; omega), hlen, if_neg hk]
      exact ⟨_, rfl, rfl, ⟨h.inbuf, h.outbuf, h.freqbuf, h.inb, h.fp, h.fn⟩, by simp⟩

theorem step_ok (legacy : Bool) (r : Round) {s : FState} (h : WF s) (ho : s.outevents = 0) :
    ∃ s', fStep legacy r s = .ok (s', (aStep legacy r (abst s)).2) ∧ abst s' = (aStep legacy r (abst s)).1 ∧ WF s' ∧
      ((aStep legacy r (abst s)).2 = none → s'.outevents = 0) := by
  obtain ⟨b, hb, hwf, habs, hp⟩ := top_ok h
  unfold fStep aStep
  simp only [hb, bind, Except.bind, pure, Except.pure]
  by_cases hsel : r.selectOk
  · simp only [hsel, Bool.not_true, Bool.false_eq_true, if_false]
    obtain ⟨s1, n, h1, h2, h3, h4, h5, h6⟩ := input_ok legacy r.inRead hwf ho (by rw [habs]; exact hp)
    rw [habs] at h1 h2 h6
    rw [h1]
    simp only
    by_cases hst : (aInput legacy r.inRead (abst s)).2.2 = none
    · simp only [hst, ne_eq, not_true_eq_false, if_false]
      obtain ⟨s2, g1, g2, g3, g4, g5⟩ := freq_ok r.freqRead h3
      rw [h2] at g1 g2
      rw [g1]
      simp only
      by_cases hst2 : (aFreq r.freqRead (aInput legacy r.inRead (abst s)).1).2 = none
      · simp only [hst2, not_true_eq_false, if_false]
        obtain ⟨s3, w1, w2, w3, w4⟩ := write_ok r.write n g3 h5 (by omega)
        rw [g2, g5, h6] at w1 w2 w4
        exact ⟨s3, w1, w2, w3, w4⟩
      · simp only [hst2, not_false_eq_true, if_true]
        exact ⟨s2, rfl, g2, g3, fun hc => hc.elim⟩
    · simp only [hst, ne_eq, not_false_eq_true, if_true]
      exact ⟨s1, rfl, h2, h3, fun hc => hc.elim⟩
  · simp only [hsel, Bool.not_false, if_true]
    exact ⟨_, rfl, habs, hwf, by simp⟩

theorem run_ok (legacy : Bool) (rs : List Round) {s : FState} (h : WF s) (ho : s.outevents = 0) :
    ∃ s', fRun legacy rs s = .ok (s', (aRun legacy rs (abst s)).2) ∧ abst s' = (aRun legacy rs (abst s)).1 := by
  induction rs generalizing s with
  | nil => exact ⟨s, rfl, rfl⟩
  | cons r rs ih =>
    obtain ⟨s1, h1, h2, h3, h4⟩ := step_ok legacy r h ho
    unfold fRun aRun
    simp only [h1, bind, Except.bind, pure, Except.pure]
    by_cases hst : (aStep legacy r (abst s)).2 = none
    · simp only [hst, ne_eq, not_true_eq_false, if_false]
      obtain ⟨s', g1, g2⟩ := ih h3 (h4 hst)
      rw [h2] at g1 g2
      exact ⟨s', g1, g2⟩
    · simp only [hst, ne_eq, not_false_eq_true, if_true]
      exact ⟨s1, rfl, h2⟩

end Fp
