import Verif.Spec.Freqcd
import Verif.Lemmas.Bytes
import Mathlib.Data.List.Basic
import Mathlib.Tactic.Ring
import Mathlib.Tactic.Linarith

/-! The byte-level machine of `freqcd` refines a machine without buffers. -/
namespace Fp
open Spec

theorem copyLoop_ok (f : Fault) (src n j : Nat) (b : Bytes) (h : src + j + n ≤ b.length) :
    copyLoop f src n j b = .ok (b.take j ++ (b.drop (src + j)).take n ++ b.drop (j + n)) := by
  induction n generalizing j b with
  | zero => simp [copyLoop]
  | succ n ih =>
    have h1 : src + j < b.length := by omega
    have h2 : j < b.length := by omega
    rw [copyLoop, bget, List.getElem?_eq_getElem h1]
    simp only [bind, Except.bind, bset, h2, if_true]
    rw [ih (j + 1) (b.set j b[src + j]) (by simp; omega)]
    congr 1
    have e1 : (b.set j b[src + j]).take (j + 1) = b.take j ++ [b[src + j]] := by
      rw [List.take_succ, List.take_set_of_le (by omega), List.getElem?_set_self h2]
      rfl
    rw [e1, List.drop_set_of_lt (by omega), List.drop_set_of_lt (by omega), List.append_assoc, List.append_assoc, List.append_assoc]
    congr 1
    rw [List.drop_eq_getElem_cons h1, List.take_succ_cons, List.singleton_append, List.cons_append,
      show src + j + 1 = src + (j + 1) by omega, show j + (n + 1) = j + 1 + n by omega]

theorem bwrite_ok (f : Fault) (b : Bytes) (off : Nat) (data : Bytes) (h : off + data.length ≤ b.length) :
    bwrite f b off data = .ok (b.take off ++ data ++ b.drop (off + data.length)) := by
  rw [bwrite, if_pos h]

theorem bread_ok (f : Fault) (b : Bytes) (off len : Nat) (h : off + len ≤ b.length) :
    bread f b off len = .ok ((b.drop off).take len) := by
  rw [bread, if_pos h]

theorem evCorrect_length (legacy : Bool) (fcorr : BitVec 32) (tsref ovf : BitVec 64) (ev : Bytes) :
    (evCorrect legacy fcorr tsref ovf ev).length = 8 := by
  unfold evCorrect eventBytes
  cases legacy <;> simp [leBytes_length]

/-- Splice of `data` into `b` at `off`. -/
theorem splice_length (b data : Bytes) (off : Nat) (h : off + data.length ≤ b.length) :
    (b.take off ++ data ++ b.drop (off + data.length)).length = b.length := by
  simp only [List.length_append, List.length_take, List.length_drop]
  omega

theorem splice_drop (b data : Bytes) (off m : Nat) (h : off + data.length ≤ b.length) (hm : off + data.length ≤ m) :
    (b.take off ++ data ++ b.drop (off + data.length)).drop m = b.drop m := by
  have hl : (b.take off ++ data).length = off + data.length := by simp; omega
  obtain ⟨k, rfl⟩ := Nat.exists_eq_add_of_le hm
  rw [List.drop_append, List.drop_eq_nil_of_le (by omega), List.nil_append, List.drop_drop, hl, Nat.add_sub_cancel_left]

theorem splice_take (b data : Bytes) (off m : Nat) (h : off + data.length ≤ b.length) (hm : m ≤ off) :
    (b.take off ++ data ++ b.drop (off + data.length)).take m = b.take m := by
  rw [List.append_assoc, List.take_append_of_le_length (by simp; omega), List.take_take, min_eq_left hm]

theorem splice_take_add (b data : Bytes) (off : Nat) (h : off + data.length ≤ b.length) :
    (b.take off ++ data ++ b.drop (off + data.length)).take (off + data.length) = b.take off ++ data := by
  have hl : (b.take off ++ data).length = off + data.length := by simp; omega
  rw [← hl, List.take_left]

/-- Index of an event of the input buffer. -/
def evAt (b : Bytes) (i : Nat) : Bytes := (b.drop (8 * i)).take 8

theorem digestLoop_ok (legacy : Bool) (fcorr : BitVec 32) (tsref ovf : BitVec 64) (n i : Nat) (d : Digest)
    (hin : 8 * (i + n) ≤ d.inbuf.length) (hout : 8 * (d.outevents + n) ≤ d.outbuf.length) :
    ∃ d', digestLoop legacy fcorr tsref ovf n i d = .ok d' ∧ d'.inbuf.length = d.inbuf.length ∧
      d'.outbuf.length = d.outbuf.length ∧ d'.inbuf.drop (8 * (i + n)) = d.inbuf.drop (8 * (i + n)) ∧
      d'.outevents = d.outevents + n ∧
      d'.outbuf.take (8 * (d.outevents + n)) = d.outbuf.take (8 * d.outevents) ++
        ((List.range n).map fun k : Nat => evAt d.inbuf (i + k)).flatMap (evCorrect legacy fcorr tsref ovf) ∧
      d'.tsmeas = (if n = 0 then d.tsmeas else evMeas legacy (evAt d.inbuf (i + (n - 1)))) ∧
      d'.tscorr = if n = 0 then d.tscorr else tsCorr fcorr tsref (evMeas legacy (evAt d.inbuf (i + (n - 1)))) := by
  induction n generalizing i d with
  | zero => exact ⟨d, rfl, rfl, rfl, rfl, rfl, by simp, rfl, rfl⟩
  | succ n ih =>
    have hl := evCorrect_length legacy fcorr tsref ovf (evAt d.inbuf i)
    rw [digestLoop, bread_ok _ _ _ _ (by omega)]
    simp only [bind, Except.bind]
    rw [show (d.inbuf.drop (8 * i)).take 8 = evAt d.inbuf i from rfl]
    rw [bwrite_ok _ _ _ _ (by omega), bwrite_ok _ _ _ _ (by omega)]
    simp only
    have hi' : 8 * i + (evCorrect legacy fcorr tsref ovf (evAt d.inbuf i)).length ≤ d.inbuf.length := by omega
    have ho' : 8 * d.outevents + (evCorrect legacy fcorr tsref ovf (evAt d.inbuf i)).length ≤ d.outbuf.length := by omega
    have hev : ∀ k, evAt (d.inbuf.take (8 * i) ++ evCorrect legacy fcorr tsref ovf (evAt d.inbuf i) ++
        d.inbuf.drop (8 * i + (evCorrect legacy fcorr tsref ovf (evAt d.inbuf i)).length)) (i + 1 + k) = evAt d.inbuf (i + (k + 1)) := by
      intro k
      unfold evAt at *
      rw [splice_drop _ _ _ _ hi' (by omega)]
      congr 2
      ring
    have hil := splice_length _ _ _ hi'
    have hol := splice_length _ _ _ ho'
    have hid := splice_drop d.inbuf _ (8 * i) (8 * (i + 1 + n)) hi' (by omega)
    have hot := splice_take_add _ _ _ ho'
    generalize hI : d.inbuf.take (8 * i) ++ evCorrect legacy fcorr tsref ovf (evAt d.inbuf i) ++
        d.inbuf.drop (8 * i + (evCorrect legacy fcorr tsref ovf (evAt d.inbuf i)).length) = I at *
    generalize hO : d.outbuf.take (8 * d.outevents) ++ evCorrect legacy fcorr tsref ovf (evAt d.inbuf i) ++
        d.outbuf.drop (8 * d.outevents + (evCorrect legacy fcorr tsref ovf (evAt d.inbuf i)).length) = O at *
    rw [hl] at hot
    obtain ⟨d', h1, h2, h3, h4, h5, h6, h7, h8⟩ := ih (i + 1)
      { inbuf := I, outbuf := O, outevents := d.outevents + 1, tsmeas := evMeas legacy (evAt d.inbuf i),
        tscorr := tsCorr fcorr tsref (evMeas legacy (evAt d.inbuf i)) } (by simp only; omega) (by simp only; omega)
    simp only at h2 h3 h4 h5 h6 h7 h8
    refine ⟨d', h1, by omega, by omega, ?_, by omega, ?_, ?_, ?_⟩
    · rw [show i + (n + 1) = i + 1 + n by ring, h4, hid]
    · rw [show d.outevents + (n + 1) = d.outevents + 1 + n by ring, h6, show 8 * (d.outevents + 1) = 8 * d.outevents + 8 by ring, hot,
        List.range_succ_eq_map, List.map_cons, List.flatMap_cons, List.append_assoc, List.map_map]
      congr 2
      congr 1
      apply List.map_congr_left
      intro k _
      exact hev k
    · rw [h7]
      by_cases hn : n = 0
      · subst hn; simp
      · rw [if_neg hn, if_neg (by omega), hev, show n - 1 + 1 = n + 1 - 1 by omega]
    · rw [h8]
      by_cases hn : n = 0
      · subst hn; simp
      · rw [if_neg hn, if_neg (by omega), hev, show n - 1 + 1 = n + 1 - 1 by omega]

/-! ## The machine without buffers -/

/-- State: unprocessed bytes of the input and of the frequency channel, and the variables of the program. -/
structure AState where
  pend : Bytes
  fpend : Bytes
  freqOpen : Bool
  fcorr : BitVec 32
  tsref : BitVec 64
  isset : Bool
  tsmeas : BitVec 64
  tscorr : BitVec 64
  ovf : BitVec 64
  src : Bytes
  freqSrc : Bytes
  out : Bytes

/-- Input part on complete events. -/
def aInput (legacy : Bool) (r : Option (Option Nat)) (a : AState) : AState × Bytes × Option Stop :=
  match r with
  | none => (a, [], none)
  | some none => (a, [], some .inputError)
  | some (some k) =>
    let data := a.src.take (min k (bufSize - a.pend.length))
    if data = [] then (a, [], some .inputClosed)
    else
      let evs := events (a.pend ++ data)
      let tsref := if a.isset then a.tsref else (evs.head?.map (evMeas legacy)).getD a.tsref
      let tsmeas := (evs.getLast?.map (evMeas legacy)).getD a.tsmeas
      let tscorr := (evs.getLast?.map fun ev => tsCorr a.fcorr tsref (evMeas legacy ev)).getD a.tscorr
      ({ a with pend := (a.pend ++ data).drop (8 * ((a.pend ++ data).length / 8)), isset := a.isset || !evs.isEmpty,
                tsmeas := tsmeas, tscorr := tscorr, tsref := tsmeas, ovf := a.ovf + tscorr, src := a.src.drop data.length },
        evs.flatMap (evCorrect legacy a.fcorr tsref a.ovf), none)

/-- Frequency part: the lines of a text up to the last newline are processed; what is left of it. -/
def aLines (fcorr : BitVec 32) (line : Bytes) : Bytes → BitVec 32 × Bytes
  | [] => (fcorr, line)
  | c :: cs => if c = 10 then aLines (fcorrUpdate fcorr (line.takeWhile (· ≠ 0))) [] cs else aLines fcorr (line ++ [c]) cs

def aFreq (r : Option (Option Nat)) (a : AState) : AState × Option Stop :=
  if !a.freqOpen then (a, none)
  else match r with
  | none => (a, none)
  | some none => (a, some .freqError)
  | some (some k) =>
    let data := a.freqSrc.take (min k (freqBufSize - a.fpend.length - 1))
    let a := { a with freqOpen := decide (data.length ≠ 0), freqSrc := a.freqSrc.drop data.length }
    if 10 ∈ a.fpend ++ data then
      ({ a with fcorr := (aLines a.fcorr [] (a.fpend ++ data)).1, fpend := (aLines a.fcorr [] (a.fpend ++ data)).2 }, none)
    else (a, none)

def aWrite (r : Option Nat) (block : Bytes) (a : AState) : AState × Option Stop :=
  match r with
  | none => (a, some .writeError)
  | some k => ({ a with out := a.out ++ block.take k }, if k < block.length then some .writeError else none)

def aStep (legacy : Bool) (r : Round) (a : AState) : AState × Option Stop :=
  if !r.selectOk then (a, some .selectError)
  else
    let i := aInput legacy r.inRead a
    if i.2.2 ≠ none then (i.1, i.2.2)
    else
      let f := aFreq r.freqRead i.1
      if f.2 ≠ none then f
      else aWrite r.write i.2.1 f.1

def aRun (legacy : Bool) : List Round → AState → AState × Option Stop
  | [], a => (a, none)
  | r :: rs, a => if (aStep legacy r a).2 ≠ none then aStep legacy r a else aRun legacy rs (aStep legacy r a).1

/-- The state without buffers that belongs to a state of the program. -/
def abst (s : FState) : AState :=
  { pend := (s.inbuf.drop (s.inbytesread - s.inbytesread % 8)).take (s.inbytesread % 8), fpend := s.freqbuf.take s.freqPartial,
    freqOpen := s.freqOpen, fcorr := s.fcorr, tsref := s.tsref, isset := s.isset, tsmeas := s.tsmeas, tscorr := s.tscorr,
    ovf := s.ovf, src := s.src, freqSrc := s.freqSrc, out := s.out }

/-- Well-formed states. -/
structure WF (s : FState) : Prop where
  inbuf : s.inbuf.length = bufSize
  outbuf : s.outbuf.length = bufSize
  freqbuf : s.freqbuf.length = freqBufSize
  inb : s.inbytesread ≤ bufSize
  fp : s.freqPartial ≤ 98
  fn : s.freqNext = s.freqPartial

theorem pend_length {s : FState} (h : WF s) : (abst s).pend.length = s.inbytesread % 8 := by
  simp only [abst, List.length_take, List.length_drop, h.inbuf]
  have := h.inb
  omega

theorem fpend_length {s : FState} (h : WF s) : (abst s).fpend.length = s.freqPartial := by
  simp only [abst, List.length_take, h.freqbuf]
  have := h.fp
  unfold freqBufSize
  omega

end Fp
