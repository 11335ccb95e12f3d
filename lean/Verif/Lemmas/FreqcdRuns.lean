import Verif.Lemmas.FreqcdRun

/-! Helper lemmas for `Verif/Props/FreqcdRuns.lean`. -/
namespace Fp
open Spec

theorem prefix_concat {rs1 rs : List Round} {r : Round} (h : rs1 ++ [r] <+: rs) :
    rs1.length < rs.length ∧ rs1 = rs.take rs1.length ∧ rs1 ++ [r] = rs.take (rs1.length + 1) := by
  obtain ⟨t, rfl⟩ := h
  refine ⟨by simp, by simp, ?_⟩
  rw [List.take_left' (by simp)]

theorem demo_noStall {legacy : Bool} {rs : List Round} {tc : BitVec 64} {fc : BitVec 32} {fo : Bool} {src fsrc : Bytes}
    (h : ∀ k < rs.length, (aRun legacy (rs.take (k + 1)) (demoA tc fc fo src fsrc)).1.src ≠ (aRun legacy (rs.take k) (demoA tc fc fo src fsrc)).1.src →
      (aRun legacy (rs.take (k + 1)) (demoA tc fc fo src fsrc)).1.out ≠ (aRun legacy (rs.take k) (demoA tc fc fo src fsrc)).1.out) :
    NoStall legacy rs (demo tc fc fo src fsrc) := by
  intro rs1 r s1 s2 hpre h1 h2 hs
  obtain ⟨hw, ho, -⟩ := initial_wf (demo_initial tc fc fo src fsrc)
  obtain ⟨g1, g2, g3⟩ := prefix_concat hpre
  have a1 := run_abst hw ho h1
  have a2 := run_abst hw ho h2
  rw [demo_abst] at a1 a2
  have := h _ g1
  rw [← g2, ← g3, a1, a2] at this
  exact this hs

theorem aFreq_out (q : Option (Option Nat)) (a : AState) : (aFreq q a).1.out = a.out := by
  unfold aFreq
  split
  · rfl
  · split
    · rfl
    · rfl
    · simp only; split <;> rfl

theorem aInput_out (legacy : Bool) (q : Option (Option Nat)) (a : AState) : (aInput legacy q a).1.out = a.out := by
  unfold aInput
  split
  · rfl
  · rfl
  · simp only; split <;> rfl

theorem aStep_mono (legacy : Bool) (r : Round) (a : AState) : a.out <+: (aStep legacy r a).1.out := by
  unfold aStep
  split
  · exact List.prefix_refl _
  · simp only
    split
    · rw [aInput_out]
    · split
      · rw [aFreq_out, aInput_out]
      · unfold aWrite
        split
        · simp only [aFreq_out, aInput_out]; exact List.prefix_refl _
        · simp only [aFreq_out, aInput_out]; exact List.prefix_append _ _

theorem aRun_mono (legacy : Bool) (rs : List Round) (a : AState) : a.out <+: (aRun legacy rs a).1.out := by
  induction rs generalizing a with
  | nil => exact List.prefix_refl _
  | cons r rs ih =>
    unfold aRun
    split
    · exact aStep_mono _ _ _
    · exact (aStep_mono legacy r a).trans (ih _)

theorem aStep_out_eq (legacy : Bool) (r : Round) (a : AState) (hw : (aStep legacy r a).2 ≠ some .writeError) (hs : (aStep legacy r a).2 ≠ none) :
    (aStep legacy r a).1.out = a.out := by
  unfold aStep at hw hs ⊢
  split
  · rfl
  · rename_i h0
    rw [if_neg h0] at hw hs
    simp only at hw hs ⊢
    split
    · rw [aInput_out]
    · rename_i h1
      rw [if_neg h1] at hw hs
      split
      · rw [aFreq_out, aInput_out]
      · rename_i h2
        rw [if_neg h2] at hw hs
        exfalso
        unfold aWrite at hw hs
        split at hw
        · simp at hw
        · simp only at hw
          split at hw
          · simp at hw
          · rename_i hk heq hlt
            rw [heq] at hs
            simp only [if_neg hlt] at hs
            simp at hs

theorem swapEvent_length {ev : Bytes} (h : ev.length = 8) : (swapEvent ev).length = 8 := by
  simp [swapEvent, h]

theorem swapWords_length (b : Bytes) : (swapWords b).length = b.length := by
  unfold swapWords
  have h1 : ((events b).flatMap swapEvent).length = 8 * (events b).length := by
    generalize hl : events b = l
    have hm : ∀ ev ∈ l, ev.length = 8 := by rw [← hl]; exact fun _ => mem_events
    clear hl
    induction l with
    | nil => rfl
    | cons x l ih =>
      rw [List.flatMap_cons, List.length_append, ih (fun ev h => hm ev (by simp [h])), swapEvent_length (hm x (by simp)), List.length_cons]
      ring
  rw [List.length_append, h1, events_length, List.length_drop]
  omega

theorem events_swapWords (b : Bytes) : events (swapWords b) = (events b).map swapEvent := by
  unfold swapWords
  have h1 := events_flatMap (events b) swapEvent (fun x hx => swapEvent_length (mem_events hx))
  have h2 : ((events b).flatMap swapEvent).length = 8 * (b.length / 8) := by
    have := swapWords_length b
    unfold swapWords at this
    rw [List.length_append, List.length_drop] at this
    omega
  rw [events_append _ _ _ h2, h1, show events (b.drop (8 * (b.length / 8))) = [] from ?_, List.append_nil]
  unfold events
  rw [List.length_drop, show (b.length - 8 * (b.length / 8)) / 8 = 0 by omega]
  rfl

theorem words_swap {ev : Bytes} (h : ev.length = 8) : firstWord (swapEvent ev) = secondWord ev ∧ secondWord (swapEvent ev) = firstWord ev := by
  have h1 : (ev.drop 4).length = 4 := by simp [h]
  have e1 : (swapEvent ev).take 4 = ev.drop 4 := by unfold swapEvent; rw [List.take_left' h1]
  have e2 : (swapEvent ev).drop 4 = ev.take 4 := by unfold swapEvent; rw [List.drop_left' h1]
  unfold firstWord secondWord
  rw [e1, e2]
  exact ⟨rfl, rfl⟩

theorem evMeas_swap {ev : Bytes} (h : ev.length = 8) : evMeas true (swapEvent ev) = evMeas false ev := by
  obtain ⟨h1, h2⟩ := words_swap h
  simp [evMeas, h1, h2]

theorem swap_eventBytes (w1 w2 : BitVec 32) : swapEvent (eventBytes w1 w2) = eventBytes w2 w1 := by
  unfold eventBytes swapEvent
  rw [List.drop_left' (leBytes_length 4 w1.toNat), List.take_left' (leBytes_length 4 w1.toNat)]

theorem evCorrect_swap (fc : BitVec 32) (r o : BitVec 64) {ev : Bytes} (h : ev.length = 8) :
    evCorrect true fc r o (swapEvent ev) = swapEvent (evCorrect false fc r o ev) := by
  obtain ⟨h1, h2⟩ := words_swap h
  have hm := evMeas_swap h
  unfold evCorrect
  rw [hm]
  simp only [if_true, Bool.false_eq_true, if_false, h2]
  rw [swap_eventBytes]

theorem between_swap (src : Bytes) (n n' : Nat) : between (swapWords src) n n' = (between src n n').map swapEvent := by
  unfold between
  rw [events_swapWords, List.map_drop, List.map_take]

theorem eRef_swap (evs : List Bytes) (h : ∀ ev ∈ evs, ev.length = 8) (e : EState) : eRef true (evs.map swapEvent) e = eRef false evs e := by
  unfold eRef
  have hh : (evs.map swapEvent).head?.map (evMeas true) = evs.head?.map (evMeas false) := by
    cases evs with
    | nil => simp only [List.map_nil, List.head?_nil, Option.map_none]
    | cons x xs => simp only [List.map_cons, List.head?_cons, Option.map_some, evMeas_swap (h x (List.mem_cons_self))]
  rw [hh]

theorem eRead_swap (fc : BitVec 32) (evs : List Bytes) (h : ∀ ev ∈ evs, ev.length = 8) (e : EState) :
    eRead true fc (evs.map swapEvent) e = eRead false fc evs e := by
  unfold eRead
  rw [eRef_swap evs h, List.getLast?_map]
  cases hl : evs.getLast? with
  | none => simp
  | some z =>
    have := h z (List.mem_of_getLast? hl)
    simp [evMeas_swap this]

theorem events_block_swap (fc : BitVec 32) (src : Bytes) (n n' : Nat) (e : EState) :
    events (eBlock true fc (between (swapWords src) n n') e) = (events (eBlock false fc (between src n n') e)).map swapEvent := by
  rw [events_block, events_block, between_swap, eRef_swap _ (fun ev hev => between_mem hev), List.map_map, List.map_map]
  apply List.map_congr_left
  intro ev hev
  exact evCorrect_swap _ _ _ (between_mem hev)

/-- States of the two programs that correspond. -/
def Swapped (src : Bytes) (a b : AState) : Prop :=
  ∃ n, Pos src a n ∧ Pos (swapWords src) b n ∧ b.e = a.e ∧ b.fcorr = a.fcorr ∧ b.freqOpen = a.freqOpen ∧ b.fpend = a.fpend ∧ b.freqSrc = a.freqSrc

/-- Corresponding output. -/
def SwappedOut (a b : Bytes) : Prop := b.length = a.length ∧ events b = (events a).map swapEvent

theorem swappedOut_append {a b x y : Bytes} (h : SwappedOut a b) (h8 : 8 ∣ a.length) (h' : SwappedOut x y) : SwappedOut (a ++ x) (b ++ y) := by
  obtain ⟨k, hk⟩ := h8
  refine ⟨by rw [List.length_append, List.length_append, h.1, h'.1], ?_⟩
  rw [events_append _ _ k hk, events_append _ _ k (by rw [h.1, hk]), h.2, h'.2, List.map_append]

theorem swappedOut_take {a b : Bytes} (h : SwappedOut a b) (k : Nat) : SwappedOut (a.take k) (b.take k) := by
  refine ⟨by rw [List.length_take, List.length_take, h.1], ?_⟩
  by_cases hk : k ≤ a.length
  · rw [events_take _ _ hk, events_take _ _ (by rw [h.1]; exact hk), h.2, List.map_take]
  · rw [List.take_of_length_le (l := a) (by omega), List.take_of_length_le (l := b) (by rw [h.1]; omega)]
    exact h.2

theorem aFreq_swap (q : Option (Option Nat)) {src : Bytes} {a b : AState} (h : Swapped src a b) :
    Swapped src (aFreq q a).1 (aFreq q b).1 ∧ (aFreq q b).2 = (aFreq q a).2 := by
  obtain ⟨n, h1, h2, h3, h4, h5, h6, h7⟩ := h
  have e1 : b.tsref = a.tsref := congrArg EState.tsref h3
  have e2 : b.isset = a.isset := congrArg EState.isset h3
  have e3 : b.tsmeas = a.tsmeas := congrArg EState.tsmeas h3
  have e4 : b.tscorr = a.tscorr := congrArg EState.tscorr h3
  have e5 : b.ovf = a.ovf := congrArg EState.ovf h3
  unfold aFreq
  rw [h5]
  split
  · exact ⟨⟨n, h1, h2, h3, h4, h5, h6, h7⟩, rfl⟩
  · split
    · exact ⟨⟨n, h1, h2, h3, h4, h5, h6, h7⟩, rfl⟩
    · exact ⟨⟨n, h1, h2, h3, h4, h5, h6, h7⟩, rfl⟩
    · simp only [h4, h6, h7]
      split
      · exact ⟨⟨n, ⟨h1.le, h1.src, h1.pend⟩, ⟨h2.le, h2.src, h2.pend⟩, by simp only [AState.e, e1, e2, e3, e4, e5], rfl, rfl, rfl, rfl⟩, rfl⟩
      · exact ⟨⟨n, ⟨h1.le, h1.src, h1.pend⟩, ⟨h2.le, h2.src, h2.pend⟩, by simp only [AState.e, e1, e2, e3, e4, e5], rfl, rfl, rfl, rfl⟩, rfl⟩

theorem swappedOut_nil : SwappedOut [] [] := ⟨rfl, rfl⟩

theorem aInput_swap (q : Option (Option Nat)) {src : Bytes} {a b : AState} (h : Swapped src a b) :
    Swapped src (aInput false q a).1 (aInput true q b).1 ∧ SwappedOut (aInput false q a).2.1 (aInput true q b).2.1 ∧
    (aInput true q b).2.2 = (aInput false q a).2.2 := by
  obtain ⟨n, h1, h2, h3, h4, h5, h6, h7⟩ := h
  match q with
  | none => exact ⟨⟨n, h1, h2, h3, h4, h5, h6, h7⟩, swappedOut_nil, rfl⟩
  | some none => exact ⟨⟨n, h1, h2, h3, h4, h5, h6, h7⟩, swappedOut_nil, rfl⟩
  | some (some k) =>
    have hl : b.src.length = a.src.length := by
      rw [h1.src, h2.src, List.length_drop, List.length_drop, swapWords_length]
    have hiff : b.src.take (min k (bufSize - n % 8)) = [] ↔ a.src.take (min k (bufSize - n % 8)) = [] := by
      rw [← List.length_eq_zero_iff, ← List.length_eq_zero_iff, List.length_take, List.length_take, hl]
    by_cases hd : a.src.take (min k (bufSize - n % 8)) = []
    · have e1 : aInput false (some (some k)) a = (a, [], some .inputClosed) := by
        unfold aInput
        simp only [h1.pend_length, hd]
        simp
      have e2 : aInput true (some (some k)) b = (b, [], some .inputClosed) := by
        unfold aInput
        simp only [h2.pend_length, hiff.mpr hd]
        simp
      rw [e1, e2]
      exact ⟨⟨n, h1, h2, h3, h4, h5, h6, h7⟩, swappedOut_nil, rfl⟩
    · obtain ⟨f0, n1, f1, f2, f3, f4, f5, f6, f7, f8, f9, f10⟩ := aInput_read false k src a n h1 hd
      obtain ⟨g0, n2, g1, g2, g3, g4, g5, g6, g7, g8, g9, g10⟩ := aInput_read true k (swapWords src) b n h2 (fun hc => hd (hiff.mp hc))
      rw [swapWords_length] at g10
      have hn : n2 = n1 := by rw [g10, f10]
      subst hn
      refine ⟨⟨n2, f2, g2, ?_, ?_, ?_, ?_, ?_⟩, ?_, ?_⟩
      · rw [f3, g3, h4, h3, between_swap, eRead_swap _ _ (fun ev hev => between_mem hev)]
      · rw [f6, g6, h4]
      · rw [f7, g7, h5]
      · rw [f8, g8, h6]
      · rw [f9, g9, h7]
      · rw [f4, g4, h4, h3]
        refine ⟨?_, events_block_swap _ _ _ _ _⟩
        rw [block_length, block_length, between_swap, List.length_map]
      · rw [f0, g0]

theorem aStep_swap (r : Round) {src : Bytes} {a b : AState} (h : Swapped src a b) (ho : SwappedOut a.out b.out) (h8 : 8 ∣ a.out.length) :
    (aStep true r b).2 = (aStep false r a).2 ∧ SwappedOut (aStep false r a).1.out (aStep true r b).1.out ∧
    ((aStep false r a).2 = none → Swapped src (aStep false r a).1 (aStep true r b).1) := by
  obtain ⟨i1, i2, i3⟩ := aInput_swap r.inRead h
  obtain ⟨j1, j2⟩ := aFreq_swap r.freqRead i1
  unfold aStep
  split
  · exact ⟨rfl, ho, fun hc => by simp at hc⟩
  · simp only
    rw [i3]
    split
    · refine ⟨rfl, ?_, fun hc => ?_⟩
      · rw [aInput_out, aInput_out]; exact ho
      · rename_i hx; exact absurd hc hx
    · rw [j2]
      split
      · refine ⟨j2, ?_, fun hc => ?_⟩
        · rw [aFreq_out, aFreq_out, aInput_out, aInput_out]; exact ho
        · rename_i hx; exact absurd hc hx
      · unfold aWrite
        cases r.write with
        | none =>
          refine ⟨rfl, ?_, fun hc => by simp at hc⟩
          simp only [aFreq_out, aInput_out]
          exact ho
        | some k =>
          simp only [aFreq_out, aInput_out, i2.1]
          refine ⟨trivial, ?_, fun _ => ?_⟩
          · exact swappedOut_append ho h8 (swappedOut_take i2 k)
          · obtain ⟨n, p1, p2, p3, p4, p5, p6, p7⟩ := j1
            exact ⟨n, ⟨p1.le, p1.src, p1.pend⟩, ⟨p2.le, p2.src, p2.pend⟩, p3, p4, p5, p6, p7⟩

theorem aRun_swap (rs : List Round) {src : Bytes} {a b : AState} (h : Swapped src a b) (ho : SwappedOut a.out b.out)
    (hn : ∀ n, Pos src a n → a.out.length = 8 * (n / 8)) :
    (aRun true rs b).2 = (aRun false rs a).2 ∧ SwappedOut (aRun false rs a).1.out (aRun true rs b).1.out := by
  induction rs generalizing a b with
  | nil => exact ⟨rfl, ho⟩
  | cons r rs ih =>
    have h8 : 8 ∣ a.out.length := by
      obtain ⟨n, h1, -⟩ := h
      exact ⟨n / 8, hn n h1⟩
    obtain ⟨g1, g2, g3⟩ := aStep_swap r h ho h8
    unfold aRun
    rw [g1]
    split
    · exact ⟨g1, g2⟩
    · rename_i hc
      rw [not_not] at hc
      apply ih (g3 hc) g2
      intro m hm
      have huniq : ∀ (a' : AState) n n', Pos src a' n → Pos src a' n' → n = n' := by
        intro a' n n' p p'
        have e1 := p.src
        rw [p'.src] at e1
        have := congrArg List.length e1
        rw [List.length_drop, List.length_drop] at this
        have := p.le
        have := p'.le
        omega
      obtain ⟨n, h1, -⟩ := h
      have hlen := hn n h1
      have hst : aStep false r a = ((aStep false r a).1, none) := by rw [← hc]
      obtain ⟨-, -, -, -, -, ⟨q1, -, q2⟩ | ⟨n', q1, -, q2, -, q3⟩⟩ := aStep_clean false r src a _ n h1 hst
      · have := huniq _ _ _ q1 hm
        subst this
        rw [q2]; exact hlen
      · have := huniq _ _ _ q2 hm
        subst this
        have hd := Nat.div_le_div_right (c := 8) q1.le
        rw [q3, List.length_append, block_length, between_length _ _ _ q2.le, hlen]
        omega

end Fp
