import Verif.Props.ConvertRun
import Verif.Spec.SelectRun

/-! # C142: selecting detectors before or after a correction -/
namespace Fp
open Spec

theorem untimed_not {F : FilterArgs} (h : Untimed F) : ¬ Timed F := by
  rintro (e | e)
  · rw [h.1] at e; simp at e
  · rw [h.2] at e; simp at e

theorem keeps_all {F : FilterArgs} (h : Keeps F) (raws : List (Nat × Nat)) : filtered F raws = raws := by
  have h1 : ∀ r, passes F r = true := by
    intro r; simp [passes, h.1, h.2.1, h.2.2, InWindow]
  have h2 : ∀ r : Nat × Nat, (r.1, leftBits F r.2) = r := fun r => by simp [leftBits, h.1]
  unfold filtered
  rw [List.filter_eq_self.mpr fun r _ => h1 r]
  exact (List.map_congr_left fun r _ => h2 r).trans (List.map_id _)

theorem passes_detectors {F : FilterArgs} (h : Untimed F) {r r' : Nat × Nat} (e : r'.2 = r.2) : passes F r' = passes F r := by
  simp [passes, h.1, h.2, InWindow, e]

theorem filtered_corrected {F : FilterArgs} (h : Untimed F) {n : ℤ} {t0 : ℕ} {err : ℚ} {l l' : List (ℕ × ℕ)}
    (hl : List.Forall₂ (CorrectedEvent n t0 err) l l') : List.Forall₂ (CorrectedEvent n t0 err) (filtered F l) (filtered F l') := by
  induction hl with
  | nil => simp [filtered]
  | @cons e e' l l' he _ ih =>
    unfold filtered at ih ⊢
    by_cases hp : passes F e = true
    · rw [List.filter_cons_of_pos hp, List.filter_cons_of_pos (by rw [passes_detectors h he.1]; exact hp), List.map_cons, List.map_cons]
      refine List.Forall₂.cons ⟨?_, he.2⟩ ih
      show leftBits F e'.2 = leftBits F e.2
      rw [he.1]
    · rw [List.filter_cons_of_neg hp, List.filter_cons_of_neg (by rw [passes_detectors h he.1]; exact hp)]
      exact ih

theorem corrected_twice {n : ℤ} {t0 t1 : ℕ} {err err' : ℚ} : ∀ {l l1 l2 : List (ℕ × ℕ)}, List.Forall₂ (CorrectedEvent n t1 err) l l1 →
    List.Forall₂ (CorrectedEvent n t0 err') l l2 →
    List.Forall₂ (ShiftedEvent (((t1 : ℚ) - t0) * n / 2 ^ 34) (err + err')) l1 l2 := by
  intro l
  induction l with
  | nil => intro l1 l2 h1 h2; cases h1; cases h2; exact List.Forall₂.nil
  | cons e l ih =>
    intro l1 l2 h1 h2
    cases h1 with
    | cons a1 b1 =>
      cases h2 with
      | cons a2 b2 =>
        refine List.Forall₂.cons ?_ (ih b1 b2)
        obtain ⟨d1, c1, k1, m1⟩ := a1
        obtain ⟨d2, c2, k2, m2⟩ := a2
        refine ⟨d2.trans d1.symm, c2 - c1, ?_, ?_⟩
        · rw [k1, k2, Int.emod_add_emod]
          congr 1
          ring
        · rw [abs_le] at m1 m2 ⊢
          push_cast
          have e' : ((t1 : ℚ) - t0) * n / 2 ^ 34 = ((e.1 : ℚ) - t0) * n / 2 ^ 34 - ((e.1 : ℚ) - t1) * n / 2 ^ 34 := by ring
          rw [e']
          exact ⟨by linarith, by linarith⟩

/-- **C142** Detectors selected before the correction (`parse_timestamps` with a pattern filter, `freqcd`, conversion without filters) or after
it (conversion without filters, `freqcd`, `parse_timestamps` with the same filter): both files hold the same events, in the same order and with
the same detectors; the times differ by the correction between the first event and the first selected one, the same for all events, up to 3/2
units of 4 ps for every block of 1024 events. -/
theorem C142_select (fw : Nat) (hfw : 54 ≤ fw) (files : Files) (l l2 l' l2' k k2 k' k2' : List Setting) (f g : Fmt) (X x y : Bool)
    (F G H K : FilterArgs) (A A1 B1 B A2 B2 C : Word) (h : ConvertCall l l2 f X .a1 x F A A1) (h' : ConvertCall l' l2' .a1 x g y G B1 B)
    (r : ConvertCall k k2 f X .a1 x H A A2) (r' : ConvertCall k' k2' .a1 x g y K B2 C) (hF : Untimed F) (hG : Keeps G) (hH : Keeps H) (hK : K = F)
    (ra : List (Nat × Nat)) (hra : (∀ e ∈ ra, Valid e) ∧ Representable f ra) (hs : (ra.map Prod.fst).Pairwise (· ≤ ·))
    (fA : files A = some (fileOf f X ra)) (prog v : Bytes) (n : ℤ) (hv : Numeral v n) (hn : |n| < 2 ^ 21)
    (gA : GoodName (textBytes A1)) (gB : GoodName (textBytes B1)) (hne : textBytes A1 ≠ textBytes B1)
    (gA2 : GoodName (textBytes A2)) (gB2 : GoodName (textBytes B2)) (hne2 : textBytes A2 ≠ textBytes B2) :
    ∃ before after,
      ThreeSteps fw files (convertWords l l2 A A1) prog x A1 B1 v (blocksOf (filtered F ra)) (convertWords l' l2' B1 B) B (fileOf g y before) ∧
      ThreeSteps fw files (convertWords k k2 A A2) prog x A2 B2 v (blocksOf ra) (convertWords k' k2' B2 C) C (fileOf g y after) ∧
      before.length = (ra.filter (passes F)).length ∧
      List.Forall₂ (ShiftedEvent (((firstTime (filtered F ra) : ℚ) - firstTime ra) * n / 2 ^ 34)
        (3 / 2 * blocksOf (filtered F ra) + 3 / 2 * blocksOf ra)) before after := by
  obtain ⟨e1, p1, q1⟩ := three_steps fw hfw files l l2 l' l2' f g X x y F G A A1 B1 B h h' (untimed_not hG.2) ra
    ⟨hra.1, hra.2, fun t => absurd t (untimed_not hF)⟩ hs fA prog v n hv hn gA gB hne
  obtain ⟨e2, p2, q2⟩ := three_steps fw hfw files k k2 k' k2' f g X x y H K A A2 B2 C r r' (by rw [hK]; exact untimed_not hF) ra
    ⟨hra.1, hra.2, fun t => absurd t (untimed_not hH.2)⟩ hs fA prog v n hv hn gA2 gB2 hne2
  rw [keeps_all hG] at q1
  rw [keeps_all hH] at p2 q2
  rw [hK] at q2
  refine ⟨e1, filtered F e2, q1, q2, ?_, corrected_twice p1 (filtered_corrected hF p2)⟩
  rw [← p1.length_eq]
  simp [filtered]

/-! ## Instances -/

/-- The options of `-A c -a e --pfilter-pattern 2`. -/
def selectSettings (c e : Char) : List Setting :=
  plainSettings c e ++ [.pair (argStore ["--pfilter-pattern"] "pfilter_pattern" isInt) "--pfilter-pattern".toList ['2']]

theorem select_sets (c e : Char) : cmdSets (selectSettings c e) = [("A", [[c]]), ("a", [[e]]), ("pfilter_pattern", [['2']])] := rfl

/-- Only events of exactly the detector 2. -/
def onlySecond : FilterArgs := ⟨some 2, false, false, none, none⟩

/-- `parse_timestamps -A c -a e --pfilter-pattern 2 inp out`. -/
theorem select_call (c e : Char) (f g : Fmt) (hc : FmtText [c] f) (he : FmtText [e] g) (inp out : Word) (h : PlainWord inp ∧ PlainWord out)
    (hne : out ≠ [] ∧ inp ≠ out) : ConvertCall (selectSettings c e) [] f false g false onlySecond inp out := by
  have given : ∀ d, Given (selectSettings c e) d ↔ ∃ x ∈ cmdSets (selectSettings c e), x.1 = d := fun d => Iff.rfl
  have d2 : Digits ['2'] 2 := ⟨[2], by simp, by simp⟩
  have none_ : ∀ d, d ≠ "A" → d ≠ "a" → d ≠ "pfilter_pattern" → lastSet (selectSettings c e) d = none := by
    intro d h1 h2 h3
    rw [lastSet, select_sets]
    simp [Ne.symm h1, Ne.symm h2, Ne.symm h3]
  have ok : ∀ {x : Char} {f : Fmt}, FmtText [x] f → isFormat [x] = true ∧ PlainWord [x] := by
    intro x f hx
    rcases hx with ⟨h, -⟩ | ⟨h, -⟩ | ⟨h, -⟩ <;> rw [h] <;> exact ⟨by decide, Or.inl (by decide)⟩
  refine ⟨?_, ?_, ?_, ?_, fun pat e => ?_, ?_, ?_, h, hne⟩
  · rw [List.append_nil]
    intro s hs
    simp only [selectSettings, plainSettings, List.cons_append, List.nil_append, List.mem_cons, List.not_mem_nil, or_false] at hs
    rcases hs with rfl | rfl | rfl
    · exact ⟨by simp [tsSpec], by decide, rfl, (ok hc).1, (ok hc).2⟩
    · exact ⟨by simp [tsSpec], by decide, rfl, (ok he).1, (ok he).2⟩
    · exact ⟨by simp [tsSpec], by decide, rfl, by decide, Or.inl (by decide)⟩
  · rw [List.append_nil]
    exact ⟨⟨[c], by rw [lastSet, select_sets]; simp, hc⟩, by rw [given, select_sets]; simp⟩
  · rw [List.append_nil]
    exact ⟨Or.inr ⟨[e], by rw [lastSet, select_sets]; simp, he⟩, by rw [given, select_sets]; simp⟩
  · rw [List.append_nil]
    refine ⟨⟨fun e => ?_, fun v n e hv => ?_⟩, ?_, ?_, ⟨fun _ => rfl, fun v n e _ => ?_⟩, ⟨fun _ => rfl, fun v n e _ => ?_⟩, fun v e => ?_,
      fun v e => ?_, fun v e => ?_⟩
    · rw [lastSet, select_sets] at e; simp at e
    · rw [lastSet, select_sets] at e
      obtain rfl : ['2'] = v := by simpa using e
      have := digitsVal_spec d2
      rw [digitsVal_spec hv] at this
      show some 2 = some n
      rw [← this]
    · rw [given, select_sets]; simp [onlySecond]
    · rw [given, select_sets]; simp [onlySecond]
    · rw [none_ _ (by decide) (by decide) (by decide)] at e; simp at e
    · rw [none_ _ (by decide) (by decide) (by decide)] at e; simp at e
    · rw [lastSet, select_sets] at e
      obtain rfl : ['2'] = v := by simpa using e
      exact ⟨2, d2⟩
    · rw [none_ _ (by decide) (by decide) (by decide)] at e; simp at e
    · rw [none_ _ (by decide) (by decide) (by decide)] at e; simp at e
  · simp only [onlySecond, Option.some.injEq] at e
    omega
  · rw [List.append_nil, given, select_sets]; simp
  · rw [List.append_nil, given, select_sets]; simp

/-- Three events, 70 s and 1 ms apart; the first one is of another detector. -/
def selectEvents : List (ℕ × ℕ) := [(0, 1), (2 ^ 44, 2), (2 ^ 44 + 250000000, 2)]

/-- Instance: the events of the second detector, selected before `freqcd -f 1000000`, are 1024000000 units (4 ms) earlier than those
selected after it, up to 3 units. -/
theorem C142_instance (fw : Nat) (hfw : 54 ≤ fw) (files : Files) (fA : files ['a'] = some (fileOf .a1 false selectEvents)) :
    ∃ before after,
      ThreeSteps fw files ["-A".toList, ['1'], "-a".toList, ['1'], "--pfilter-pattern".toList, ['2'], ['a'], ['b']] [] false ['b'] ['c']
        [49, 48, 48, 48, 48, 48, 48] 1 ["-A".toList, ['1'], "-a".toList, ['2'], ['c'], ['d']] ['d'] (fileOf .a2 false before) ∧
      ThreeSteps fw files ["-A".toList, ['1'], "-a".toList, ['1'], ['a'], ['b']] [] false ['b'] ['c']
        [49, 48, 48, 48, 48, 48, 48] 1 ["-A".toList, ['1'], "-a".toList, ['2'], "--pfilter-pattern".toList, ['2'], ['c'], ['d']] ['d']
        (fileOf .a2 false after) ∧
      before.length = 2 ∧ List.Forall₂ (ShiftedEvent 1024000000 3) before after ∧ before ≠ after := by
  have num : Numeral [49, 48, 48, 48, 48, 48, 48] 1000000 :=
    ⟨[], [], [49, 48, 48, 48, 48, 48, 48], rfl, by simp, by simp, by decide, Or.inl ⟨rfl, by decide⟩⟩
  have one : FmtText ['1'] .a1 := Or.inr (Or.inl ⟨rfl, rfl⟩)
  have two : FmtText ['2'] .a2 := Or.inr (Or.inr ⟨rfl, rfl⟩)
  have ab : PlainWord ['a'] ∧ PlainWord ['b'] := ⟨Or.inl (by decide), Or.inl (by decide)⟩
  have cd : PlainWord ['c'] ∧ PlainWord ['d'] := ⟨Or.inl (by decide), Or.inl (by decide)⟩
  have gb : GoodName (textBytes ['b']) := ⟨by simp [textBytes], by simp [textBytes], by decide⟩
  have gc : GoodName (textBytes ['c']) := ⟨by simp [textBytes], by simp [textBytes], by decide⟩
  obtain ⟨before, after, h1, h2, h3, h4⟩ := C142_select fw hfw files (selectSettings '1' '1') [] (plainSettings '1' '2') [] (plainSettings '1' '1') []
    (selectSettings '1' '2') [] .a1 .a2 false false false onlySecond noFilter noFilter onlySecond ['a'] ['b'] ['c'] ['d'] ['b'] ['c'] ['d']
    (select_call _ _ _ _ one one _ _ ab ⟨by simp, by decide⟩) (plain_call _ _ _ _ one two _ _ cd ⟨by simp, by decide⟩)
    (plain_call _ _ _ _ one one _ _ ab ⟨by simp, by decide⟩) (select_call _ _ _ _ one two _ _ cd ⟨by simp, by decide⟩)
    ⟨rfl, rfl⟩ ⟨rfl, rfl, rfl⟩ ⟨rfl, rfl, rfl⟩ rfl selectEvents ⟨by unfold Valid; decide, trivial⟩ (by decide) fA [] _ 1000000 num
    (by norm_num) gb gc (by decide) gb gc (by decide)
  have e1 : filtered onlySecond selectEvents = [(2 ^ 44, 2), (2 ^ 44 + 250000000, 2)] := by
    simp [filtered, selectEvents, onlySecond, passes, patKeep, InWindow, leftBits, ofBits4, patBit, Nat.testBit]
  have e2 : (selectEvents.filter (passes onlySecond)).length = 2 := by
    simp [selectEvents, onlySecond, passes, patKeep, InWindow]
  rw [e1] at h1 h4
  rw [e2] at h3
  have e3 : (((firstTime [(2 ^ 44, 2), (2 ^ 44 + 250000000, 2)] : ℕ) : ℚ) - (firstTime selectEvents : ℕ)) * (1000000 : ℤ) / 2 ^ 34 = 1024000000 := by
    simp [firstTime, selectEvents]; norm_num
  have e4 : (3 / 2 : ℚ) * (blocksOf [(2 ^ 44, 2), (2 ^ 44 + 250000000, 2)] : ℕ) + 3 / 2 * (blocksOf selectEvents : ℕ) = 3 := by
    simp only [blocksOf, selectEvents]; norm_num
  rw [e3, e4] at h4
  refine ⟨before, after, h1, h2, h3, h4, ?_⟩
  rintro rfl
  match before, h3, h4 with
  | e :: _, _, h4 =>
    obtain ⟨-, c, k1, k2⟩ := (List.forall₂_cons.mp h4).1
    have he := Int.emod_add_mul_ediv ((e.1 : ℤ) + c) (2 ^ 54)
    rw [← k1] at he
    rw [abs_le] at k2
    have m1 : (1023999997 : ℤ) ≤ c := by
      have : ((1023999997 : ℤ) : ℚ) ≤ c := by push_cast; linarith
      exact_mod_cast this
    have m2 : c ≤ (1024000003 : ℤ) := by
      have : (c : ℚ) ≤ ((1024000003 : ℤ) : ℚ) := by push_cast; linarith
      exact_mod_cast this
    omega

end Fp
