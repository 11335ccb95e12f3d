import Verif.Lemmas.FreqcdFaults
import Mathlib.Data.List.TakeWhile

/-! Helper lemmas for `Verif/Props/FreqcdChannel.lean`. -/
namespace Fp
open Spec

theorem aLines_append (fc : BitVec 32) (l x y : Bytes) :
    aLines fc l (x ++ y) = aLines (aLines fc l x).1 (aLines fc l x).2 y := by
  induction x generalizing fc l with
  | nil => rfl
  | cons c cs ih =>
    rw [List.cons_append, aLines, aLines]
    split
    · exact ih _ _
    · exact ih _ _

theorem aLines_rest (fc : BitVec 32) (l x : Bytes) (hl : (10 : UInt8) ∉ l) : (10 : UInt8) ∉ (aLines fc l x).2 := by
  induction x generalizing fc l with
  | nil => exact hl
  | cons c cs ih =>
    rw [aLines]
    split
    · exact ih _ _ (by simp)
    · exact ih _ _ (by simp; exact ⟨hl, by rename_i h; exact fun hc => h hc.symm⟩)

theorem aLines_pend (fc : BitVec 32) (p x : Bytes) (hp : (10 : UInt8) ∉ p) : aLines fc [] (p ++ x) = aLines fc p x := by
  rw [aLines_append, aLines_no_newline _ _ _ hp]
  simp

theorem aLines_lines (fc : BitVec 32) (b : Bytes) (ls : List Bytes) (rest : Bytes) (h : Lines b ls rest) :
    aLines fc [] b = (ls.foldl (fun f l => fcorrUpdate f (l.takeWhile (· ≠ 0))) fc, rest) := by
  obtain ⟨h1, h2, h3⟩ := h
  subst h1
  induction ls generalizing fc with
  | nil => rw [List.flatMap_nil, List.nil_append, aLines_no_newline _ _ _ h3]; simp
  | cons l ls ih =>
    rw [List.flatMap_cons, List.append_assoc, List.append_assoc, aLines_append, aLines_no_newline _ _ _ (h2 l (by simp))]
    simp only [List.nil_append, List.singleton_append]
    rw [aLines, if_pos rfl, ih _ (fun x hx => h2 x (by simp [hx]))]
    rfl

theorem lines_exist (b : Bytes) : ∃ ls rest, Lines b ls rest := by
  induction b using List.reverseRecOn with
  | nil => exact ⟨[], [], by simp [Lines]⟩
  | append_singleton b c ih =>
    obtain ⟨ls, rest, h1, h2, h3⟩ := ih
    by_cases hc : c = 10
    · refine ⟨ls ++ [rest], [], ?_, ?_, by simp⟩
      · rw [h1, hc]; simp
      · intro l hl
        rcases List.mem_append.mp hl with hl | hl
        · exact h2 l hl
        · simp at hl; rw [hl]; exact h3
    · refine ⟨ls, rest ++ [c], by rw [h1]; simp, h2, ?_⟩
      simp
      exact ⟨h3, fun hx => hc hx.symm⟩

/-- What a pass reads from the frequency channel, on the machine without buffers. -/
def aReads (legacy : Bool) : List Round → AState → List Bytes
  | [], _ => []
  | r :: rs, a => match aRun legacy [r] a with
    | (a', none) => a.freqSrc.take (a.freqSrc.length - a'.freqSrc.length) :: aReads legacy rs a'
    | _ => []

theorem aReads_eq {legacy : Bool} {rs : List Round} {s : FState} (hw : WF s) (ho : s.outevents = 0) :
    freqReads legacy rs s = aReads legacy rs (abst s) := by
  induction rs generalizing s with
  | nil => rfl
  | cons r rs ih =>
    obtain ⟨s', h1, h2, h3, h4⟩ := step_ok legacy r hw ho
    unfold freqReads aReads fRun aRun
    rw [h1]
    simp only [bind, Except.bind]
    by_cases hst : (aStep legacy r (abst s)).2 = none
    · rw [hst]
      simp only [ne_eq, not_true_eq_false, if_false, fRun, aRun, Bool.false_eq_true]
      rw [ih h3 (h4 hst), h2, ← h2]
      rfl
    · rw [if_pos hst, if_pos (by simpa using hst)]
      cases hq : (aStep legacy r (abst s)).2 with
      | none => exact absurd hq hst
      | some q =>
        rw [show aStep legacy r (abst s) = ((aStep legacy r (abst s)).1, some q) by rw [← hq]]
        rfl

theorem freq_step {legacy : Bool} {r : Round} {src : Bytes} {a a' : AState} {n : Nat} (hp : Pos src a n) (h : aStep legacy r a = (a', none))
    (hfp : (10 : UInt8) ∉ a.fpend) :
    ∃ data, a.freqSrc = data ++ a'.freqSrc ∧
      if (10 : UInt8) ∈ data then a'.fcorr = (aLines a.fcorr a.fpend data).1 ∧ a'.fpend = (aLines a.fcorr a.fpend data).2
      else a'.fcorr = a.fcorr ∧ a'.fpend = a.fpend := by
  obtain ⟨g1, -, g3, g4, -⟩ := aStep_clean legacy r src a a' n hp h
  rw [g1, g3, g4]
  unfold aFreq
  split
  · exact ⟨[], rfl, by simp⟩
  · split
    · exact ⟨[], rfl, by simp⟩
    · exact ⟨[], rfl, by simp⟩
    · rename_i k _
      simp only
      refine ⟨a.freqSrc.take (min k (freqBufSize - a.fpend.length - 1)), ?_, ?_⟩
      · split <;> simp only <;> rw [List.length_take] <;>
          · conv_lhs => rw [← List.take_append_drop (min k (freqBufSize - a.fpend.length - 1)) a.freqSrc]
            congr 1
            rcases Nat.le_total (min k (freqBufSize - a.fpend.length - 1)) a.freqSrc.length with hc | hc
            · rw [min_eq_left hc]
            · rw [min_eq_right hc, List.drop_of_length_le hc, List.drop_length]
      · by_cases hd : (10 : UInt8) ∈ a.freqSrc.take (min k (freqBufSize - a.fpend.length - 1))
        · rw [if_pos hd, if_pos (List.mem_append_right _ hd)]
          rw [aLines_pend _ _ _ hfp]
          exact ⟨rfl, rfl⟩
        · rw [if_neg hd, if_neg (by rw [List.mem_append]; rintro (hc | hc); exact hfp hc; exact hd hc)]
          exact ⟨rfl, rfl⟩

theorem freq_run {legacy : Bool} {rs : List Round} {src : Bytes} (a0 a : AState) (n : Nat) (hp : Pos src a n)
    (kept : Bytes) (f0 : BitVec 32) (hk : (a.fcorr, a.fpend) = aLines f0 [] kept) (a' : AState) (h : aRun legacy rs a = (a', none)) :
    (a'.fcorr, a'.fpend) = aLines f0 [] (kept ++ ((aReads legacy rs a).filter (fun c : Bytes => (10 : UInt8) ∈ c)).flatten) ∧
    a.freqSrc = (aReads legacy rs a).flatten ++ a'.freqSrc := by
  induction rs generalizing a n kept with
  | nil =>
    simp only [aRun, Prod.mk.injEq, and_true] at h
    subst h
    simp [aReads, hk]
  | cons r rs ih =>
    have h' := h
    unfold aRun at h
    by_cases hst : (aStep legacy r a).2 = none
    · rw [if_neg (by simp [hst])] at h
      have hstep : aStep legacy r a = ((aStep legacy r a).1, none) := by rw [← hst]
      generalize (aStep legacy r a).1 = b at *
      have hfp : (10 : UInt8) ∉ a.fpend := by
        have : a.fpend = (aLines f0 [] kept).2 := congrArg Prod.snd hk
        rw [this]
        exact aLines_rest _ _ _ (by simp)
      obtain ⟨data, d1, d2⟩ := freq_step hp hstep hfp
      have hreads : aReads legacy (r :: rs) a = data :: aReads legacy rs b := by
        have : aRun legacy [r] a = (b, none) := by
          unfold aRun
          rw [if_neg (by simp [hst]), hstep]
          rfl
        rw [aReads, this]
        simp only
        rw [d1, List.length_append, Nat.add_sub_cancel, List.take_left]
      obtain ⟨m, hm⟩ : ∃ m, Pos src b m := by
        obtain ⟨-, -, -, -, -, ⟨g, -⟩ | ⟨n', -, -, g, -⟩⟩ := aStep_clean legacy r src a b n hp hstep
        · exact ⟨n, g⟩
        · exact ⟨n', g⟩
      rw [hreads]
      by_cases hd : (10 : UInt8) ∈ data
      · rw [if_pos hd] at d2
        have hkb : (b.fcorr, b.fpend) = aLines f0 [] (kept ++ data) := by
          rw [aLines_append, ← hk, d2.1, d2.2]
        obtain ⟨i1, i2⟩ := ih b m hm _ hkb h
        refine ⟨?_, ?_⟩
        · rw [i1, List.filter_cons_of_pos (by simpa using hd), List.flatten_cons, List.append_assoc]
        · rw [d1, i2, List.flatten_cons, List.append_assoc]
      · rw [if_neg hd] at d2
        have hkb : (b.fcorr, b.fpend) = aLines f0 [] kept := by rw [d2.1, d2.2, hk]
        obtain ⟨i1, i2⟩ := ih b m hm _ hkb h
        refine ⟨?_, ?_⟩
        · rw [i1, List.filter_cons_of_neg (by simpa using hd)]
        · rw [d1, i2, List.flatten_cons, List.append_assoc]
    · rw [if_pos hst] at h
      rw [h] at hst
      exact absurd rfl hst

theorem decValue_eq (ds : Bytes) (n : Nat) :
    ((ds.foldl (fun (acc : Nat) d => acc * 10 + (d.toNat - 48)) n : Nat) : Int) = ds.foldl (fun (n : Int) c => 10 * n + (c.toNat - 48 : Nat)) n := by
  induction ds generalizing n with
  | nil => rfl
  | cons c cs ih => rw [List.foldl_cons, List.foldl_cons, ih]; push_cast; rw [mul_comm]

theorem takeWhile_all {p : UInt8 → Bool} (l : Bytes) (h : ∀ c ∈ l, p c = true) : l.takeWhile p = l ∧ l.dropWhile p = [] :=
  ⟨List.takeWhile_eq_self_iff.mpr h, List.dropWhile_eq_nil_iff.mpr h⟩

theorem digit_not_space (c : UInt8) (h : 48 ≤ c ∧ c ≤ 57) : isCSpace c = false ∧ c ≠ 43 ∧ c ≠ 45 ∧ isCDigit c = true := by
  obtain ⟨h1, h2⟩ := h
  have : c.toNat < 256 := c.toNat_lt
  rw [UInt8.le_iff_toNat_le] at h1 h2
  simp at h1 h2
  refine ⟨?_, ?_, ?_, ?_⟩
  · simp only [isCSpace, decide_eq_false_iff_not, UInt8.le_iff_toNat_le, ← UInt8.toNat_inj]
    simp; omega
  · intro hc; rw [hc] at h1; simp at h1
  · intro hc; rw [hc] at h1; simp at h1
  · simp only [isCDigit, decide_eq_true_eq, UInt8.le_iff_toNat_le]
    simp; omega

theorem dropWhile_ws (ws t : Bytes) (h : ∀ c ∈ ws, c = 32 ∨ (9 ≤ c ∧ c ≤ 13)) (ht : ∀ c, t.head? = some c → isCSpace c = false) :
    (ws ++ t).dropWhile isCSpace = t := by
  rw [List.dropWhile_append_of_pos (by intro c hc; simpa [isCSpace] using h c hc)]
  cases t with
  | nil => rfl
  | cons c t => rw [List.dropWhile_cons_of_neg]; simp [ht c rfl]

theorem strtol_numeral (b : Bytes) (v : Int) (h : Numeral b v) : strtol b = some (clampLong v, []) := by
  obtain ⟨ws, sign, ds, rfl, hws, hne, hds, hv⟩ := h
  obtain ⟨d, ds', rfl⟩ := List.exists_cons_of_ne_nil hne
  obtain ⟨q1, q2, q3, q4⟩ := digit_not_space d (hds d (by simp))
  have hall : ∀ c ∈ d :: ds', isCDigit c = true := fun c hc => (digit_not_space c (hds c hc)).2.2.2
  obtain ⟨t1, t2⟩ := takeWhile_all _ hall
  have hval : (decValue (d :: ds') : Int) = (d :: ds').foldl (fun (n : Int) c => 10 * n + (c.toNat - 48 : Nat)) 0 := decValue_eq _ 0
  unfold strtol
  rcases hv with ⟨rfl, rfl⟩ | ⟨rfl, rfl⟩ | ⟨rfl, rfl⟩
  · rw [List.append_assoc, dropWhile_ws _ _ hws (by intro c hc; simp at hc; rw [← hc]; exact q1)]
    simp only [List.nil_append]
    split
    · rename_i t' hc; simp at hc; exact absurd hc.1 q3
    · rename_i t' hc; simp at hc; exact absurd hc.1 q2
    · simp only
      rw [t1, t2, if_neg (by simp), hval]
      rfl
  · rw [List.append_assoc, dropWhile_ws _ _ hws (by intro c hc; simp at hc; rw [← hc]; decide)]
    simp only [List.singleton_append]
    rw [t1, t2, if_neg (by simp), hval]
    rfl
  · rw [List.append_assoc, dropWhile_ws _ _ hws (by intro c hc; simp at hc; rw [← hc]; decide)]
    simp only [List.singleton_append]
    rw [t1, t2, if_neg (by simp), hval]
    rfl

theorem numeral_strtol (b : Bytes) (x : Int) (h : strtol b = some (x, [])) : ∃ v, Numeral b v ∧ x = clampLong v := by
  unfold strtol at h
  simp only at h
  have hb := (List.takeWhile_append_dropWhile (p := isCSpace) (l := b)).symm
  have hws : ∀ c ∈ b.takeWhile isCSpace, c = 32 ∨ (9 ≤ c ∧ c ≤ 13) := by
    intro c hc
    have := List.mem_takeWhile_imp hc
    simpa [isCSpace] using this
  generalize b.takeWhile isCSpace = ws at *
  generalize b.dropWhile isCSpace = t at *
  have dig : ∀ c, isCDigit c = true → 48 ≤ c ∧ c ≤ 57 := by intro c hc; simpa [isCDigit] using hc
  have fin : ∀ u : Bytes, u.dropWhile isCDigit = [] → u.takeWhile isCDigit = u ∧ ∀ c ∈ u, 48 ≤ c ∧ c ≤ 57 := by
    intro u hu
    rw [List.dropWhile_eq_nil_iff] at hu
    exact ⟨List.takeWhile_eq_self_iff.mpr hu, fun c hc => dig c (hu c hc)⟩
  split at h
  · rename_i u
    split at h
    · simp at h
    · rename_i hd
      simp only [Option.some.injEq, Prod.mk.injEq] at h
      obtain ⟨h1, h2⟩ := h
      obtain ⟨f1, f2⟩ := fin _ h2
      rw [f1] at hd h1
      refine ⟨-(decValue u : Int), ⟨ws, [45], u, by rw [hb]; simp, hws, hd, f2, Or.inr (Or.inr ⟨rfl, ?_⟩)⟩, h1.symm⟩
      unfold decValue
      rw [decValue_eq]; rfl
  · rename_i u
    split at h
    · simp at h
    · rename_i hd
      simp only [Option.some.injEq, Prod.mk.injEq] at h
      obtain ⟨h1, h2⟩ := h
      obtain ⟨f1, f2⟩ := fin _ h2
      rw [f1] at hd h1
      refine ⟨(decValue u : Int), ⟨ws, [43], u, by rw [hb]; simp, hws, hd, f2, Or.inr (Or.inl ⟨rfl, ?_⟩)⟩, h1.symm⟩
      unfold decValue
      rw [decValue_eq]; rfl
  · split at h
    · simp at h
    · rename_i hd
      simp only [Option.some.injEq, Prod.mk.injEq] at h
      obtain ⟨h1, h2⟩ := h
      obtain ⟨f1, f2⟩ := fin _ h2
      rw [f1] at hd h1
      refine ⟨(decValue t : Int), ⟨ws, [], t, by rw [hb]; simp, hws, hd, f2, Or.inl ⟨rfl, ?_⟩⟩, h1.symm⟩
      unfold decValue
      rw [decValue_eq]; rfl

theorem cabs_slt (v m : BitVec 32) (hm : 0 ≤ m.toInt) : (cabs v).slt m = true ↔ v.toInt = -2 ^ 31 ∨ |v.toInt| < m.toInt := by
  unfold cabs
  rw [BitVec.slt_iff_toInt_lt]
  have hlo := BitVec.le_toInt (x := v)
  have hhi := BitVec.toInt_lt (x := v)
  norm_num at hlo hhi
  by_cases hneg : v.slt 0 = true
  · rw [if_pos hneg]
    rw [BitVec.slt_iff_toInt_lt] at hneg
    simp at hneg
    by_cases hmin : v.toInt = -2 ^ 31
    · have : v = BitVec.intMin 32 := by
        apply BitVec.eq_of_toInt_eq
        rw [hmin]; decide
      constructor
      · intro _; exact Or.inl hmin
      · intro _
        rw [this]
        have : (-BitVec.intMin 32).toInt = -2 ^ 31 := by decide
        rw [this]
        omega
    · rw [BitVec.toInt_neg_of_ne_intMin (by
        intro hc
        apply hmin
        rw [hc]; decide)]
      rw [abs_of_neg hneg]
      constructor
      · intro h; exact Or.inr h
      · rintro (h | h)
        · exact absurd h hmin
        · exact h
  · rw [if_neg hneg]
    have h0 : 0 ≤ v.toInt := by
      rw [Bool.not_eq_true, ← Bool.not_eq_true', Bool.not_eq_true'] at hneg
      have : ¬ v.toInt < 0 := by
        intro hc
        have : v.slt 0 = true := by rw [BitVec.slt_iff_toInt_lt]; simpa using hc
        rw [this] at hneg
        simp at hneg
      omega
    rw [abs_of_nonneg h0]
    constructor
    · intro h; exact Or.inr h
    · rintro (h | h)
      · omega
      · exact h

theorem clamp_id (v : Int) (h : -2 ^ 63 ≤ v ∧ v < 2 ^ 63) : clampLong v = v := by
  unfold clampLong
  omega

theorem readint_numeral (b : Bytes) (v : Int) (h : Numeral b v) :
    readint b = if (cabs (BitVec.ofInt 32 (clampLong v))).slt 2147483647 then BitVec.ofInt 32 (clampLong v) else 2147483647 := by
  unfold readint
  rw [strtol_numeral b v h]

end Fp
