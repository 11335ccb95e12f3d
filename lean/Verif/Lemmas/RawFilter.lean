import Verif.Spec.RawFilter
import Verif.Lemmas.RawA1

/-! Helper lemmas for the filters. -/
namespace Fp
open Spec

theorem select_map {α β : Type} (f : α → Bool) (g : α → β) (xs : List α) :
    select (xs.map f) (xs.map g) = (xs.filter f).map g := by
  induction xs with
  | nil => rfl
  | cons x xs ih =>
    cases h : f x <;> simp [select, h, ih]

theorem select_map_self {α : Type} (f : α → Bool) (xs : List α) : select (xs.map f) xs = xs.filter f := by
  have := select_map f id xs
  simpa using this

theorem sliceMask_eq {α : Type} (t : List α) (f : α → Bool) (i j : Nat)
    (h : ∀ k (hk : k < t.length), decide (i ≤ k ∧ k < j) = f t[k]) : sliceMask t.length i j = t.map f := by
  apply List.ext_getElem
  · simp [sliceMask]
  · intro k h1 h2
    simp only [sliceMask, List.getElem_map, List.getElem_range]
    exact h k (by simpa using h2)

theorem bisectLeft_spec (t : List Num) (x : ℚ) (hi lo : Nat) (hle : lo ≤ hi) (hlen : hi ≤ t.length)
    (hmono : ∀ a b (_ : a ≤ b) (hb : b < t.length), (t[a]'(by omega)).cmp ≤ (t[b]).cmp) :
    lo ≤ bisectLeft t x lo hi ∧ bisectLeft t x lo hi ≤ hi ∧
      (∀ k (hk : k < t.length), lo ≤ k → k < bisectLeft t x lo hi → (t[k]).cmp < x) ∧
      (∀ k (hk : k < t.length), bisectLeft t x lo hi ≤ k → k < hi → x ≤ (t[k]).cmp) := by
  induction hn : hi - lo using Nat.strongRecOn generalizing lo hi with
  | ind n ih =>
    rw [bisectLeft]
    split
    · rename_i hlt
      have hm : (lo + hi) / 2 < t.length := by omega
      simp only [List.getElem?_eq_getElem hm, Option.map_some, Option.getD_some]
      split
      · rename_i hc
        obtain ⟨h1, h2, h3, h4⟩ := ih (hi - ((lo + hi) / 2 + 1)) (by omega) hi ((lo + hi) / 2 + 1) (by omega) hlen hmono rfl
        refine ⟨by omega, h2, ?_, h4⟩
        intro k hk hlo hk2
        by_cases hkm : k ≤ (lo + hi) / 2
        · exact lt_of_le_of_lt (hmono k _ hkm hm) hc
        · exact h3 k hk (by omega) hk2
      · rename_i hc
        obtain ⟨h1, h2, h3, h4⟩ := ih ((lo + hi) / 2 - lo) (by omega) ((lo + hi) / 2) lo (by omega) (by omega) hmono rfl
        refine ⟨h1, by omega, h3, ?_⟩
        intro k hk hk1 hk2
        by_cases hkm : k < (lo + hi) / 2
        · exact h4 k hk hk1 hkm
        · exact le_trans (not_lt.mp hc) (hmono _ k (by omega) hk)
    · refine ⟨le_refl _, hle, ?_, ?_⟩
      · intro k _ h1 h2; omega
      · intro k _ h1 h2; omega

theorem bisectRight_spec (t : List Num) (x : ℚ) (hi lo : Nat) (hle : lo ≤ hi) (hlen : hi ≤ t.length)
    (hmono : ∀ a b (_ : a ≤ b) (hb : b < t.length), (t[a]'(by omega)).cmp ≤ (t[b]).cmp) :
    lo ≤ bisectRight t x lo hi ∧ bisectRight t x lo hi ≤ hi ∧
      (∀ k (hk : k < t.length), lo ≤ k → k < bisectRight t x lo hi → (t[k]).cmp ≤ x) ∧
      (∀ k (hk : k < t.length), bisectRight t x lo hi ≤ k → k < hi → x < (t[k]).cmp) := by
  induction hn : hi - lo using Nat.strongRecOn generalizing lo hi with
  | ind n ih =>
    rw [bisectRight]
    split
    · rename_i hlt
      have hm : (lo + hi) / 2 < t.length := by omega
      simp only [List.getElem?_eq_getElem hm, Option.map_some, Option.getD_some]
      split
      · rename_i hc
        obtain ⟨h1, h2, h3, h4⟩ := ih ((lo + hi) / 2 - lo) (by omega) ((lo + hi) / 2) lo (by omega) (by omega) hmono rfl
        refine ⟨h1, by omega, h3, ?_⟩
        intro k hk hk1 hk2
        by_cases hkm : k < (lo + hi) / 2
        · exact h4 k hk hk1 hkm
        · exact lt_of_lt_of_le hc (hmono _ k (by omega) hk)
      · rename_i hc
        obtain ⟨h1, h2, h3, h4⟩ := ih (hi - ((lo + hi) / 2 + 1)) (by omega) hi ((lo + hi) / 2 + 1) (by omega) hlen hmono rfl
        refine ⟨by omega, h2, ?_, h4⟩
        intro k hk hlo hk2
        by_cases hkm : k ≤ (lo + hi) / 2
        · exact le_trans (hmono k _ hkm hm) (not_lt.mp hc)
        · exact h3 k hk (by omega) hk2
    · refine ⟨le_refl _, hle, ?_, ?_⟩
      · intro k _ h1 h2; omega
      · intro k _ h1 h2; omega

theorem boundIn_eq (res : Tsres) (s : ℚ) : boundIn res s = bound res s := by
  unfold boundIn bound
  have : fl 53 (1000000000 * (res.value : ℚ)) = 1000000000 * res.value := by
    have := fl_nat 53 (1000000000 * res.value) (by cases res <;> simp [Tsres.value])
    push_cast at this
    exact this
  rw [this]

theorem cmp_mono_of_sorted (t : List Num) (hh : Homogeneous t) (hs : Chronological t) :
    ∀ a b (_ : a ≤ b) (hb : b < t.length), (t[a]'(by omega)).cmp ≤ (t[b]).cmp := by
  intro a b hab hb
  rcases Nat.eq_or_lt_of_le hab with rfl | hlt
  · exact le_refl _
  have hv : (t[a]'(by omega)).val ≤ (t[b]).val := List.pairwise_iff_getElem.mp hs a b (by omega) hb hlt
  rcases hh with hh | hh
  · obtain ⟨n, hn⟩ := hh t[a] (List.getElem_mem _)
    obtain ⟨m, hm⟩ := hh t[b] (List.getElem_mem _)
    rw [hn, hm] at hv ⊢
    simp only [Num.val] at hv
    exact fl_mono_nonneg 53 (by norm_num) (by positivity) hv
  · obtain ⟨n, hn⟩ := hh t[a] (List.getElem_mem _)
    obtain ⟨m, hm⟩ := hh t[b] (List.getElem_mem _)
    rw [hn, hm] at hv ⊢
    exact hv

theorem val_mono_of_sorted (t : List Num) (hs : Chronological t) :
    ∀ a b (_ : a ≤ b) (hb : b < t.length), (t[a]'(by omega)).val ≤ (t[b]).val := by
  intro a b hab hb
  rcases Nat.eq_or_lt_of_le hab with rfl | hlt
  · exact le_refl _
  exact List.pairwise_iff_getElem.mp hs a b (by omega) hb hlt

theorem mask_core {α : Type} (T : List α) (f : α → Bool) (c1 c2 : Bool) (i j : Nat)
    (h1 : c1 = true → ∀ k (hk : k < T.length), f T[k] = false)
    (h2 : c2 = true → ∀ k (hk : k < T.length), f T[k] = false)
    (h3 : ∀ k (hk : k < T.length), decide (i ≤ k ∧ k < j) = f T[k]) :
    (if c1 = true then List.replicate T.length false else if c2 = true then List.replicate T.length false
      else sliceMask T.length i j) = T.map f := by
  have hrep : (∀ k (hk : k < T.length), f T[k] = false) → List.replicate T.length false = T.map f := by
    intro hf
    apply List.ext_getElem
    · simp
    · intro k h1 h2
      simp only [List.getElem_replicate, List.getElem_map]
      exact (hf k (by simpa using h1)).symm
  split
  · rename_i h; exact hrep (h1 h)
  · split
    · rename_i h; exact hrep (h2 h)
    · exact sliceMask_eq T f i j h3

theorem getTimingMask_unfold (T : List Num) (hT : T ≠ []) (h0 : 0 < T.length) (hl : T.length - 1 < T.length)
    (start stop : Option ℚ) (res : Tsres) :
    getTimingMask T start stop res =
      if (match start with
        | none => decide (T[T.length - 1].val < T[0].val)
        | some s => decide (T[T.length - 1].cmp < boundIn res s)) then List.replicate T.length false
      else if (match stop with
        | none => decide (T[T.length - 1].val < T[0].val)
        | some e => decide (boundIn res e < T[0].cmp)) then List.replicate T.length false
      else sliceMask T.length
        (match start with
          | none => 0
          | some s => bisectLeft T (boundIn res s) 0 T.length)
        (match stop with
          | none => T.length
          | some e => bisectRight T (boundIn res e) 0 T.length) := by
  cases T with
  | nil => exact absurd rfl hT
  | cons t0 ts =>
    have el : (t0 :: ts).getLast (by simp) = (t0 :: ts)[(t0 :: ts).length - 1] := List.getLast_eq_getElem _
    unfold getTimingMask
    simp only [el]
    rfl

/-- The mask computed by `get_timing_mask`, in terms of the numbers that are actually compared. -/
theorem getTimingMask_eq (T : List Num) (hh : Homogeneous T) (hs : Chronological T) (start stop : Option ℚ) (res : Tsres) :
    getTimingMask T start stop res = T.map (fun x => decide (InWindow res start stop x.cmp)) := by
  have hmono := cmp_mono_of_sorted T hh hs
  have hvmono := val_mono_of_sorted T hs
  by_cases hT : T = []
  · subst hT; rfl
  · have hn : 0 < T.length := List.length_pos_iff.mpr hT
    have hval : ¬ T[T.length - 1].val < T[0].val := by
      rw [not_lt]; exact hvmono 0 (T.length - 1) (by omega) (by omega)
    rw [getTimingMask_unfold T hT hn (by omega)]
    apply mask_core
    · -- too high
      intro hhigh k hk
      cases start with
      | none => simp [hval] at hhigh
      | some s =>
        simp only [decide_eq_true_eq, boundIn_eq] at hhigh
        have := hmono k (T.length - 1) (by omega) (by omega)
        apply decide_eq_false
        rintro ⟨h, -⟩
        exact absurd (le_trans (h s rfl) this) (not_le.mpr hhigh)
    · intro hlow k hk
      cases stop with
      | none => simp [hval] at hlow
      | some e =>
        simp only [decide_eq_true_eq, boundIn_eq] at hlow
        have := hmono 0 k (by omega) (by omega)
        apply decide_eq_false
        rintro ⟨-, h⟩
        exact absurd (le_trans this (h e rfl)) (not_le.mpr hlow)
    · intro k hk
      have hL : ∀ s, ((bisectLeft T (boundIn res s) 0 T.length ≤ k) ↔ bound res s ≤ T[k].cmp) := by
        intro s
        obtain ⟨_, _, h3, h4⟩ := bisectLeft_spec T (boundIn res s) T.length 0 (by omega) (le_refl _) hmono
        rw [← boundIn_eq]
        constructor
        · intro h; exact h4 k hk h hk
        · intro h
          by_contra hc
          exact absurd (h3 k hk (by omega) (by omega)) (not_lt.mpr h)
      have hR : ∀ e, ((k < bisectRight T (boundIn res e) 0 T.length) ↔ T[k].cmp ≤ bound res e) := by
        intro e
        obtain ⟨_, _, h3, h4⟩ := bisectRight_spec T (boundIn res e) T.length 0 (by omega) (le_refl _) hmono
        rw [← boundIn_eq]
        constructor
        · intro h; exact h3 k hk (by omega) h
        · intro h
          by_contra hc
          exact absurd (h4 k hk (by omega) hk) (not_lt.mpr h)
      apply decide_eq_decide.mpr
      cases start with
      | none =>
        cases stop with
        | none => simp [InWindow, hk]
        | some e => simp [InWindow, hR e]
      | some s =>
        cases stop with
        | none => simp [InWindow, hL s, hk]
        | some e => simp [InWindow, hL s, hR e]

theorem cmp_eq_val (x : Num) (h : ∀ n, x = .u64 n → n < 2 ^ 53) : x.cmp = x.val := by
  cases x with
  | u64 n => exact fl_nat 53 n (h n rfl)
  | flt q => rfl

theorem getPatternMask_eq (p : List Nat) (pattern : Nat) (mask invert : Bool) (hp : ∀ x ∈ p, x < 16) (hpat : pattern < 16) :
    getPatternMask p pattern mask invert =
      (p.map (patKeep pattern mask invert),
        (p.filter (patKeep pattern mask invert)).map (fun x => ofBits4 (patBit pattern mask invert x))) := by
  have table : ∀ (x pat : Fin 16) (m i : Bool),
      (m = false → i = false → decide (x.val = pat.val) = patKeep pat m i x ∧ x.val = ofBits4 (patBit pat m i x)) ∧
      (m = false → i = true → (!decide (x.val = pat.val)) = patKeep pat m i x ∧ x.val = ofBits4 (patBit pat m i x)) ∧
      (m = true → i = false → decide (x.val &&& pat.val ≠ 0) = patKeep pat m i x ∧
        x.val &&& pat.val = ofBits4 (patBit pat m i x)) ∧
      (m = true → i = true →
        decide ((if x.val = 0 then 16 else x.val) ^^^ ((if x.val = 0 then 16 else x.val) &&& pat.val) ≠ 0) = patKeep pat m i x ∧
        (if (if x.val = 0 then 16 else x.val) ^^^ ((if x.val = 0 then 16 else x.val) &&& pat.val) = 16 then 0
          else (if x.val = 0 then 16 else x.val) ^^^ ((if x.val = 0 then 16 else x.val) &&& pat.val)) =
          ofBits4 (patBit pat m i x)) := by decide +kernel
  unfold getPatternMask
  cases mask <;> cases invert <;> simp only [Bool.not_false, Bool.not_true, if_true, Bool.false_eq_true, if_false]
  · have e1 : p.map (fun x => decide (x = pattern)) = p.map (patKeep pattern false false) :=
      List.map_congr_left (fun x hx => ((table ⟨x, hp x hx⟩ ⟨pattern, hpat⟩ false false).1 rfl rfl).1)
    rw [e1, select_map_self]
    congr 1
    have : ∀ x ∈ p.filter (patKeep pattern false false), x = ofBits4 (patBit pattern false false x) := by
      intro x hx
      exact ((table ⟨x, hp x (List.mem_of_mem_filter hx)⟩ ⟨pattern, hpat⟩ false false).1 rfl rfl).2
    conv_lhs => rw [← List.map_id (p.filter (patKeep pattern false false))]
    exact List.map_congr_left this
  · have e1 : (p.map (fun x => decide (x = pattern))).map (fun b => !b) = p.map (patKeep pattern false true) := by
      rw [List.map_map]
      exact List.map_congr_left (fun x hx => ((table ⟨x, hp x hx⟩ ⟨pattern, hpat⟩ false true).2.1 rfl rfl).1)
    rw [e1, select_map_self]
    congr 1
    have : ∀ x ∈ p.filter (patKeep pattern false true), x = ofBits4 (patBit pattern false true x) := by
      intro x hx
      exact ((table ⟨x, hp x (List.mem_of_mem_filter hx)⟩ ⟨pattern, hpat⟩ false true).2.1 rfl rfl).2
    conv_lhs => rw [← List.map_id (p.filter (patKeep pattern false true))]
    exact List.map_congr_left this
  · have e1 : (p.map (fun x => x &&& pattern)).map (fun x => decide (x ≠ 0)) = p.map (patKeep pattern true false) := by
      rw [List.map_map]
      exact List.map_congr_left (fun x hx => ((table ⟨x, hp x hx⟩ ⟨pattern, hpat⟩ true false).2.2.1 rfl rfl).1)
    rw [e1, select_map]
    congr 1
    apply List.map_congr_left
    intro x hx
    exact ((table ⟨x, hp x (List.mem_of_mem_filter hx)⟩ ⟨pattern, hpat⟩ true false).2.2.1 rfl rfl).2
  · have e1 : ((p.map (fun x => if x = 0 then 16 else x)).map (fun x => x ^^^ (x &&& pattern))).map
        (fun x => decide (x ≠ 0)) = p.map (patKeep pattern true true) := by
      rw [List.map_map, List.map_map]
      exact List.map_congr_left (fun x hx => ((table ⟨x, hp x hx⟩ ⟨pattern, hpat⟩ true true).2.2.2 rfl rfl).1)
    rw [e1, List.map_map, select_map, List.map_map]
    congr 1
    apply List.map_congr_left
    intro x hx
    exact ((table ⟨x, hp x (List.mem_of_mem_filter hx)⟩ ⟨pattern, hpat⟩ true true).2.2.2 rfl rfl).2

end Fp
