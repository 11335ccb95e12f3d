import Verif.Spec.EpochLiteral
import Verif.Props.EpochNames
import Mathlib.Tactic.IntervalCases

/-! # C23: which names are accepted -/
namespace Fp
open Spec

theorem hexVal_digit : ∀ c ∈ hexDigitChars, hexVal c =
    some (['0', '1', '2', '3', '4', '5', '6', '7', '8', '9', 'a', 'b', 'c', 'd', 'e', 'f'].idxOf c.toLower) := by decide

theorem hexVal_other (c : Char) (h : c ∉ hexDigitChars) : hexVal c = none := by
  unfold hexVal
  have key : ∀ n, c.toNat = n → c = Char.ofNat n := fun n hn => by rw [← hn, Char.ofNat_toNat]
  have k1 : ¬ ('0'.toNat ≤ c.toNat ∧ c.toNat ≤ '9'.toNat) := by
    rintro ⟨h1, h2⟩
    apply h
    change 48 ≤ c.toNat at h1
    change c.toNat ≤ 57 at h2
    obtain ⟨n, hn⟩ : ∃ n, c.toNat = n := ⟨_, rfl⟩
    rw [key n hn]
    rw [hn] at h1 h2
    clear key h hn
    interval_cases n <;> decide
  have k2 : ¬ ('a'.toNat ≤ c.toNat ∧ c.toNat ≤ 'f'.toNat) := by
    rintro ⟨h1, h2⟩
    apply h
    change 97 ≤ c.toNat at h1
    change c.toNat ≤ 102 at h2
    obtain ⟨n, hn⟩ : ∃ n, c.toNat = n := ⟨_, rfl⟩
    rw [key n hn]
    rw [hn] at h1 h2
    clear key h hn
    interval_cases n <;> decide
  have k3 : ¬ ('A'.toNat ≤ c.toNat ∧ c.toNat ≤ 'F'.toNat) := by
    rintro ⟨h1, h2⟩
    apply h
    change 65 ≤ c.toNat at h1
    change c.toNat ≤ 70 at h2
    obtain ⟨n, hn⟩ : ∃ n, c.toNat = n := ⟨_, rfl⟩
    rw [key n hn]
    rw [hn] at h1 h2
    clear key h hn
    interval_cases n <;> decide
  rw [if_neg k1, if_neg k2, if_neg k3]

/-- What the digits after those read so far must look like. -/
def BodyFrom (us : Bool) (b : List Char) : Prop :=
  (us = true → b ≠ [] ∧ b.head? ≠ some '_') ∧ (∀ c ∈ b, c = '_' ∨ c ∈ hexDigitChars) ∧ b.getLast? ≠ some '_' ∧ ¬ ['_', '_'] <:+: b

theorem infix_cons (c : Char) (b : List Char) : ['_', '_'] <:+: c :: b ↔ (c = '_' ∧ b.head? = some '_') ∨ ['_', '_'] <:+: b := by
  rw [List.infix_cons_iff]
  constructor
  · rintro (h | h)
    · left
      rw [List.cons_prefix_cons] at h
      obtain ⟨rfl, h⟩ := h
      cases b with
      | nil => simp at h
      | cons d b =>
        rw [List.cons_prefix_cons] at h
        exact ⟨rfl, by rw [h.1]; rfl⟩
    · exact Or.inr h
  · rintro (⟨rfl, h⟩ | h)
    · left
      cases b with
      | nil => simp at h
      | cons d b =>
        simp only [List.head?_cons, Option.some.injEq] at h
        rw [h]
        exact ⟨b, rfl⟩
    · exact Or.inr h

theorem hexDigitsVal_iff (b : List Char) (acc : Nat) (us : Bool) (n : Nat) : hexDigitsVal acc us b = some n ↔
    BodyFrom us b ∧ n = ((b.filter fun c => decide (c ≠ '_')).map Char.toLower).foldl
      (fun acc c => acc * 16 + ['0', '1', '2', '3', '4', '5', '6', '7', '8', '9', 'a', 'b', 'c', 'd', 'e', 'f'].idxOf c) acc := by
  induction b generalizing acc us with
  | nil =>
    unfold hexDigitsVal BodyFrom
    cases us with
    | true => simp
    | false =>
      rw [if_neg (by simp)]
      constructor
      · intro h
        refine ⟨⟨by simp, by simp, by simp, by simp⟩, ?_⟩
        injection h with h
        exact h.symm
      · rintro ⟨-, h⟩
        rw [h]
        rfl
  | cons c b ih =>
    unfold hexDigitsVal
    by_cases hc : c = '_'
    · subst hc
      rw [if_pos rfl]
      cases us with
      | true => simp [BodyFrom]
      | false =>
        simp only [if_false, Bool.false_eq_true]
        rw [ih]
        have hf : (('_' :: b).filter fun c => decide (c ≠ '_')) = b.filter fun c => decide (c ≠ '_') := by simp
        rw [hf]
        refine and_congr_left fun _ => ?_
        unfold BodyFrom
        rw [infix_cons, List.getLast?_cons]
        constructor
        · rintro ⟨h1, h2, h3, h4⟩
          obtain ⟨hne, hh⟩ := h1 rfl
          refine ⟨by simp, ?_, ?_, ?_⟩
          · intro x hx
            rcases List.mem_cons.mp hx with rfl | hx
            · exact Or.inl rfl
            · exact h2 x hx
          · cases hl : b.getLast? with
            | none => exact absurd (List.getLast?_eq_none_iff.mp hl) hne
            | some y =>
              rw [hl] at h3
              simpa using h3
          · rintro (⟨-, h⟩ | h)
            · exact hh h
            · exact h4 h
        · rintro ⟨-, h2, h3, h4⟩
          have hne : b ≠ [] := by rintro rfl; simp at h3
          refine ⟨fun _ => ⟨hne, fun h => h4 (Or.inl ⟨rfl, h⟩)⟩, fun x hx => h2 x (by simp [hx]), ?_, fun h => h4 (Or.inr h)⟩
          cases hl : b.getLast? with
          | none => exact absurd (List.getLast?_eq_none_iff.mp hl) hne
          | some y =>
            rw [hl] at h3
            simpa using h3
    · rw [if_neg hc]
      by_cases hd : c ∈ hexDigitChars
      · rw [hexVal_digit c hd]
        simp only
        rw [ih]
        have hf : ((c :: b).filter fun c => decide (c ≠ '_')) = c :: b.filter fun c => decide (c ≠ '_') := by simp [hc]
        rw [hf, List.map_cons, List.foldl_cons]
        refine and_congr_left fun _ => ?_
        unfold BodyFrom
        rw [infix_cons, List.getLast?_cons]
        constructor
        · rintro ⟨-, h2, h3, h4⟩
          refine ⟨fun _ => ⟨by simp, by simpa using hc⟩, ?_, ?_, ?_⟩
          · intro x hx
            rcases List.mem_cons.mp hx with rfl | hx
            · exact Or.inr hd
            · exact h2 x hx
          · cases hl : b.getLast? with
            | none => simpa using hc
            | some y =>
              rw [hl] at h3
              simpa using h3
          · rintro (⟨h, -⟩ | h)
            · exact hc h
            · exact h4 h
        · rintro ⟨-, h2, h3, h4⟩
          refine ⟨by simp, fun x hx => h2 x (by simp [hx]), ?_, fun h => h4 (Or.inr h)⟩
          cases hl : b.getLast? with
          | none => simp
          | some y =>
            rw [hl] at h3
            simpa using h3
      · rw [hexVal_other c hd]
        simp only [reduceCtorEq, false_iff, not_and]
        intro h
        exfalso
        rcases h.2.1 c (by simp) with h' | h'
        · exact hc h'
        · exact hd h'

theorem digitsBody_iff (b : List Char) : DigitsBody b ↔ BodyFrom true b := by
  unfold DigitsBody BodyFrom
  constructor
  · rintro ⟨h1, h2, h3, h4, h5⟩
    exact ⟨fun _ => ⟨h1, h3⟩, h2, h4, h5⟩
  · rintro ⟨h1, h2, h4, h5⟩
    exact ⟨(h1 rfl).1, h2, (h1 rfl).2, h4, h5⟩

theorem digitsVal_iff (b : List Char) (n : Nat) : hexDigitsVal 0 true b = some n ↔
    DigitsBody b ∧ n = digitsValue ((b.filter fun c => decide (c ≠ '_')).map Char.toLower) := by
  rw [hexDigitsVal_iff, digitsBody_iff]
  rfl

theorem hexBody_iff (r : List Char) (n : Nat) : hexBody r = some n ↔
    ∃ pfx b, r = pfx ++ b ∧ pfx ∈ [[], ['0', 'x'], ['0', 'X'], ['0', 'x', '_'], ['0', 'X', '_']] ∧ DigitsBody b ∧
      n = digitsValue ((b.filter fun c => decide (c ≠ '_')).map Char.toLower) := by
  have hx : ∀ b : List Char, ('x' ∈ b ∨ 'X' ∈ b) → ¬ DigitsBody b := by
    rintro b (h | h) hb
    · rcases hb.2.1 _ h with h' | h'
      · exact absurd h' (by decide)
      · exact absurd h' (by decide)
    · rcases hb.2.1 _ h with h' | h'
      · exact absurd h' (by decide)
      · exact absurd h' (by decide)
  constructor
  · intro h
    unfold hexBody at h
    split at h
    · rename_i x rest
      split at h
      · rename_i hxx
        split at h
        · rename_i r
          obtain ⟨h1, h2⟩ := (digitsVal_iff _ _).mp h
          rcases hxx with rfl | rfl
          · exact ⟨['0', 'x', '_'], r, rfl, by simp, h1, h2⟩
          · exact ⟨['0', 'X', '_'], r, rfl, by simp, h1, h2⟩
        · obtain ⟨h1, h2⟩ := (digitsVal_iff _ _).mp h
          rcases hxx with rfl | rfl
          · exact ⟨['0', 'x'], rest, rfl, by simp, h1, h2⟩
          · exact ⟨['0', 'X'], rest, rfl, by simp, h1, h2⟩
      · obtain ⟨h1, h2⟩ := (digitsVal_iff _ _).mp h
        exact ⟨[], _, rfl, by simp, h1, h2⟩
    · obtain ⟨h1, h2⟩ := (digitsVal_iff _ _).mp h
      exact ⟨[], _, rfl, by simp, h1, h2⟩
  · rintro ⟨pfx, b, rfl, hp, hb, hn⟩
    have hv := (digitsVal_iff b n).mpr ⟨hb, hn⟩
    simp only [List.mem_cons, List.not_mem_nil, or_false] at hp
    rcases hp with rfl | rfl | rfl | rfl | rfl
    · rw [List.nil_append]
      unfold hexBody
      split
      · rename_i x rest
        rw [if_neg]
        · exact hv
        · rintro (rfl | rfl)
          · exact hx _ (Or.inl (by simp)) hb
          · exact hx _ (Or.inr (by simp)) hb
      · exact hv
    · simp only [List.cons_append, List.nil_append, hexBody, true_or, if_true]
      split
      · rename_i r
        exact absurd rfl (hb.2.2.1)
      · exact hv
    · simp only [List.cons_append, List.nil_append, hexBody, or_true, if_true]
      split
      · rename_i r
        exact absurd rfl (hb.2.2.1)
      · exact hv
    · simp only [List.cons_append, List.nil_append, hexBody, true_or, if_true]
      exact hv
    · simp only [List.cons_append, List.nil_append, hexBody, or_true, if_true]
      exact hv

theorem mem_takeWhile {sp : Char → Bool} {c : Char} {l : List Char} (h : c ∈ l.takeWhile sp) : sp c = true := by
  induction l with
  | nil => simp at h
  | cons d l ih =>
    rw [List.takeWhile_cons] at h
    split at h
    · rcases List.mem_cons.mp h with rfl | h
      · assumption
      · exact ih h
    · simp at h

theorem stripBy_parts (sp : Char → Bool) (s : List Char) : ∃ sp1 sp2, s = sp1 ++ stripBy sp s ++ sp2 ∧ ∀ c ∈ sp1 ++ sp2, sp c = true := by
  refine ⟨s.takeWhile sp, ((s.dropWhile sp).reverse.takeWhile sp).reverse, ?_, ?_⟩
  · unfold stripBy
    rw [List.append_assoc, ← List.reverse_append, List.takeWhile_append_dropWhile, List.reverse_reverse, List.takeWhile_append_dropWhile]
  · intro c hc
    rcases List.mem_append.mp hc with h | h
    · exact mem_takeWhile h
    · exact mem_takeWhile (List.mem_reverse.mp h)

theorem stripBy_of (sp : Char → Bool) (sp1 m sp2 : List Char) (h : ∀ c ∈ sp1 ++ sp2, sp c = true)
    (h1 : ∀ c, m.head? = some c → sp c = false) (h2 : ∀ c, m.getLast? = some c → sp c = false) (hne : m ≠ []) :
    stripBy sp (sp1 ++ m ++ sp2) = m := by
  have drop : ∀ (a b : List Char), (∀ c ∈ a, sp c = true) → (∀ c, b.head? = some c → sp c = false) → (a ++ b).dropWhile sp = b := by
    intro a b ha hb
    induction a with
    | nil =>
      cases b with
      | nil => rfl
      | cons c b => simp [hb c rfl]
    | cons c a ih =>
      rw [List.cons_append, List.dropWhile_cons_of_pos (ha c (by simp))]
      exact ih fun d hd => ha d (by simp [hd])
  unfold stripBy
  rw [List.append_assoc, drop sp1 (m ++ sp2) (fun c hc => h c (by simp [hc])), List.reverse_append,
    drop sp2.reverse m.reverse (fun c hc => h c (by simp [List.mem_reverse.mp hc])), List.reverse_reverse]
  · intro c hc
    rw [List.head?_reverse] at hc
    exact h2 c hc
  · intro c hc
    rw [List.head?_append_of_ne_nil _ hne] at hc
    exact h1 c hc

theorem isIntSpace_iff (c : Char) : isIntSpace c = true ↔ c ∈ [' ', '\t', '\n', '\r', Char.ofNat 11, Char.ofNat 12] := by
  unfold isIntSpace
  have h : ∀ n, n < 100 → (c.toNat = n ↔ c = Char.ofNat n) := by
    intro n hn
    constructor
    · intro h
      rw [← h, Char.ofNat_toNat]
    · intro h
      have : ∀ n : Fin 100, (Char.ofNat n.val).toNat = n.val := by decide
      rw [h, this ⟨n, hn⟩]
  simp [h 11 (by norm_num), h 12 (by norm_num)]

theorem coe_some {o : Option Nat} {f : Int → Int} {v : Int} (h : (do let a ← o; pure (a : Int) : Option Int).map f = some v) :
    ∃ n : Nat, o = some n ∧ f n = v := by
  cases o with
  | none => cases h
  | some n =>
    refine ⟨n, rfl, ?_⟩
    injection h

theorem pyInt16_iff (s : List Char) (v : Int) : pyInt16 s = some v ↔ HexLiteral s v := by
  constructor
  · intro h
    obtain ⟨sp1, sp2, hs, hsp⟩ := stripBy_parts isIntSpace s
    have hsp' : ∀ c ∈ sp1 ++ sp2, c ∈ [' ', '\t', '\n', '\r', Char.ofNat 11, Char.ofNat 12] := fun c hc => (isIntSpace_iff c).mp (hsp c hc)
    unfold pyInt16 at h
    obtain ⟨m, hm⟩ : ∃ m, m = stripBy isIntSpace s := ⟨_, rfl⟩
    rw [← hm] at h hs
    split at h
    · rename_i r
      obtain ⟨n, h1, h2⟩ := coe_some h
      obtain ⟨pfx, b, hr, hp, hb, hn⟩ := (hexBody_iff _ _).mp h1
      exact ⟨sp1, ['-'], pfx, b, sp2, by rw [hs, hr]; simp, hsp', by simp, hp, hb, by rw [← h2, hn]; simp⟩
    · rename_i r
      obtain ⟨n, h1, h2⟩ := coe_some h
      obtain ⟨pfx, b, hr, hp, hb, hn⟩ := (hexBody_iff _ _).mp h1
      exact ⟨sp1, ['+'], pfx, b, sp2, by rw [hs, hr]; simp, hsp', by simp, hp, hb, by rw [← h2, hn]; simp⟩
    · obtain ⟨n, h1, h2⟩ := coe_some h
      obtain ⟨pfx, b, hr, hp, hb, hn⟩ := (hexBody_iff _ _).mp h1
      exact ⟨sp1, [], pfx, b, sp2, by rw [hs, hr]; simp, hsp', by simp, hp, hb, by rw [← h2, hn]; simp⟩
  · rintro ⟨sp1, sign, pfx, b, sp2, rfl, hsp, hsign, hp, hb, hv⟩
    have hbody := (hexBody_iff (pfx ++ b) _).mpr ⟨pfx, b, rfl, hp, hb, rfl⟩
    have hchar : ∀ c, c = '_' ∨ c ∈ hexDigitChars → isIntSpace c = false := by
      rintro c (rfl | hc)
      · decide
      · have : ∀ c ∈ hexDigitChars, isIntSpace c = false := by decide
        exact this c hc
    have hmem : ∀ c ∈ pfx ++ b, isIntSpace c = false := by
      intro c hc
      rcases List.mem_append.mp hc with h | h
      · have : ∀ p ∈ [[], ['0', 'x'], ['0', 'X'], ['0', 'x', '_'], ['0', 'X', '_']], ∀ c ∈ p, isIntSpace c = false := by decide
        exact this pfx hp c h
      · exact hchar c (hb.2.1 c h)
    have hall : ∀ c ∈ sign ++ pfx ++ b, isIntSpace c = false := by
      intro c hc
      rw [List.append_assoc] at hc
      rcases List.mem_append.mp hc with h | h
      · have : ∀ p ∈ [[], ['+'], ['-']], ∀ c ∈ p, isIntSpace c = false := by decide
        exact this sign hsign c h
      · exact hmem c h
    have hstrip : stripBy isIntSpace (sp1 ++ (sign ++ pfx ++ b) ++ sp2) = sign ++ pfx ++ b :=
      stripBy_of isIntSpace sp1 _ sp2 (fun c hc => (isIntSpace_iff c).mpr (hsp c hc)) (fun c hc => hall c (List.mem_of_mem_head? hc))
        (fun c hc => hall c (List.mem_of_getLast? hc)) (by simp [hb.1])
    unfold pyInt16
    rw [hstrip]
    simp only [List.mem_cons, List.not_mem_nil, or_false] at hsign
    rcases hsign with rfl | rfl | rfl
    · rw [List.nil_append]
      have hhead : ∀ c ∈ pfx ++ b, c ≠ '-' ∧ c ≠ '+' := by
        intro c hc
        rcases List.mem_append.mp hc with h | h
        · have : ∀ p ∈ [[], ['0', 'x'], ['0', 'X'], ['0', 'x', '_'], ['0', 'X', '_']], ∀ c ∈ p, c ≠ '-' ∧ c ≠ '+' := by decide
          exact this pfx hp c h
        · rcases hb.2.1 c h with rfl | hc
          · decide
          · have : ∀ c ∈ hexDigitChars, c ≠ '-' ∧ c ≠ '+' := by decide
            exact this c hc
      split
      · rename_i r heq
        exact absurd rfl (hhead '-' (by rw [heq]; simp)).1
      · rename_i r heq
        exact absurd rfl (hhead '+' (by rw [heq]; simp)).2
      · rw [hbody, hv]
        simp
    · simp only [List.cons_append, List.nil_append]
      rw [hbody, hv]
      simp
    · simp only [List.cons_append, List.nil_append]
      rw [hbody, hv]
      simp

/-- **C23** `epoch2int` accepts exactly the texts of hexadecimal numbers (`HexLiteral`), with their values; all others raise
ValueError. -/
theorem C23_accepts (s : List Char) : (∀ v, epoch2int s = .ok v ↔ HexLiteral s v) ∧
    ((∀ v, ¬ HexLiteral s v) → epoch2int s = .error .valueError) := by
  unfold epoch2int
  constructor
  · intro v
    rw [← pyInt16_iff]
    cases pyInt16 s <;> simp
  · intro h
    cases hp : pyInt16 s with
    | none => rfl
    | some v => exact absurd ((pyInt16_iff s v).mp hp) (h v)

/-- Instance of C23: a name in upper case with sign, prefix and underscore. -/
example : HexLiteral [' ', '-', '0', 'x', 'B', '_', '7'] (-183) :=
  ⟨[' '], ['-'], ['0', 'x'], ['B', '_', '7'], [], rfl, by simp, by simp, by simp,
    ⟨by simp, by decide, by simp, by simp, by decide⟩, by decide⟩

end Fp
