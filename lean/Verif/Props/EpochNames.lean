import Verif.Lemmas.EpochNames

/-! # Properties of epoch names and directories of epochs: C23-C25 -/
namespace Fp
open Spec

/-! ## C23 -/

/-- **C23**: from number to name and back. -/
theorem C23_number_name_number (n : Nat) : epoch2int (int2epoch (n : Int)) = .ok (n : Int) := by
  rw [int2epoch_nat]
  unfold epoch2int
  rw [pyInt16_hexPad]

/-- **C23**: from canonical name to number and back; the number is the value of the digits. -/
theorem C23_name_number_name (s : List Char) (h : Canonical s) :
    epoch2int s = .ok (digitsValue s : Int) ∧ int2epoch (digitsValue s : Int) = s := by
  obtain ⟨hne, hc, h0⟩ := h
  obtain ⟨ds, h1, h2, h3⟩ := digits_of s hc
  have hdne : ds ≠ [] := by rintro rfl; exact hne h2.symm
  have hval : digitsValue s = ds.foldl (fun acc d => acc * 16 + d) 0 := h3 0
  have hlast : ds.reverse = [0] ∨ ds.reverse.getLast? ≠ some 0 := by
    by_cases hz : ds.head? = some 0
    · left
      have hs0 : s.head? = some '0' := by rw [← h2, List.head?_map, hz]; rfl
      have hs := h0 hs0
      have hl : ds.length = 1 := by rw [← List.length_map (f := hexChar), h2, hs]; rfl
      match ds, hl, hz with
      | [d], _, hz => simp at hz; simp [hz]
    · right
      rwa [List.getLast?_reverse]
  have hrec := (hexDigs_foldr_self ds.reverse (fun d hd => h1 d (List.mem_reverse.mp hd)) (by simpa using hdne) hlast).1
  rw [List.foldr_reverse] at hrec
  constructor
  · unfold epoch2int
    rw [← h2, pyInt16_digs ds h1 hdne, h2, hval]
  · rw [int2epoch_nat, hexPad_eq, padDigs, hval, hrec]
    simp [h2]

/-- **C23**: the name of every non-negative epoch is canonical. -/
theorem C23_names_canonical (n : Nat) : Canonical (int2epoch (n : Int)) := by
  rw [int2epoch_nat, hexPad_eq]
  refine ⟨by simp [padDigs_ne], ?_, ?_⟩
  · intro c hc
    obtain ⟨d, hd, rfl⟩ := List.mem_map.mp hc
    have key : ∀ d : Fin 16, hexChar d.val ∈ ['0', '1', '2', '3', '4', '5', '6', '7', '8', '9', 'a', 'b', 'c', 'd', 'e', 'f'] := by
      decide
    exact key ⟨d, padDigs_lt 0 n d hd⟩
  · have hp : padDigs 0 n = (hexDigs n).reverse := by simp [padDigs]
    rw [hp, List.head?_map, List.head?_reverse]
    intro h
    rcases hexDigs_last n with h1 | h1
    · rw [h1]; rfl
    · exfalso
      obtain ⟨d, hd, hd0⟩ := Option.map_eq_some_iff.mp h
      have hlt := hexDigs_lt n d (List.mem_of_getLast? hd)
      have key : ∀ d : Fin 16, hexChar d.val = '0' → d.val = 0 := by decide
      have := key ⟨d, hlt⟩ hd0
      simp only at this
      rw [this] at hd
      exact h1 hd

/-- **C23**: a name that is accepted but not canonical (upper case, leading zeros, `0x`, white space, underscores) is
changed by the round trip. -/
theorem C23_not_preserved (s : List Char) (n : Nat) (h : epoch2int s = .ok (n : Int)) :
    int2epoch (n : Int) = s ↔ Canonical s := by
  constructor
  · intro hs; rw [← hs]; exact C23_names_canonical n
  · intro hc
    obtain ⟨h1, h2⟩ := C23_name_number_name s hc
    rw [h1] at h
    have : (digitsValue s : Int) = (n : Int) := by injection h
    rw [← this, h2]

/-- Different epochs have different names. -/
theorem C23_names_distinct (m n : Nat) (h : int2epoch (m : Int) = int2epoch (n : Int)) : m = n := by
  have h1 := C23_number_name_number m
  rw [h, C23_number_name_number n] at h1
  have : (n : Int) = (m : Int) := by injection h1
  omega

/-- Outside the domain of C23: the name of a negative epoch cannot be read back. -/
theorem C23_negative (n : Nat) (hn : 0 < n) : epoch2int (int2epoch (-(n : Int))) = .error .valueError := by
  have e1 : int2epoch (-(n : Int)) = 'x' :: hexPad 0 n := by
    unfold int2epoch hexPad
    rw [if_neg (by omega)]
    simp
  have hsp : ∀ c ∈ 'x' :: hexPad 0 n, isSpace c = false := by
    intro c hc
    rcases List.mem_cons.mp hc with rfl | hc
    · decide
    · exact (Line_hexPad 0 n).2 c hc
  have hv : hexVal 'x' = none := by decide
  unfold epoch2int
  rw [e1]
  unfold pyInt16
  rw [stripBy_eq_self _ _ fun c hc => isIntSpace_of c (hsp c hc)]
  have hb : hexBody ('x' :: hexPad 0 n) = none := by
    unfold hexBody
    split
    · rename_i heq; simp at heq
    · rw [hexDigitsVal, if_neg (by decide), hv]
  simp [hb]

/-- `date2epoch` pads names to eight digits, `int2epoch` does not: the two agree exactly from epoch 2^28 on. -/
theorem C23_padding (n : Nat) (h : n < 2 ^ 32) : hexPad 8 n = int2epoch (n : Int) ↔ 2 ^ 28 ≤ n := by
  rw [int2epoch_nat]
  have hl8 := hexPad_length 8 n (by norm_num) (by norm_num; omega)
  constructor
  · intro he
    by_contra hc
    have h7 : (hexDigs n).length ≤ 7 := hexDigs_length 7 n (by norm_num) (by norm_num; omega)
    rw [he, hexPad_eq, List.length_map, padDigs] at hl8
    simp at hl8
    omega
  · intro hge
    have h8 : (hexDigs n).length = 8 := by
      have hle : (hexDigs n).length ≤ 8 := hexDigs_length 8 n (by norm_num) (by norm_num; omega)
      by_contra hc
      have hlt : (hexDigs n).length ≤ 7 := by omega
      have hv := hexDigs_foldr n
      have bound : ∀ l : List Nat, (∀ d ∈ l, d < 16) → l.foldr (fun d acc => acc * 16 + d) 0 < 16 ^ l.length := by
        intro l
        induction l with
        | nil => simp
        | cons d l ih =>
          intro hd
          have := ih (fun d h => hd d (by simp [h]))
          have h0 := hd d (by simp)
          rw [List.foldr_cons, List.length_cons, Nat.pow_succ]
          omega
      have hb := bound _ (hexDigs_lt n)
      rw [hv] at hb
      have : 16 ^ (hexDigs n).length ≤ 16 ^ 7 := Nat.pow_le_pow_right (by norm_num) hlt
      norm_num at this
      omega
    rw [hexPad_eq, hexPad_eq, padDigs, padDigs, h8]

/-- Instances of C23: a canonical name; an accepted name that is not canonical. -/
example : Canonical ['b', '7', 'f', '0'] ∧ epoch2int ['0', 'A'] = .ok 10 ∧ int2epoch 10 = ['a'] := by
  refine ⟨⟨by simp, by decide, by simp⟩, by decide +kernel, ?_⟩
  simp [int2epoch, hexOf, hexRev, hexChar]

/-! ## C24 -/

/-- **C24**: nothing in common: `None` and 0. -/
theorem C24_no_overlap (names1 names2 : List (List Char)) (e1 e2 : List Int) (h1 : EpochsOf names1 e1) (h2 : EpochsOf names2 e2)
    (first : Option (List Char)) (f : Option Int) (hf : first.map epoch2int = f.map Except.ok) (h : ∀ v, ¬ Common e1 e2 f v) :
    Returns (fun fuel => getFirstOverlappingEpoch fuel names1 names2 first) (.ok (none, 0)) := by
  refine ⟨0, fun fuel _ => ?_⟩
  obtain ⟨es, he, hr⟩ := overlap_eval names1 names2 e1 e2 h1 h2 first f hf fuel
  have : es = [] := List.eq_nil_iff_forall_not_mem.mpr fun v hv => h v ((he v).mp hv)
  subst this
  exact hr

/-- **C24**: the least common epoch `m` and the exact length `n` of the run of common epochs starting there. -/
theorem C24_first_overlap (names1 names2 : List (List Char)) (e1 e2 : List Int) (h1 : EpochsOf names1 e1) (h2 : EpochsOf names2 e2)
    (first : Option (List Char)) (f : Option Int) (hf : first.map epoch2int = f.map Except.ok) (m : Int) (n : Nat)
    (hm : IsLeast {v | Common e1 e2 f v} m) (hrun : ∀ i : Nat, i < n → Common e1 e2 f (m + (i : Int)))
    (hend : ¬ Common e1 e2 f (m + (n : Int))) :
    Returns (fun fuel => getFirstOverlappingEpoch fuel names1 names2 first) (.ok (some (int2epoch m), n)) := by
  have hn : 1 ≤ n := by
    by_contra hc
    have : n = 0 := by omega
    subst this
    exact hend (by simpa using hm.1)
  refine ⟨n + 1, fun fuel hfu => ?_⟩
  obtain ⟨es, he, hr⟩ := overlap_eval names1 names2 e1 e2 h1 h2 first f hf fuel
  simp only
  rw [hr]
  cases es with
  | nil => exact absurd ((he m).mpr hm.1) (by simp)
  | cons v vs =>
    obtain ⟨g1, g2⟩ := foldl_min_mem vs v
    have hmin : vs.foldl min v = m :=
      le_antisymm (g2 m ((he m).mpr hm.1)) (hm.2 ((he _).mp g1))
    simp only
    rw [hmin, contiguous_run (v :: vs) m n (fun i hi => (he _).mpr (hrun i hi)) (fun hc => hend ((he _).mp hc)) 1 fuel hn (by omega)]
    rfl

/-- **C24**: the two cases above are exhaustive, so the function always returns. -/
theorem C24_exhaustive (e1 e2 : List Int) (f : Option Int) :
    (∀ v, ¬ Common e1 e2 f v) ∨ ∃ (m : Int) (n : Nat), IsLeast {v | Common e1 e2 f v} m ∧
      (∀ i : Nat, i < n → Common e1 e2 f (m + (i : Int))) ∧ ¬ Common e1 e2 f (m + (n : Int)) := by
  classical
  by_cases h : ∀ v, ¬ Common e1 e2 f v
  · exact Or.inl h
  · right
    push Not at h
    obtain ⟨v, hv⟩ := h
    let es := e1.filter (fun v => decide (Common e1 e2 f v))
    have hes : ∀ v, v ∈ es ↔ Common e1 e2 f v := by
      intro v
      simp only [es, List.mem_filter, decide_eq_true_eq]
      exact ⟨fun h => h.2, fun h => ⟨h.1, h⟩⟩
    have hmem := (hes v).mpr hv
    generalize es = es at hes hmem
    cases es with
    | nil => simp at hmem
    | cons w ws =>
      obtain ⟨g1, g2⟩ := foldl_min_mem ws w
      generalize ws.foldl min w = m at g1 g2
      have hex : ∃ n : Nat, ¬ Common e1 e2 f (m + (n : Int)) := by
        by_contra hc
        push Not at hc
        have hinf : (Set.univ : Set Nat).Finite := by
          apply Set.Finite.of_finite_image (f := fun n : Nat => m + (n : Int))
          · exact (List.finite_toSet (w :: ws)).subset (by
              rintro _ ⟨n, _, rfl⟩
              exact (hes _).mpr (hc n))
          · intro a _ b _ hab
            simpa using hab
        exact Set.infinite_univ hinf
      refine ⟨m, Nat.find hex, ⟨(hes m).mp g1, fun x hx => g2 x ((hes x).mpr hx)⟩, fun i hi => ?_, Nat.find_spec hex⟩
      exact not_not.mp (Nat.find_min hex hi)

/-- A directory entry whose name is not a hexadecimal number makes the search fail. -/
theorem C24_foreign_file (names1 names2 : List (List Char)) (first : Option (List Char)) (s : List Char) (hs : s ∈ names1)
    (hbad : pyInt16 s = none) (fuel : Nat) :
    getFirstOverlappingEpoch fuel names1 names2 first = some (.error .valueError) := by
  have key : names1.mapM epoch2int = .error .valueError := by
    induction names1 with
    | nil => simp at hs
    | cons n names ih =>
      rw [List.mapM_cons]
      by_cases hn : pyInt16 n = none
      · have : epoch2int n = .error .valueError := by unfold epoch2int; rw [hn]
        rw [this]; rfl
      · obtain ⟨v, hv⟩ := Option.ne_none_iff_exists'.mp hn
        have : epoch2int n = .ok v := by unfold epoch2int; rw [hv]
        have hs' : s ∈ names := by
          rcases List.mem_cons.mp hs with rfl | h
          · exact absurd hbad hn
          · exact h
        rw [this, ih hs']
        rfl
  unfold getFirstOverlappingEpoch
  rw [key]

/-- Instance of C24: epochs 9, 10, 11 and 13 common, starting from 10; one name is not canonical. -/
example : EpochsOf [['9'], ['a'], ['b'], ['d']] [9, 10, 11, 13] ∧ EpochsOf [['d'], ['b'], ['0', 'A'], ['c'], ['9']] [13, 11, 10, 12, 9] ∧
    IsLeast {v | Common [9, 10, 11, 13] [13, 11, 10, 12, 9] (some 10) v} 10 ∧
    (∀ i : Nat, i < 2 → Common [9, 10, 11, 13] [13, 11, 10, 12, 9] (some 10) (10 + (i : Int))) ∧
    ¬ Common [9, 10, 11, 13] [13, 11, 10, 12, 9] (some 10) (10 + ((2 : Nat) : Int)) := by
  refine ⟨by unfold EpochsOf; decide +kernel, by unfold EpochsOf; decide +kernel,
    ⟨by simp [Common], by rintro x ⟨_, _, h⟩; exact h 10 rfl⟩, ?_, by simp [Common]⟩
  intro i hi
  have : i = 0 ∨ i = 1 := by omega
  rcases this with rfl | rfl <;> simp [Common]

/-! ## C25 -/

/-- What one epoch contributes: the reader's result with default options. -/
def Spec.EpochTimes (dir : List Char → Option Bytes) (isT1 : Bool) (e : Int) (ts : List ENum) : Prop :=
  ∃ file evs, dir (int2epoch e) = some file ∧
    Returns (fun fuel => if isT1 then readT1 fuel false .ns1 true file else readT2 fuel false .ns1 true file) (.ok evs) ∧
    ts = evs.map Prod.fst

/-- **C25**: the concatenation of the selected epochs, in order. -/
theorem C25_concatenation (dir : List Char → Option Bytes) (isT1 : Bool) (first : List Char) (f skip : Int) (num : Nat)
    (hf : epoch2int first = .ok f) (ts : Nat → List ENum) (h : ∀ i < num, EpochTimes dir isT1 (f + skip + (i : Int)) (ts i)) :
    Returns (fun fuel => getTimestamp fuel dir isT1 first skip num) (.ok ((List.range num).flatMap ts)) := by
  induction num with
  | zero => exact ⟨0, fun _ _ => rfl⟩
  | succ num ih =>
    obtain ⟨N1, h1⟩ := ih (fun i hi => h i (by omega))
    obtain ⟨file, evs, g1, ⟨N2, g2⟩, g3⟩ := h num (by omega)
    refine ⟨max N1 N2, fun fuel hfuel => ?_⟩
    have a1 := h1 fuel (le_trans (le_max_left _ _) hfuel)
    have a2 := g2 fuel (le_trans (le_max_right _ _) hfuel)
    unfold getTimestamp at a1 ⊢
    simp only at a1 a2 ⊢
    rw [List.range_succ, List.foldl_append, a1]
    simp only [List.foldl_cons, List.foldl_nil, hf, g1]
    rw [a2]
    simp [g3]

/-- **C25**: a missing epoch raises `FileNotFoundError`. -/
theorem C25_missing (dir : List Char → Option Bytes) (isT1 : Bool) (first : List Char) (f skip : Int) (num k : Nat)
    (hf : epoch2int first = .ok f) (ts : Nat → List ENum) (h : ∀ i < k, EpochTimes dir isT1 (f + skip + (i : Int)) (ts i))
    (hk : k < num) (hm : dir (int2epoch (f + skip + (k : Int))) = none) :
    Returns (fun fuel => getTimestamp fuel dir isT1 first skip num) (.error .fileNotFound) := by
  obtain ⟨N, h1⟩ := C25_concatenation dir isT1 first f skip k hf ts h
  refine ⟨N, fun fuel hfuel => ?_⟩
  have a1 := h1 fuel hfuel
  obtain ⟨d, rfl⟩ : ∃ d, num = k + (d + 1) := ⟨num - k - 1, by omega⟩
  unfold getTimestamp at a1 ⊢
  simp only at a1 ⊢
  rw [List.range_add, List.foldl_append, a1, List.range_succ_eq_map]
  simp only [List.map_cons, List.foldl_cons, Nat.add_zero, hf, hm]
  generalize List.map (fun x => k + x) (List.map Nat.succ (List.range d)) = l
  induction l with
  | nil => rfl
  | cons x l ih => exact ih

/-- **C25**: sorted epochs within one block of 2^17 epochs give a sorted result. -/
theorem C25_sorted (dir : List Char → Option Bytes) (isT1 : Bool) (first : List Char) (f skip : Int) (num : Nat)
    (hf : epoch2int first = .ok f) (ts : Nat → List ENum) (h : ∀ i < num, EpochTimes dir isT1 (f + skip + (i : Int)) (ts i))
    (hs : ∀ i < num, (ts i).Pairwise (fun a b => a.val ≤ b.val))
    (hin : ∀ i < num, ∀ x ∈ ts i, InEpoch (f + skip + (i : Int)) x.val)
    (hblock : ∀ i < num, (f + skip + (i : Int)) / 2 ^ 17 = (f + skip) / 2 ^ 17) :
    ∃ out, Returns (fun fuel => getTimestamp fuel dir isT1 first skip num) (.ok out) ∧ out.Pairwise (fun a b => a.val ≤ b.val) := by
  refine ⟨_, C25_concatenation dir isT1 first f skip num hf ts h, ?_⟩
  rw [List.pairwise_flatMap]
  refine ⟨fun i hi => hs i (List.mem_range.mp hi), ?_⟩
  apply List.Pairwise.imp_of_mem (R := fun i j : Nat => i < j)
  · intro i j hi hj hij x hx y hy
    have hi := List.mem_range.mp hi
    have hj := List.mem_range.mp hj
    have h1 := (hin i hi x hx).2
    have h2 := (hin j hj y hy).1
    have h3 := hblock i hi
    have h4 := hblock j hj
    have h5 : (f + skip + (i : Int)) % 2 ^ 17 + 1 ≤ (f + skip + (j : Int)) % 2 ^ 17 := by omega
    have h6 : (((f + skip + (i : Int)) % 2 ^ 17 : Int) : ℚ) + 1 ≤ (((f + skip + (j : Int)) % 2 ^ 17 : Int) : ℚ) := by
      exact_mod_cast h5
    have h7 := mul_le_mul_of_nonneg_right h6 (by norm_num : (0 : ℚ) ≤ 2 ^ 29)
    exact le_of_lt (lt_of_lt_of_le h1 (h7.trans h2))
  · exact List.pairwise_lt_range

/-- **C25**, limit of the claim: a selection that crosses a multiple of 2^17 epochs is *not* sorted (if the epochs before and
after are not empty). -/
theorem C25_wrap (dir : List Char → Option Bytes) (isT1 : Bool) (first : List Char) (f skip : Int) (num : Nat)
    (hf : epoch2int first = .ok f) (ts : Nat → List ENum) (h : ∀ i < num, EpochTimes dir isT1 (f + skip + (i : Int)) (ts i))
    (hin : ∀ i < num, ∀ x ∈ ts i, InEpoch (f + skip + (i : Int)) x.val) (k : Nat) (hk : k + 1 < num)
    (hne1 : ts k ≠ []) (hne2 : ts (k + 1) ≠ []) (hcross : (f + skip + (k : Int) + 1) % 2 ^ 17 = 0) :
    ∃ out, Returns (fun fuel => getTimestamp fuel dir isT1 first skip num) (.ok out) ∧ ¬ out.Pairwise (fun a b => a.val ≤ b.val) := by
  refine ⟨_, C25_concatenation dir isT1 first f skip num hf ts h, ?_⟩
  rw [List.pairwise_flatMap]
  rintro ⟨_, hp⟩
  obtain ⟨x, hx⟩ := List.exists_mem_of_ne_nil _ hne1
  obtain ⟨y, hy⟩ := List.exists_mem_of_ne_nil _ hne2
  have hle := List.pairwise_iff_getElem.mp hp k (k + 1) (by simp; omega) (by simp; omega) (by omega) x (by simpa using hx) y (by simpa using hy)
  have h1 := (hin k (by omega) x hx).1
  have h2 := (hin (k + 1) hk y hy).2
  have e1 : (f + skip + ((k : Nat) : Int)) % 2 ^ 17 = 2 ^ 17 - 1 := by omega
  have e2 : (f + skip + ((k + 1 : Nat) : Int)) % 2 ^ 17 = 0 := by push_cast; omega
  rw [e1] at h1
  rw [e2] at h2
  norm_num at h1 h2
  linarith

/-- **C25** applies to written T1 files: reading one gives its times in order, inside its epoch. -/
theorem C25_t1_files (dir : List Char → Option Bytes) (e : Nat) (he : e < 2 ^ 32) (evs : List (Nat × Nat))
    (hv : ∀ x ∈ evs, T1Valid x) (hlen : evs.length < 2 ^ 32) (hz : ∀ x ∈ evs, ¬ ZeroEvent e x)
    (hsorted : evs.Pairwise (fun a b => a.1 ≤ b.1)) (hdir : dir (int2epoch (e : Int)) = some (t1File e evs)) :
    ∃ ts, EpochTimes dir true (e : Int) ts ∧ ts.length = evs.length ∧ ts.Pairwise (fun a b => a.val ≤ b.val) ∧
      ∀ x ∈ ts, InEpoch (e : Int) x.val := by
  have he' : (((e : Nat) : Int) % 2 ^ 32).toNat = e := by omega
  obtain ⟨name, file, hw, hr⟩ := C14_t1_roundtrip_partial (e : Int) evs hv hlen (by rw [he']; exact hz) .ns1 true
  have hfile := C14_t1_file (e : Int) evs hv hlen
  rw [hw, he'] at hfile
  have hfile' : file = t1File e evs := by
    simp only [Except.ok.injEq, Prod.mk.injEq] at hfile
    exact hfile.2.1
  rw [hfile', he'] at hr
  refine ⟨_, ⟨t1File e evs, _, hdir, hr, rfl⟩, by simp, ?_, ?_⟩
  · rw [List.map_map, List.pairwise_map]
    refine hsorted.imp ?_
    intro a b hab
    simp only [Function.comp, eValue, if_true, ENum.val, timeIn, Tsres.value, t1Time]
    have h1 : ((e % 2 ^ 17 * 2 ^ 37 + a.1 : Nat) : ℚ) ≤ ((e % 2 ^ 17 * 2 ^ 37 + b.1 : Nat) : ℚ) :=
      Nat.cast_le.mpr (by omega)
    generalize ((e % 2 ^ 17 * 2 ^ 37 + a.1 : Nat) : ℚ) = u at h1 ⊢
    generalize ((e % 2 ^ 17 * 2 ^ 37 + b.1 : Nat) : ℚ) = v at h1 ⊢
    have : u * ((1 : Nat) : ℚ) ≤ v * ((1 : Nat) : ℚ) := by simpa using h1
    linarith
  · intro x hx
    rw [List.map_map] at hx
    obtain ⟨ev, hev, rfl⟩ := List.mem_map.mp hx
    have ht : ev.1 < 2 ^ 37 := (hv ev hev).1
    simp only [Function.comp, eValue, if_true, ENum.val, timeIn, Tsres.value, t1Time, InEpoch]
    have e1 : (((e : Nat) : Int) % 2 ^ 17 : Int) = ((e % 2 ^ 17 : Nat) : Int) := by omega
    rw [e1, Int.cast_natCast]
    generalize e % 2 ^ 17 = m
    have ht0 : (0 : ℚ) ≤ (ev.1 : ℚ) := Nat.cast_nonneg _
    have ht1 : (ev.1 : ℚ) < 2 ^ 37 := by
      have h3 : ((ev.1 : Nat) : ℚ) < ((2 ^ 37 : Nat) : ℚ) := Nat.cast_lt.mpr ht
      rwa [Nat.cast_pow, Nat.cast_ofNat] at h3
    rw [Nat.cast_add, Nat.cast_mul, Nat.cast_pow, Nat.cast_ofNat]
    generalize (ev.1 : ℚ) = t at ht0 ht1 ⊢
    constructor <;> norm_num at ht1 ⊢ <;> linarith

/-- The hypotheses of C25 are satisfiable: events of a T1 file of epoch 2^17 - 1, the last one before a wrap. -/
example : (∀ x ∈ [((5 : Nat), (1 : Nat)), (7, 2)], T1Valid x) ∧ (∀ x ∈ [((5 : Nat), (1 : Nat)), (7, 2)], ¬ ZeroEvent (2 ^ 17 - 1) x) ∧
    ([((5 : Nat), (1 : Nat)), (7, 2)].Pairwise fun a b => a.1 ≤ b.1) ∧ (((2 : Int) ^ 17 - 1) + 0 + ((0 : Nat) : Int) + 1) % 2 ^ 17 = 0 := by
  refine ⟨?_, ?_, ?_, by norm_num⟩ <;> simp [T1Valid, ZeroEvent]

end Fp
