import Verif.Lemmas.FreqcdMain

/-! # Properties of the options of `freqcd`: C52, C53, C54, and C46 for the command line -/
namespace Fp
open Spec

/-! ## C53 -/

/-- **C53**, grouping: two ways to write the same options have the same effect, also when one of them is an error. -/
theorem C53_grouping (prog : Bytes) (os : List Item) (args args' : List Bytes) (h : Written os args) (h' : Written os args') :
    ∃ r, Ends (prog :: args) r ∧ Ends (prog :: args') r := ⟨_, ends_of_loop h, ends_of_loop h'⟩

/-- **C53**, meaning of the options: the last -i, -o, -F and -f count, and whether there is an -x or a -d. -/
theorem C53_meaning (prog : Bytes) (os : List Item) (args : List Bytes) (h : Written os args) (hs : Sound os) (n : Int)
    (hn : match lastArg 102 os with | none => n = 0 | some v => Numeral v n) :
    Ends (prog :: args)
      (let f : BitVec 32 := if Item.flag 100 ∈ os then decimalCorr (BitVec.ofInt 32 n) else BitVec.ofInt 32 n
       if |f.toInt| < 2 ^ 21 ∨ f.toInt = -2 ^ 31 then
         .ok { fcorr := f, legacy := decide (Item.flag 120 ∈ os), infile := (lastArg 105 os).getD [], outfile := (lastArg 111 os).getD [],
               freqfile := (lastArg 70 os).getD [] }
       else .error (.error 5)) := by
  obtain ⟨o, ho, ha⟩ := after_fold [] os hs opts0 after_nil
  rw [List.nil_append] at ha
  have he := ends_of_loop (prog := prog) h
  rw [ho] at he
  have hfin : (Except.ok o : Except Exit Opts).bind finish = finish o := rfl
  rw [hfin] at he
  have hf := ha.af n hn
  convert he using 1
  unfold finish
  simp only [ha.ad, hf, decide_eq_true_eq]
  generalize (if Item.flag 100 ∈ os then decimalCorr (BitVec.ofInt 32 n) else BitVec.ofInt 32 n) = f
  have hc := cabs_slt f fcorrMax (by decide)
  rw [show fcorrMax.toInt = 2 ^ 21 by decide] at hc
  by_cases hx : (cabs f).slt fcorrMax = true
  · rw [if_pos hx, if_pos ((hc.mp hx).symm), ha.ax, ha.ai.2, ha.ao.2, ha.aF.2]
  · rw [if_neg hx, if_neg (fun hq => hx (hc.mpr hq.symm))]

/-- **C53**, order: the order of options does not matter, except among those with the same letter. -/
theorem C53_order (prog : Bytes) (os os' : List Item) (args args' : List Bytes) (h : Written os args) (h' : Written os' args')
    (hs : Sound os) (hs' : Sound os') (hlast : ∀ c, lastArg c os = lastArg c os') (hx : ∀ c, Item.flag c ∈ os ↔ Item.flag c ∈ os') :
    ∃ r, Ends (prog :: args) r ∧ Ends (prog :: args') r := by
  have hn : ∃ n : Int, match lastArg 102 os with | none => n = 0 | some v => Numeral v n := by
    have key : ∀ os : List Item, Sound os → ∃ n : Int, match lastArg 102 os with | none => n = 0 | some v => Numeral v n := by
      intro os
      induction os with
      | nil => intro _; exact ⟨0, rfl⟩
      | cons it os ih =>
        intro hs
        obtain ⟨n, hn⟩ := ih (fun y hy => hs y (by simp [hy]))
        cases it with
        | flag c => exact ⟨n, hn⟩
        | arg c v =>
          simp only [lastArg]
          cases hl : lastArg 102 os with
          | some w => rw [hl] at hn; exact ⟨n, hn⟩
          | none =>
            rw [hl] at hn
            by_cases hc : c = 102
            · rcases hs (.arg c v) (by simp) with ⟨hq, -⟩ | ⟨-, m, hm, -⟩
              · rw [hc] at hq; exact absurd hq (by decide)
              · refine ⟨m, ?_⟩
                rw [if_pos hc]; exact hm
            · refine ⟨0, ?_⟩
              rw [if_neg hc]; rfl
    exact key os hs
  obtain ⟨n, hn⟩ := hn
  have e1 := C53_meaning prog os args h hs n hn
  rw [hlast] at hn
  have e2 := C53_meaning prog os' args' h' hs' n hn
  refine ⟨_, e1, ?_⟩
  simp only [hlast, hx]
  exact e2

/-- "-df 5 -x" and "-x -f 7 -d -f5" -/
example : Written [.flag 100, .arg 102 [53], .flag 120] [[45, 100, 102], [53], [45, 120]] ∧
    Written [.flag 120, .arg 102 [55], .flag 100, .arg 102 [53]] [[45, 120], [45, 102], [55], [45, 100, 102, 53]] ∧
    Sound [.flag 100, .arg 102 [53], .flag 120] ∧ Sound [.flag 120, .arg 102 [55], .flag 100, .arg 102 [53]] ∧
    mainOpts 10 [[], [45, 100, 102], [53], [45, 120]] = mainOpts 10 [[], [45, 120], [45, 102], [55], [45, 100, 102, 53]] := by
  have n5 : Numeral [53] 5 := ⟨[], [], [53], rfl, by simp, by simp, by decide, Or.inl ⟨rfl, by decide⟩⟩
  have n7 : Numeral [55] 7 := ⟨[], [], [55], rfl, by simp, by simp, by decide, Or.inl ⟨rfl, by decide⟩⟩
  refine ⟨?_, ?_, ?_, ?_, rfl⟩
  · exact Written.separate [100] 102 [53] [.flag 120] _ (by simp [FlagLetter]) (by simp [ArgLetter]) (Written.flags [120] [] [] (by simp) (by simp [FlagLetter]) Written.nil)
  · exact Written.flags [120] _ _ (by simp) (by simp [FlagLetter]) (Written.separate [] 102 [55] _ _ (by simp) (by simp [ArgLetter])
      (Written.attached [100] 102 [53] [] [] (by simp [FlagLetter]) (by simp [ArgLetter]) (by simp) Written.nil))
  · intro it hit
    simp only [List.mem_cons, List.not_mem_nil, or_false] at hit
    rcases hit with rfl | rfl | rfl
    · exact Or.inr rfl
    · exact Or.inr ⟨rfl, 5, n5, by norm_num⟩
    · exact Or.inl rfl
  · intro it hit
    simp only [List.mem_cons, List.not_mem_nil, or_false] at hit
    rcases hit with rfl | rfl | rfl | rfl
    · exact Or.inl rfl
    · exact Or.inr ⟨rfl, 7, n7, by norm_num⟩
    · exact Or.inr rfl
    · exact Or.inr ⟨rfl, 5, n5, by norm_num⟩

/-- A string without a number at its beginning is refused by `strtol`. -/
theorem strtol_none (v : Bytes) (h : ∀ p q n, v = p ++ q → ¬ Numeral p n) : strtol v = none := by
  by_contra hc
  have key : ∀ (sign t : Bytes) (neg : Bool), v.dropWhile isCSpace = sign ++ t →
      (sign = [] ∧ neg = false ∨ sign = [43] ∧ neg = false ∨ sign = [45] ∧ neg = true) → t.takeWhile isCDigit = [] := by
    intro sign t neg e hsign
    by_contra hne
    have hv : v = (v.takeWhile isCSpace ++ sign ++ t.takeWhile isCDigit) ++ t.dropWhile isCDigit := by
      rw [List.append_assoc, List.append_assoc, List.takeWhile_append_dropWhile, ← e, List.takeWhile_append_dropWhile]
    refine h _ _ (if neg then -(t.takeWhile isCDigit).foldl (fun (n : Int) c => 10 * n + (c.toNat - 48 : Nat)) 0
      else (t.takeWhile isCDigit).foldl (fun (n : Int) c => 10 * n + (c.toNat - 48 : Nat)) 0) hv
      ⟨v.takeWhile isCSpace, sign, t.takeWhile isCDigit, rfl, ?_, hne, ?_, ?_⟩
    · intro c hc
      exact (isCSpace_iff c).mp (List.mem_takeWhile_imp hc)
    · intro c hc
      have := List.mem_takeWhile_imp hc
      simpa [isCDigit] using this
    · rcases hsign with ⟨rfl, rfl⟩ | ⟨rfl, rfl⟩ | ⟨rfl, rfl⟩ <;> simp
  apply hc
  unfold strtol
  simp only
  rcases hd : v.dropWhile isCSpace with _ | ⟨x, t⟩
  · simp
  · by_cases h1 : x = 45
    · subst h1
      simp only
      rw [if_pos (key [45] t true hd (by simp))]
    · by_cases h2 : x = 43
      · subst h2
        simp only
        rw [if_pos (key [43] t false hd (by simp))]
      · split
        · rename_i h3; exact absurd (List.cons.inj h3).1 h1
        · rename_i h3; exact absurd (List.cons.inj h3).1 h2
        · exact if_pos (key [] (x :: t) false hd (by simp))

/-- **C53**, errors: the first option that cannot be processed decides, whatever comes before (as far as it can be processed) and
after it. -/
theorem C53_first_error (prog : Bytes) (os rest : List Item) (it : Item) (e : Exit) (args : List Bytes) (h : Written (os ++ it :: rest) args)
    (hs : Sound os) (hf : Fails it e) : Ends (prog :: args) (.error e) := by
  obtain ⟨o, ho, -⟩ := after_fold [] os hs opts0 after_nil
  have he := ends_of_loop (prog := prog) h
  rw [List.foldlM_append, ho] at he
  have hb : ∀ code buf, ∀ v : Bytes, (∀ x ∈ v, x = 32 ∨ (9 ≤ x ∧ x ≤ 13)) → scanName code v buf = .error (.error code) := by
    intro code buf v hv
    have hd : v.dropWhile isCSpace = [] := List.dropWhile_eq_nil_iff.mpr fun x hx => (isCSpace_iff x).mpr (hv x hx)
    unfold scanName
    rw [hd]
    rfl
  have hi : itemOpt o it = .error e := by
    cases it with
    | flag c =>
      obtain ⟨rfl, rfl⟩ := hf
      rfl
    | arg c v =>
      rcases hf with ⟨rfl, hv, rfl⟩ | ⟨hv, ⟨rfl, rfl⟩ | ⟨rfl, rfl⟩ | ⟨rfl, rfl⟩⟩
      · show (scanInt v).map _ = _
        unfold scanInt
        rw [strtol_none v hv]
        rfl
      · show (scanName 2 v o.infilename).map _ = _
        rw [hb 2 _ v hv]; rfl
      · show (scanName 8 v o.outfilename).map _ = _
        rw [hb 8 _ v hv]; rfl
      · show (scanName 10 v o.freqfilename).map _ = _
        rw [hb 10 _ v hv]; rfl
  have he' : (do let x ← (Except.ok o : Except Exit Opts); List.foldlM itemOpt x (it :: rest)) = .error e := foldl_cons_error o e it rest hi
  rw [he'] at he
  exact he

/-- "-x -f nan -h" ends with error 4. -/
example : Written ([.flag 120] ++ Item.arg 102 [110, 97, 110] :: [.flag 104]) [[45, 120, 102], [110, 97, 110], [45, 104]] ∧ Sound [.flag 120] ∧
    Fails (.arg 102 [110, 97, 110]) (.error 4) := by
  refine ⟨Written.separate [120] 102 [110, 97, 110] [.flag 104] _ (by simp [FlagLetter]) (by simp [ArgLetter])
    (Written.flags [104] [] [] (by simp) (by simp [FlagLetter]) Written.nil), by simp [Sound], Or.inl ⟨rfl, ?_, rfl⟩⟩
  rintro p q n e ⟨ws, sign, ds, rfl, hws, hne, hds, hsign⟩
  have key : ∀ l : Bytes, l ≠ [] → ∀ t, l ++ t = [110, 97, 110] → l.head? = some 110 := by
    intro l hl t ht
    obtain ⟨x, l', rfl⟩ := List.exists_cons_of_ne_nil hl
    simp only [List.cons_append, List.cons.injEq] at ht
    simp [ht.1]
  rcases ws with _ | ⟨x, ws⟩
  · have hds' := fun c hc => hds c (List.mem_of_mem_head? hc)
    rcases hsign with ⟨rfl, -⟩ | ⟨rfl, -⟩ | ⟨rfl, -⟩
    · have := hds' 110 (key ds hne q e.symm)
      exact absurd this (by decide)
    · simp at e
    · simp at e
  · simp only [List.cons_append, List.cons.injEq] at e
    have := hws x (by simp)
    rw [← e.1] at this
    exact absurd this (by decide)

/-- The processing of the arguments always comes to an end. -/
theorem C53_terminates (argv : List Bytes) : ∃ r, Ends argv r := by
  have key : ∀ (m : Nat) (g : GState) (o : Opts), left argv g ≤ m → ∃ r, ∀ fuel ≥ m + 1, optLoop argv fuel g o = some r := by
    intro m
    induction m with
    | zero =>
      intro g o hm
      refine ⟨.ok o, ?_⟩
      intro fuel hf
      obtain ⟨k, rfl⟩ : ∃ k, fuel = k + 1 := ⟨fuel - 1, by omega⟩
      have hd : (getopt argv g).1 = .done := by
        by_contra hc
        have := left_getopt argv g hc
        omega
      rw [optLoop]
      rw [show getopt argv g = (.done, (getopt argv g).2) by rw [← hd]]
    | succ m ih =>
      intro g o hm
      cases hg : getopt argv g with
      | mk r g' =>
        have hlt : r ≠ .done → left argv g' < left argv g := by
          intro hr
          have := left_getopt argv g (by rw [hg]; exact hr)
          rw [hg] at this
          exact this
        cases r with
        | done =>
          refine ⟨.ok o, ?_⟩
          intro fuel hf
          obtain ⟨k, rfl⟩ : ∃ k, fuel = k + 1 := ⟨fuel - 1, by omega⟩
          rw [optLoop, hg]
        | bad =>
          obtain ⟨r, hr⟩ := ih g' o (by have := hlt (by simp); omega)
          refine ⟨r, ?_⟩
          intro fuel hf
          obtain ⟨k, rfl⟩ : ∃ k, fuel = k + 1 := ⟨fuel - 1, by omega⟩
          rw [optLoop, hg]
          exact hr k (by omega)
        | opt c arg =>
          cases hap : applyOpt o c arg with
          | error e =>
            refine ⟨.error e, ?_⟩
            intro fuel hf
            obtain ⟨k, rfl⟩ : ∃ k, fuel = k + 1 := ⟨fuel - 1, by omega⟩
            rw [optLoop, hg]
            simp only [hap]
          | ok o' =>
            obtain ⟨r, hr⟩ := ih g' o' (by have := hlt (by simp); omega)
            refine ⟨r, ?_⟩
            intro fuel hf
            obtain ⟨k, rfl⟩ : ∃ k, fuel = k + 1 := ⟨fuel - 1, by omega⟩
            rw [optLoop, hg]
            simp only [hap]
            exact hr k (by omega)
  obtain ⟨r, hr⟩ := key _ ⟨1, []⟩ opts0 le_rfl
  refine ⟨r.bind finish, left argv ⟨1, []⟩ + 1, fun (fuel : Nat) hf => ?_⟩
  unfold mainOpts
  rw [hr fuel hf]
  rfl

/-- An option without its argument at the end of the command line is silently ignored: `freqcd -f` corrects nothing. -/
theorem C53_missing_argument : Ends [[], [45, 102]] (.ok { fcorr := 0, legacy := false, infile := [], outfile := [], freqfile := [] }) := by
  refine ⟨3, ?_⟩
  intro fuel hf
  obtain ⟨k, rfl⟩ : ∃ k, fuel = k + 2 := ⟨fuel - 2, by omega⟩
  unfold mainOpts
  rw [optLoop]
  rw [show getopt [[], [45, 102]] ⟨1, []⟩ = (.bad, ⟨2, []⟩) from rfl]
  simp only
  rw [optLoop]
  rw [show getopt [[], [45, 102]] ⟨2, []⟩ = (.done, ⟨2, []⟩) from rfl]
  show some (finish opts0) = _
  decide +kernel

/-! ## C54 -/

/-- **C54** (for names of 1 to 199 characters without white space): the names are used verbatim. -/
theorem C54_verbatim_partial (prog v : Bytes) (hv : GoodName v) :
    Ends [prog, [45, 105], v] (.ok { fcorr := 0, legacy := false, infile := v, outfile := [], freqfile := [] }) ∧
    Ends [prog, [45, 111], v] (.ok { fcorr := 0, legacy := false, infile := [], outfile := v, freqfile := [] }) ∧
    Ends [prog, [45, 70], v] (.ok { fcorr := 0, legacy := false, infile := [], outfile := [], freqfile := v }) := by
  have s1 : Sound [.arg 105 v] := by
    intro it hit; simp only [List.mem_singleton] at hit; subst hit; exact Or.inl ⟨by decide, hv⟩
  have s2 : Sound [.arg 111 v] := by
    intro it hit; simp only [List.mem_singleton] at hit; subst hit; exact Or.inl ⟨by decide, hv⟩
  have s3 : Sound [.arg 70 v] := by
    intro it hit; simp only [List.mem_singleton] at hit; subst hit; exact Or.inl ⟨by decide, hv⟩
  exact ⟨C53_meaning prog _ _ (Written.separate [] 105 v [] [] (by simp) (by simp [ArgLetter]) Written.nil) s1 0 rfl,
    C53_meaning prog _ _ (Written.separate [] 111 v [] [] (by simp) (by simp [ArgLetter]) Written.nil) s2 0 rfl,
    C53_meaning prog _ _ (Written.separate [] 70 v [] [] (by simp) (by simp [ArgLetter]) Written.nil) s3 0 rfl⟩

/-- A name: "a1.bin". -/
example : GoodName [97, 49, 46, 98, 105, 110] := ⟨by simp, by simp, by decide⟩

/-- **C54 fails**, for all names of 200 and more characters: the buffer is overrun. -/
theorem C54_overrun (prog v : Bytes) (hlen : 200 ≤ v.length) (hv : ∀ c ∈ v, c ≠ 32 ∧ ¬ (9 ≤ c ∧ c ≤ 13)) :
    Ends [prog, [45, 105], v] (.error .overrun) ∧ Ends [prog, [45, 111], v] (.error .overrun) ∧ Ends [prog, [45, 70], v] (.error .overrun) := by
  have hns : ∀ c ∈ v, isCSpace c = false := by
    intro c hc
    rw [Bool.eq_false_iff, ne_eq, isCSpace_iff]
    rintro (hx | hx)
    · exact (hv c hc).1 hx
    · exact (hv c hc).2 hx
  have hscan : ∀ code, scanName code v (List.replicate 200 0) = .error .overrun := by
    intro code
    unfold scanName
    have hd : v.dropWhile isCSpace = v := by
      cases v with
      | nil => rfl
      | cons x t => rw [List.dropWhile_cons_of_neg (by simp [hns x])]
    simp only
    rw [hd, List.takeWhile_eq_self_iff.mpr (by intro c hc; simp [hns c hc])]
    have hl : (v.take 200).length = 200 := by rw [List.length_take]; omega
    rw [if_neg (by intro hc; rw [hc] at hl; simp at hl), if_pos (by rw [hl, List.length_replicate]; omega)]
  refine ⟨?_, ?_, ?_⟩
  · exact single_arg prog v 105 (by simp [ArgLetter]) (.error .overrun) (by
      show (scanName 2 v (List.replicate 200 0)).map _ = _
      rw [hscan]; rfl)
  · exact single_arg prog v 111 (by simp [ArgLetter]) (.error .overrun) (by
      show (scanName 8 v (List.replicate 200 0)).map _ = _
      rw [hscan]; rfl)
  · exact single_arg prog v 70 (by simp [ArgLetter]) (.error .overrun) (by
      show (scanName 10 v (List.replicate 200 0)).map _ = _
      rw [hscan]; rfl)

/-- **C54 fails** for names with a blank: only the part before the blank is used. -/
theorem C54_blank (prog v t : Bytes) (hv : GoodName v) :
    Ends [prog, [45, 105], v ++ 32 :: t] (.ok { fcorr := 0, legacy := false, infile := v, outfile := [], freqfile := [] }) := by
  have hw := good_word v hv
  obtain ⟨b, hb1, hb2⟩ := scan_good 2 v (List.replicate 200 0) List.length_replicate hv
  have hsame : scanName 2 (v ++ 32 :: t) (List.replicate 200 0) = scanName 2 v (List.replicate 200 0) := by
    have hns : ∀ c ∈ v, isCSpace c = false := by
      intro c hc
      rw [Bool.eq_false_iff, ne_eq, isCSpace_iff]
      rintro (hx | hx)
      · exact (hv.2.2 c hc).2.1 hx
      · exact (hv.2.2 c hc).2.2 hx
    obtain ⟨x, u, rfl⟩ := List.exists_cons_of_ne_nil hv.1
    unfold scanName
    rw [List.cons_append, List.dropWhile_cons_of_neg (by simp [hns x]), List.dropWhile_cons_of_neg (by simp [hns x]), ← List.cons_append,
      List.takeWhile_append_of_pos (by intro c hc; simp [hns c hc]), List.takeWhile_cons_of_neg (by decide), List.append_nil,
      List.takeWhile_eq_self_iff.mpr (by intro c hc; simp [hns c hc])]
  have := single_arg prog (v ++ 32 :: t) 105 (by simp [ArgLetter]) (.ok { opts0 with infilename := b }) (by
      show (scanName 2 (v ++ 32 :: t) (List.replicate 200 0)).map _ = _
      rw [hsame, hb1]; rfl)
  rw [ok_bind] at this
  rw [finish_plain _ rfl rfl] at this
  have h0 : bufName (List.replicate 200 0) = [] := by decide +kernel
  have e1 : bufName b = v := hb2.2
  have e2 : bufName opts0.outfilename = [] := h0
  have e3 : bufName opts0.freqfilename = [] := h0
  simp only [e1, e2, e3] at this
  exact this

/-- A name with a blank, "a b": the file "a" is used. -/
example : Ends [[], [45, 105], [97] ++ 32 :: [98]] (.ok { fcorr := 0, legacy := false, infile := [97], outfile := [], freqfile := [] }) :=
  C54_blank [] [97] [98] ⟨by simp, by simp, by decide⟩

/-! ## C52 -/

/-- **C52**, conversion: for all values in the documented range the correction is n * 2^34 / 10^10 without its fractional part. -/
theorem C52_value (f : BitVec 32) (h : |f.toInt| ≤ 1220703) :
    (decimalCorr f).toInt = if 0 ≤ f.toInt then ⌊(f.toInt : ℚ) * 2 ^ 34 / 10 ^ 10⌋ else ⌈(f.toInt : ℚ) * 2 ^ 34 / 10 ^ 10⌉ := by
  unfold decimalCorr
  generalize f.toInt = n at *
  have herr := decimal_err n (by omega)
  generalize fl 53 ((n : ℚ) * dtob) = y at *
  rw [mul_div_assoc]
  have hsmall : ((|n| : ℤ) : ℚ) * 2 ^ (-50 : ℤ) < 1 / 10 ^ 8 := by
    have : ((|n| : ℤ) : ℚ) ≤ 1220703 := by exact_mod_cast h
    calc ((|n| : ℤ) : ℚ) * 2 ^ (-50 : ℤ) ≤ 1220703 * 2 ^ (-50 : ℤ) := mul_le_mul_of_nonneg_right this (by positivity)
      _ < 1 / 10 ^ 8 := by norm_num
  rw [abs_le] at h
  by_cases hz : n = 0
  · subst hz
    simp at herr
    rw [herr]
    decide +kernel
  have e : (n : ℚ) * (2 ^ 34 / 10 ^ 10) = ((n * 16777216 : ℤ) : ℚ) / 9765625 := by push_cast; ring
  rw [e] at herr ⊢
  rw [abs_le] at herr
  obtain ⟨g1, g2⟩ := herr
  obtain ⟨q, r, hq, hr0', hr2', hqb, hqb', hqs, hqs'⟩ := dec_parts n h.1 h.2 hz
  have hx : ((n * 16777216 : ℤ) : ℚ) / 9765625 = q + r / 9765625 := by
    rw [hq]; push_cast; field_simp
  have c1 : (1 : ℚ) ≤ r := by exact_mod_cast hr0'
  have c2 : (r : ℚ) ≤ 9765624 := by exact_mod_cast hr2'
  rw [hx] at g1 g2 ⊢
  have b1 : (1 : ℚ) / 9765625 ≤ r / 9765625 := by
    rw [div_le_div_iff_of_pos_right (by norm_num)]; exact c1
  have b2 : (r : ℚ) / 9765625 ≤ 9765624 / 9765625 := by
    rw [div_le_div_iff_of_pos_right (by norm_num)]; exact c2
  generalize ((|n| : ℤ) : ℚ) * 2 ^ (-50 : ℤ) = ε at *
  have lo : (q : ℚ) < y := by
    norm_num at hsmall b1 ⊢
    linarith
  have hi : y < q + 1 := by
    norm_num at hsmall b2 ⊢
    linarith
  by_cases hn : 0 ≤ n
  · rw [if_pos hn]
    have hq0 : (0 : ℚ) ≤ q := by exact_mod_cast hqs (by omega)
    rw [dToI_nonneg y q (by linarith) lo.le hi (by omega)]
    symm
    exact Int.floor_eq_iff.mpr ⟨by linarith, by linarith⟩
  · rw [if_neg hn]
    have hq0 : (q : ℚ) ≤ -1 := by
      have := hqs' (by omega)
      have : q ≤ -1 := by omega
      exact_mod_cast this
    rw [dToI_neg y (q + 1) (by linarith) (by push_cast; linarith) (by push_cast; linarith) (by omega)]
    symm
    exact Int.ceil_eq_iff.mpr ⟨by push_cast; linarith, by push_cast; linarith⟩

/-- The limits of the conversion. -/
example : decimalCorr 1220703 = 2097151 ∧ decimalCorr 10000 = 17179 ∧ decimalCorr (-10000) = -17179 := by decide +kernel

/-- **C52**, range: as long as the converted value fits in an `int` it is accepted exactly in the documented range. -/
theorem C52_range_partial (f : BitVec 32) (h : |f.toInt| < 1250000000) : |(decimalCorr f).toInt| < 2 ^ 21 ↔ |f.toInt| ≤ 1220703 := by
  constructor
  · intro ha
    by_contra hb
    unfold decimalCorr at ha
    generalize f.toInt = n at *
    obtain ⟨g1, g2⟩ := decimal_near n (by omega)
    generalize fl 53 ((n : ℚ) * dtob) = y at *
    rw [abs_lt] at h
    rw [abs_le] at hb
    rcases (by omega : 1220704 ≤ n ∨ n ≤ -1220704) with hn | hn
    · have c1 : (1220704 : ℚ) ≤ n := by exact_mod_cast hn
      have c2 : (n : ℚ) ≤ 1249999999 := by exact_mod_cast (by omega : n ≤ 1249999999)
      have y1 : (2 ^ 21 : ℚ) ≤ y := by norm_num at g1 ⊢; linarith
      have y2 : y < 2 ^ 31 := by norm_num at g2 ⊢; linarith
      have f1 : (2 ^ 21 : ℤ) ≤ ⌊y⌋ := Int.le_floor.mpr (by exact_mod_cast y1)
      have f2 : ⌊y⌋ < (2 ^ 31 : ℤ) := Int.floor_lt.mpr (by exact_mod_cast y2)
      rw [dToI_nonneg y ⌊y⌋ (le_trans (by norm_num) y1) (Int.floor_le y) (Int.lt_floor_add_one y) f2, abs_lt] at ha
      omega
    · have c1 : (n : ℚ) ≤ -1220704 := by exact_mod_cast hn
      have c2 : (-1249999999 : ℚ) ≤ n := by exact_mod_cast (by omega : -1249999999 ≤ n)
      have y1 : y ≤ -2 ^ 21 := by norm_num at g2 ⊢; linarith
      have y2 : -2 ^ 31 < y := by norm_num at g1 ⊢; linarith
      have f1 : ⌈y⌉ ≤ (-2 ^ 21 : ℤ) := Int.ceil_le.mpr (by push_cast; exact y1)
      have f2 : (-2 ^ 31 : ℤ) < ⌈y⌉ := Int.lt_ceil.mpr (by push_cast; exact y2)
      rw [dToI_neg y ⌈y⌉ (lt_of_le_of_lt y1 (by norm_num)) (by linarith [Int.ceil_lt_add_one y]) (Int.le_ceil y) f2.le, abs_lt] at ha
      omega
  · intro ha
    rw [C52_value f ha]
    generalize f.toInt = n at *
    rw [abs_le] at ha
    have c1 : (-1220703 : ℚ) ≤ n := by exact_mod_cast ha.1
    have c2 : (n : ℚ) ≤ 1220703 := by exact_mod_cast ha.2
    split
    · rename_i hn
      have c0 : (0 : ℚ) ≤ n := by exact_mod_cast hn
      have f1 : (0 : ℤ) ≤ ⌊(n : ℚ) * 2 ^ 34 / 10 ^ 10⌋ := Int.floor_nonneg.mpr (by positivity)
      have f2 : ⌊(n : ℚ) * 2 ^ 34 / 10 ^ 10⌋ < (2 ^ 21 : ℤ) := Int.floor_lt.mpr (by push_cast; norm_num; linarith)
      rw [abs_lt]; constructor <;> linarith
    · rename_i hn
      have c0 : (n : ℚ) ≤ 0 := by exact_mod_cast (by omega : n ≤ 0)
      have f1 : ⌈(n : ℚ) * 2 ^ 34 / 10 ^ 10⌉ ≤ (0 : ℤ) := Int.ceil_le.mpr (by push_cast; norm_num; linarith)
      have f2 : (-2 ^ 21 : ℤ) < ⌈(n : ℚ) * 2 ^ 34 / 10 ^ 10⌉ := Int.lt_ceil.mpr (by push_cast; norm_num; linarith)
      rw [abs_lt]; constructor <;> linarith

example : |(decimalCorr 1220703).toInt| < 2 ^ 21 ∧ ¬ |(decimalCorr 1220704).toInt| < 2 ^ 21 := by decide +kernel

/-- **C52** and **C46** fail beyond that: the result is -2^31 for every such value, and -2^31 is accepted.  For -1250000000 the
exact product is -2^31, in all other cases the conversion is out of range. -/
theorem C52_violated (f : BitVec 32) (h : 1250000000 ≤ |f.toInt|) : (decimalCorr f).toInt = -2 ^ 31 := by
  by_cases e1 : f = 1250000000
  · rw [e1]; exact decimal_edge.1
  by_cases e2 : f = -1250000000
  · rw [e2]; exact decimal_edge.2
  have e1' : f.toInt ≠ 1250000000 := fun h => e1 (BitVec.eq_of_toInt_eq (by rw [h]; decide))
  have e2' : f.toInt ≠ -1250000000 := fun h => e2 (BitVec.eq_of_toInt_eq (by rw [h]; decide))
  unfold decimalCorr
  have hl := f.toInt_lt
  have hg := f.le_toInt
  generalize f.toInt = n at *
  obtain ⟨g1, g2⟩ := decimal_near n (by rw [abs_le]; constructor <;> omega)
  generalize fl 53 ((n : ℚ) * dtob) = y at *
  rw [le_abs] at h
  rcases (by omega : 1250000001 ≤ n ∨ n ≤ -1250000001) with hn | hn
  · have c1 : (1250000001 : ℚ) ≤ n := by exact_mod_cast hn
    exact dToI_pos_out y (by norm_num at g1 ⊢; linarith)
  · have c1 : (n : ℚ) ≤ -1250000001 := by exact_mod_cast hn
    exact dToI_neg_out y (by norm_num at g2 ⊢; linarith)

example : (1250000000 : ℤ) ≤ |(2000000000 : BitVec 32).toInt| := by decide

/-! ## C46 and C52, command line -/

/-- **C46**, command line: whatever the arguments are, the correction used is in range or -2^31. -/
theorem C46_command_line_partial (argv : List Bytes) (c : Config) (h : Ends argv (.ok c)) :
    |c.fcorr.toInt| < 2 ^ 21 ∨ c.fcorr.toInt = -2 ^ 31 := by
  obtain ⟨N, hN⟩ := h
  have h := hN N le_rfl
  unfold mainOpts at h
  cases hl : optLoop argv N ⟨1, []⟩ opts0 with
  | none => rw [hl] at h; simp at h
  | some r =>
    rw [hl] at h
    simp only [Option.map_some, Option.some.injEq] at h
    cases r with
    | error e => exact absurd h (by simp [Except.bind])
    | ok o =>
      have h : finish o = .ok c := h
      unfold finish at h
      simp only at h
      generalize (if o.isdecimal = true then decimalCorr o.fcorr else o.fcorr) = f at h
      split at h
      · rename_i hx
        have h := Except.ok.inj h
        rw [← h]
        have hc := cabs_slt f fcorrMax (by decide)
        rw [show fcorrMax.toInt = 2 ^ 21 by decide] at hc
        exact (hc.mp hx).symm
      · exact absurd h (by intro h'; cases h')

/-- **C46** fails on the command line: `-f -2147483648` is accepted. -/
theorem C46_command_line_violated (prog : Bytes) :
    Ends [prog, [45, 102], [45, 50, 49, 52, 55, 52, 56, 51, 54, 52, 56]]
      (.ok { fcorr := BitVec.ofInt 32 (-2 ^ 31), legacy := false, infile := [], outfile := [], freqfile := [] }) := by
  have hv : Numeral [45, 50, 49, 52, 55, 52, 56, 51, 54, 52, 56] (-2 ^ 31) :=
    ⟨[], [45], [50, 49, 52, 55, 52, 56, 51, 54, 52, 56], rfl, by simp, by simp, by decide, Or.inr (Or.inr ⟨rfl, by decide⟩)⟩
  have hs : Sound [Item.arg 102 [45, 50, 49, 52, 55, 52, 56, 51, 54, 52, 56]] := by
    intro it hit
    rw [List.mem_singleton] at hit
    subst hit
    exact Or.inr ⟨rfl, _, hv, le_refl _, by norm_num⟩
  have h := C53_meaning prog [Item.arg 102 [45, 50, 49, 52, 55, 52, 56, 51, 54, 52, 56]] _
    (Written.separate [] 102 _ [] [] (by simp) (by simp [ArgLetter]) Written.nil) hs (-2 ^ 31) hv
  have hno : Item.flag 100 ∉ [Item.arg 102 [45, 50, 49, 52, 55, 52, 56, 51, 54, 52, 56]] := by decide
  have h2 : (BitVec.ofInt 32 (-2 ^ 31)).toInt = -2 ^ 31 := by decide +kernel
  simp only [if_neg hno] at h
  rw [if_pos (Or.inr h2)] at h
  exact h

/-- **C52** at the command line, with `-f` in the documented range. -/
theorem C52_command_line_partial (prog : Bytes) (os : List Item) (args : List Bytes) (h : Written os args) (hs : Sound os) (n : Int) (v : Bytes)
    (hl : lastArg 102 os = some v) (hv : Numeral v n) (hd : Item.flag 100 ∈ os) (hn : |n| < 1250000000) :
    (|n| ≤ 1220703 → ∃ c : Config, Ends (prog :: args) (.ok c) ∧
      c.fcorr.toInt = if 0 ≤ n then ⌊(n : ℚ) * 2 ^ 34 / 10 ^ 10⌋ else ⌈(n : ℚ) * 2 ^ 34 / 10 ^ 10⌉) ∧
    (1220703 < |n| → Ends (prog :: args) (.error (.error 5))) := by
  have hm := C53_meaning prog os args h hs n (by rw [hl]; exact hv)
  have hof : (BitVec.ofInt 32 n).toInt = n := by
    rw [abs_lt] at hn
    rw [BitVec.toInt_ofInt]
    exact Int.bmod_eq_of_le (by omega) (by omega)
  simp only [if_pos hd] at hm
  have hr := C52_range_partial (BitVec.ofInt 32 n) (by rw [hof]; exact hn)
  have hvl := C52_value (BitVec.ofInt 32 n)
  rw [hof] at hr hvl
  constructor
  · intro hle
    rw [if_pos (Or.inl (hr.mpr hle))] at hm
    exact ⟨_, hm, hvl hle⟩
  · intro hgt
    rw [if_neg] at hm
    · exact hm
    · rintro (h' | h')
      · have := hr.mp h'; omega
      · exact decimal_ne_min _ (by rw [hof]; exact hn) h'

/-- `-df 10000`. -/
example : ∃ c : Config, Ends [[], [45, 100, 102], [49, 48, 48, 48, 48]] (.ok c) ∧ c.fcorr.toInt = 17179 := by
  have hv : Numeral [49, 48, 48, 48, 48] 10000 := ⟨[], [], [49, 48, 48, 48, 48], rfl, by simp, by simp, by decide, Or.inl ⟨rfl, by decide⟩⟩
  have hw : Written [Item.flag 100, Item.arg 102 [49, 48, 48, 48, 48]] [[45, 100, 102], [49, 48, 48, 48, 48]] :=
    Written.separate [100] 102 _ [] [] (by simp [FlagLetter]) (by simp [ArgLetter]) Written.nil
  have hs : Sound [Item.flag 100, Item.arg 102 [49, 48, 48, 48, 48]] := by
    intro it hit
    simp only [List.mem_cons, List.not_mem_nil, or_false] at hit
    rcases hit with rfl | rfl
    · exact Or.inr rfl
    · exact Or.inr ⟨rfl, _, hv, by norm_num, by norm_num⟩
  obtain ⟨c, hc, hf⟩ := (C52_command_line_partial [] _ _ hw hs 10000 _ rfl hv (by simp) (by norm_num)).1 (by norm_num)
  refine ⟨c, hc, hf.trans ?_⟩
  rw [if_pos (by norm_num), Int.floor_eq_iff]
  norm_num

end Fp
