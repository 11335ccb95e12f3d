import Verif.Spec.FreqcdMain
import Verif.Lemmas.FreqcdChannel
import Verif.Lemmas.Float

/-! Helper lemmas for `Verif/Props/FreqcdMain.lean`. -/
namespace Fp
open Spec

theorem getopt_start (argv : List Bytes) (i : Nat) (w : Bytes) (h : argv[i]? = some (45 :: w)) (hw : w ≠ []) (hd : w.head? ≠ some 45) :
    getopt argv ⟨i, []⟩ = getopt argv ⟨i, w⟩ := by
  unfold getopt
  have hd' : ¬ (45 :: w).tail.head? = some 45 := hd
  have hw' : ¬ (45 :: w).tail = [] := hw
  simp only [if_true, h, if_neg hw]
  rw [if_neg (by simp), if_neg hd', if_neg hw']
  rfl

theorem getopt_flag (argv : List Bytes) (i : Nat) (c : UInt8) (t : Bytes) (h : FlagLetter c) :
    getopt argv ⟨i, c :: t⟩ = (.opt c none, ⟨if t = [] then i + 1 else i, t⟩) := by
  unfold getopt
  rw [if_neg (by simp)]
  rcases h with rfl | rfl | rfl <;> rfl

theorem getopt_attached (argv : List Bytes) (i : Nat) (c : UInt8) (t : Bytes) (h : ArgLetter c) (ht : t ≠ []) :
    getopt argv ⟨i, c :: t⟩ = (.opt c (some t), ⟨i + 1, []⟩) := by
  unfold getopt getoptLetter
  rw [if_neg (by simp)]
  obtain ⟨x, t, rfl⟩ := List.exists_cons_of_ne_nil ht
  rcases h with rfl | rfl | rfl | rfl <;> rfl

theorem getopt_separate (argv : List Bytes) (i : Nat) (c : UInt8) (v : Bytes) (h : ArgLetter c) (hv : argv[i + 1]? = some v) :
    getopt argv ⟨i, [c]⟩ = (.opt c (some v), ⟨i + 2, []⟩) := by
  unfold getopt getoptLetter
  rw [if_neg (by simp)]
  simp only [hv]
  rcases h with rfl | rfl | rfl | rfl <;> rfl

/-- Effect of an option. -/
def itemOpt (o : Opts) : Item → Except Exit Opts
  | .flag c => applyOpt o c none
  | .arg c v => applyOpt o c (some v)

theorem foldl_cons_ok (o o' : Opts) (it : Item) (os : List Item) (h : itemOpt o it = .ok o') :
    (it :: os).foldlM itemOpt o = os.foldlM itemOpt o' := by
  rw [List.foldlM_cons, h]
  rfl

theorem foldl_cons_error (o : Opts) (e : Exit) (it : Item) (os : List Item) (h : itemOpt o it = .error e) :
    (it :: os).foldlM itemOpt o = .error e := by
  rw [List.foldlM_cons, h]
  rfl

theorem loop_flags (argv : List Bytes) (i : Nat) (fs t : Bytes) (os : List Item) (ht : t ≠ []) (hfs : ∀ c ∈ fs, FlagLetter c)
    (hrest : ∀ o, ∃ N, ∀ fuel ≥ N, optLoop argv fuel ⟨i, t⟩ o = some (os.foldlM itemOpt o)) (o : Opts) :
    ∃ N, ∀ fuel ≥ N, optLoop argv fuel ⟨i, fs ++ t⟩ o = some ((fs.map Item.flag ++ os).foldlM itemOpt o) := by
  induction fs generalizing o with
  | nil => exact hrest o
  | cons c fs ih =>
    cases ha : itemOpt o (.flag c) with
    | error e =>
      refine ⟨1, ?_⟩
      intro fuel hf
      obtain ⟨k, rfl⟩ : ∃ k, fuel = k + 1 := ⟨fuel - 1, by omega⟩
      rw [List.map_cons, List.cons_append, List.cons_append, foldl_cons_error _ _ _ _ ha, optLoop, getopt_flag _ _ _ _ (hfs c (by simp))]
      simp only
      rw [show applyOpt o c none = .error e from ha]
    | ok o' =>
      obtain ⟨N, hN⟩ := ih (fun x hx => hfs x (by simp [hx])) o'
      refine ⟨N + 1, ?_⟩
      intro fuel hf
      obtain ⟨k, rfl⟩ : ∃ k, fuel = k + 1 := ⟨fuel - 1, by omega⟩
      rw [List.map_cons, List.cons_append, List.cons_append, foldl_cons_ok _ _ _ _ ha, optLoop, getopt_flag _ _ _ _ (hfs c (by simp))]
      simp only
      rw [show applyOpt o c none = .ok o' from ha, if_neg (by simp [ht])]
      exact hN k (by omega)

theorem loop_next (argv : List Bytes) (g g' : GState) (it : Item) (os : List Item)
    (hg : getopt argv g = (match it with | .flag c => .opt c none | .arg c v => .opt c (some v), g'))
    (hrest : ∀ o, ∃ N, ∀ fuel ≥ N, optLoop argv fuel g' o = some (os.foldlM itemOpt o)) (o : Opts) :
    ∃ N, ∀ fuel ≥ N, optLoop argv fuel g o = some ((it :: os).foldlM itemOpt o) := by
  cases ha : itemOpt o it with
  | error e =>
    refine ⟨1, ?_⟩
    intro fuel hf
    obtain ⟨k, rfl⟩ : ∃ k, fuel = k + 1 := ⟨fuel - 1, by omega⟩
    rw [foldl_cons_error _ _ _ _ ha, optLoop, hg]
    cases it with
    | flag c => simp only; rw [show applyOpt o c none = .error e from ha]
    | arg c v => simp only; rw [show applyOpt o c (some v) = .error e from ha]
  | ok o' =>
    obtain ⟨N, hN⟩ := hrest o'
    refine ⟨N + 1, ?_⟩
    intro fuel hf
    obtain ⟨k, rfl⟩ : ∃ k, fuel = k + 1 := ⟨fuel - 1, by omega⟩
    rw [foldl_cons_ok _ _ _ _ ha, optLoop, hg, ← hN k (by omega)]
    cases it with
    | flag c => simp only; rw [show applyOpt o c none = .ok o' from ha]
    | arg c v => simp only; rw [show applyOpt o c (some v) = .ok o' from ha]

theorem loop_start (argv : List Bytes) (i : Nat) (w : Bytes) (os : List Item) (h : argv[i]? = some (45 :: w)) (hw : w ≠ []) (hd : w.head? ≠ some 45)
    (o : Opts) (hrest : ∃ N, ∀ fuel ≥ N, optLoop argv fuel ⟨i, w⟩ o = some (os.foldlM itemOpt o)) :
    ∃ N, ∀ fuel ≥ N, optLoop argv fuel ⟨i, []⟩ o = some (os.foldlM itemOpt o) := by
  obtain ⟨N, hN⟩ := hrest
  refine ⟨N + 1, ?_⟩
  intro fuel hf
  obtain ⟨k, rfl⟩ : ∃ k, fuel = k + 1 := ⟨fuel - 1, by omega⟩
  have := hN (k + 1) (by omega)
  rw [optLoop] at this ⊢
  rw [getopt_start argv i w h hw hd]
  exact this

theorem loop_done (argv : List Bytes) (g g' : GState) (h : getopt argv g = (.done, g')) (o : Opts) :
    ∃ N, ∀ fuel ≥ N, optLoop argv fuel g o = some (([] : List Item).foldlM itemOpt o) := by
  refine ⟨1, ?_⟩
  intro fuel hf
  obtain ⟨k, rfl⟩ : ∃ k, fuel = k + 1 := ⟨fuel - 1, by omega⟩
  rw [optLoop, h]
  rfl

theorem letter_not_dash {c : UInt8} (h : FlagLetter c ∨ ArgLetter c) : c ≠ 45 := by
  rcases h with (rfl | rfl | rfl) | (rfl | rfl | rfl | rfl) <;> decide

theorem written_loop (os : List Item) (args : List Bytes) (h : Written os args) (pre : List Bytes) (o : Opts) :
    ∃ N, ∀ fuel ≥ N, optLoop (pre ++ args) fuel ⟨pre.length, []⟩ o = some (os.foldlM itemOpt o) := by
  induction h generalizing pre o with
  | nil =>
    apply loop_done _ _ ⟨pre.length, []⟩
    unfold getopt
    simp
  | dashes a rest =>
    apply loop_done _ _ ⟨pre.length + 1, []⟩
    unfold getopt
    simp
  | dash rest =>
    apply loop_done _ _ ⟨pre.length, []⟩
    unfold getopt
    simp
    rfl
  | operand a rest ha =>
    apply loop_done _ _ ⟨pre.length, []⟩
    unfold getopt
    simp [ha]
  | flags fs os rest hne hfs hw ih =>
    have hget : (pre ++ (45 :: fs) :: rest)[pre.length]? = some (45 :: fs) := by simp
    obtain ⟨l, c, rfl⟩ : ∃ l c, fs = l ++ [c] := ⟨_, _, (List.dropLast_append_getLast hne).symm⟩
    have hhead : (l ++ [c]).head? ≠ some 45 := by
      intro hc
      exact letter_not_dash (Or.inl (hfs 45 (List.mem_of_head? hc))) rfl
    apply loop_start _ _ _ _ hget hne hhead
    rw [List.map_append, List.append_assoc]
    apply loop_flags _ _ _ _ _ (by simp) (fun x hx => hfs x (by simp [hx]))
    intro o
    apply loop_next _ _ ⟨pre.length + 1, []⟩ _ _ (getopt_flag _ _ _ _ (hfs c (by simp)))
    intro o
    have := ih (pre ++ [45 :: (l ++ [c])]) o
    simpa using this
  | attached fs c v os rest hfs hc hv hw ih =>
    have hget : (pre ++ (45 :: fs ++ c :: v) :: rest)[pre.length]? = some (45 :: (fs ++ c :: v)) := by simp
    have hhead : (fs ++ c :: v).head? ≠ some 45 := by
      intro hx
      cases fs with
      | nil => simp at hx; exact letter_not_dash (Or.inr hc) hx
      | cons y ys => simp at hx; exact letter_not_dash (Or.inl (hfs y (by simp))) hx
    apply loop_start _ _ _ _ hget (by simp) hhead
    apply loop_flags _ _ _ _ _ (by simp) hfs
    intro o
    apply loop_next _ _ ⟨pre.length + 1, []⟩ _ _ (getopt_attached _ _ _ _ hc hv)
    intro o
    have := ih (pre ++ [45 :: (fs ++ c :: v)]) o
    simpa using this
  | separate fs c v os rest hfs hc hw ih =>
    have hget : (pre ++ (45 :: fs ++ [c]) :: v :: rest)[pre.length]? = some (45 :: (fs ++ [c])) := by simp
    have hhead : (fs ++ [c]).head? ≠ some 45 := by
      intro hx
      cases fs with
      | nil => simp at hx; exact letter_not_dash (Or.inr hc) hx
      | cons y ys => simp at hx; exact letter_not_dash (Or.inl (hfs y (by simp))) hx
    apply loop_start _ _ _ _ hget (by simp) hhead
    apply loop_flags _ _ _ _ _ (by simp) hfs
    intro o
    apply loop_next _ _ ⟨pre.length + 2, []⟩ _ _ (getopt_separate _ _ _ v hc (by
      rw [List.getElem?_append_right (by omega), show pre.length + 1 - pre.length = 1 by omega]; rfl))
    intro o
    have := ih (pre ++ [45 :: (fs ++ [c]), v]) o
    simpa using this

theorem isCSpace_iff (c : UInt8) : isCSpace c = true ↔ c = 32 ∨ (9 ≤ c ∧ c ≤ 13) := by simp [isCSpace]

theorem good_word (v : Bytes) (h : GoodName v) : ((v.dropWhile isCSpace).takeWhile fun c : UInt8 => !isCSpace c).take 200 = v := by
  obtain ⟨h1, h2, h3⟩ := h
  have hns : ∀ c ∈ v, isCSpace c = false := by
    intro c hc
    rw [Bool.eq_false_iff, ne_eq, isCSpace_iff]
    rintro (hx | hx)
    · exact (h3 c hc).2.1 hx
    · exact (h3 c hc).2.2 hx
  obtain ⟨x, t, rfl⟩ := List.exists_cons_of_ne_nil h1
  rw [List.dropWhile_cons_of_neg (by simp [hns x]), List.takeWhile_eq_self_iff.mpr (by intro c hc; simp [hns c hc]), List.take_of_length_le (by omega)]

/-- A buffer that holds a given name. -/
def Holds (b v : Bytes) : Prop := b.length = 200 ∧ bufName b = v

theorem scan_good (code : Nat) (v b : Bytes) (hb : b.length = 200) (h : GoodName v) : ∃ b', scanName code v b = .ok b' ∧ Holds b' v := by
  have hw := good_word v h
  obtain ⟨h1, h2, h3⟩ := h
  unfold scanName
  simp only [hw]
  rw [if_neg h1, if_neg (by omega)]
  have hset : (v ++ 0 :: b.drop (v.length + 1)).set 199 0 = v ++ (0 :: b.drop (v.length + 1)).set (199 - v.length) 0 := by
    rw [List.set_append_right _ _ (by omega)]
  refine ⟨_, rfl, ?_, ?_⟩
  · rw [List.length_set, List.length_append, List.length_cons, List.length_drop]
    omega
  · rw [hset]
    unfold bufName
    have hz : ∃ t, (0 :: b.drop (v.length + 1)).set (199 - v.length) 0 = 0 :: t := by
      cases hn : 199 - v.length with
      | zero => exact ⟨_, rfl⟩
      | succ n => exact ⟨_, rfl⟩
    obtain ⟨t, ht⟩ := hz
    rw [ht, takeWhile_zero]
    exact List.takeWhile_eq_self_iff.mpr (by intro c hc; simpa using (h3 c hc).1)

/-- The variables after the options `os`. -/
structure After (os : List Item) (o : Opts) : Prop where
  ai : Holds o.infilename ((lastArg 105 os).getD [])
  ao : Holds o.outfilename ((lastArg 111 os).getD [])
  aF : Holds o.freqfilename ((lastArg 70 os).getD [])
  af : ∀ n : Int, (match lastArg 102 os with | none => n = 0 | some v => Numeral v n) → o.fcorr = BitVec.ofInt 32 n
  ax : o.islegacy = decide (Item.flag 120 ∈ os)
  ad : o.isdecimal = decide (Item.flag 100 ∈ os)

theorem lastArg_append (c : UInt8) (os os' : List Item) : lastArg c (os ++ os') = (lastArg c os').or (lastArg c os) := by
  induction os with
  | nil => simp [lastArg]
  | cons it os ih =>
    cases it with
    | flag c' => simp only [List.cons_append, lastArg, ih]
    | arg c' v => simp only [List.cons_append, lastArg, ih, Option.or_assoc]

theorem numeral_unique (b : Bytes) (v w : Int) (hv : Numeral b v) (hw : Numeral b w) (h : -2 ^ 31 ≤ v ∧ v < 2 ^ 31) : w = v := by
  have e1 := strtol_numeral b v hv
  have e2 := strtol_numeral b w hw
  rw [e1] at e2
  simp only [Option.some.injEq, Prod.mk.injEq, and_true] at e2
  unfold clampLong at e2
  omega

theorem after_fold (os os' : List Item) (hs : Sound os') (o : Opts) (ha : After os o) :
    ∃ o', os'.foldlM itemOpt o = .ok o' ∧ After (os ++ os') o' := by
  induction os' generalizing os o with
  | nil => exact ⟨o, rfl, by rw [List.append_nil]; exact ha⟩
  | cons it os' ih =>
    have step : ∃ o1, itemOpt o it = .ok o1 ∧ After (os ++ [it]) o1 := by
      have hit := hs it (by simp)
      cases it with
      | flag c =>
        have e : ∀ c' , lastArg c' (os ++ [Item.flag c]) = lastArg c' os := by
          intro c'; rw [lastArg_append]; simp [lastArg]
        rcases hit with rfl | rfl
        · refine ⟨{ o with islegacy := true }, rfl, ?_⟩
          constructor <;> simp only [e]
          · exact ha.ai
          · exact ha.ao
          · exact ha.aF
          · exact ha.af
          · simp
          · rw [ha.ad]; simp
        · refine ⟨{ o with isdecimal := true }, rfl, ?_⟩
          constructor <;> simp only [e]
          · exact ha.ai
          · exact ha.ao
          · exact ha.aF
          · exact ha.af
          · rw [ha.ax]; simp
          · simp
      | arg c v =>
        have e : ∀ c' , lastArg c' (os ++ [Item.arg c v]) = if c = c' then some v else lastArg c' os := by
          intro c'; rw [lastArg_append]; simp only [lastArg, Option.none_or]
          split <;> simp
        have ex : ∀ y, (Item.flag y ∈ os ++ [Item.arg c v]) ↔ Item.flag y ∈ os := by intro y; simp
        rcases hit with ⟨rfl | rfl | rfl, hg⟩ | ⟨rfl, n, hn, hr⟩
        · obtain ⟨b, hb1, hb2⟩ := scan_good 2 v o.infilename ha.ai.1 hg
          refine ⟨{ o with infilename := b }, ?_, ?_⟩
          · show (scanName 2 v o.infilename).map _ = _
            rw [hb1]; rfl
          · constructor <;> simp only [e, ex]
            · exact hb2
            · exact ha.ao
            · exact ha.aF
            · exact ha.af
            · exact ha.ax
            · exact ha.ad
        · obtain ⟨b, hb1, hb2⟩ := scan_good 8 v o.outfilename ha.ao.1 hg
          refine ⟨{ o with outfilename := b }, ?_, ?_⟩
          · show (scanName 8 v o.outfilename).map _ = _
            rw [hb1]; rfl
          · constructor <;> simp only [e, ex]
            · exact ha.ai
            · exact hb2
            · exact ha.aF
            · exact ha.af
            · exact ha.ax
            · exact ha.ad
        · obtain ⟨b, hb1, hb2⟩ := scan_good 10 v o.freqfilename ha.aF.1 hg
          refine ⟨{ o with freqfilename := b }, ?_, ?_⟩
          · show (scanName 10 v o.freqfilename).map _ = _
            rw [hb1]; rfl
          · constructor <;> simp only [e, ex]
            · exact ha.ai
            · exact ha.ao
            · exact hb2
            · exact ha.af
            · exact ha.ax
            · exact ha.ad
        · refine ⟨{ o with fcorr := BitVec.ofInt 32 n }, ?_, ?_⟩
          · show (scanInt v).map _ = _
            unfold scanInt
            rw [strtol_numeral v n hn]
            simp only [Except.map, clamp_id n (by omega)]
          · constructor <;> simp only [e, ex]
            · exact ha.ai
            · exact ha.ao
            · exact ha.aF
            · intro m hm
              simp only [if_true] at hm
              rw [numeral_unique v n m hn hm hr]
            · exact ha.ax
            · exact ha.ad
    obtain ⟨o1, h1, h2⟩ := step
    obtain ⟨o', h3, h4⟩ := ih (os ++ [it]) (fun y hy => hs y (by simp [hy])) o1 h2
    refine ⟨o', ?_, ?_⟩
    · rw [foldl_cons_ok _ _ _ _ h1, h3]
    · simpa using h4

theorem after_nil : After [] opts0 := by
  have h0 : Holds (List.replicate 200 0) [] := ⟨List.length_replicate, by decide +kernel⟩
  constructor
  · exact h0
  · exact h0
  · exact h0
  · intro n hn
    simp only [lastArg] at hn
    rw [hn]; rfl
  · rfl
  · rfl

/-- The program gets past its options, or ends there, with the result `r`. -/
theorem ends_of_loop {prog : Bytes} {args : List Bytes} {os : List Item} (h : Written os args) :
    Ends (prog :: args) ((os.foldlM itemOpt opts0).bind finish) := by
  obtain ⟨N, hN⟩ := written_loop os args h [prog] opts0
  refine ⟨N, ?_⟩
  intro fuel hf
  have := hN fuel hf
  unfold mainOpts
  rw [show (⟨1, []⟩ : GState) = ⟨[prog].length, []⟩ from rfl, show prog :: args = [prog] ++ args from rfl, this]
  rfl

/-- What is left to scan. -/
def left (argv : List Bytes) (g : GState) : Nat :=
  g.place.length + ((argv.drop (if g.place = [] then g.optind else g.optind + 1)).map fun a : Bytes => a.length + 1).sum

theorem left_drop (argv : List Bytes) (k j : Nat) (h : k ≤ j) :
    ((argv.drop j).map fun a : Bytes => a.length + 1).sum ≤ ((argv.drop k).map fun a : Bytes => a.length + 1).sum := by
  have : argv.drop k = (argv.drop k).take (j - k) ++ argv.drop j := by
    conv_lhs => rw [← List.take_append_drop (j - k) (argv.drop k)]
    rw [List.drop_drop, show k + (j - k) = j by omega]
  rw [this, List.map_append, List.sum_append]
  omega

theorem left_letter (argv : List Bytes) (i : Nat) (c : UInt8) (t : Bytes) (hne : (getoptLetter argv i (c :: t)).1 ≠ .done) :
    left argv (getoptLetter argv i (c :: t)).2 ≤ t.length + ((argv.drop (i + 1)).map fun a : Bytes => a.length + 1).sum := by
  have hd := left_drop argv (i + 1) (i + 2) (by omega)
  have fin : left argv ⟨if t = [] then i + 1 else i, t⟩ ≤ t.length + ((argv.drop (i + 1)).map fun a : Bytes => a.length + 1).sum := by
    unfold left
    by_cases ht : t = []
    · simp [ht]
    · simp [ht]
  have fin1 : left argv ⟨i + 1, []⟩ ≤ t.length + ((argv.drop (i + 1)).map fun a : Bytes => a.length + 1).sum := by
    unfold left; simp
  have fin2 : left argv ⟨i + 2, []⟩ ≤ t.length + ((argv.drop (i + 1)).map fun a : Bytes => a.length + 1).sum := by
    unfold left
    simp only [if_true, List.length_nil, Nat.zero_add]
    omega
  unfold getoptLetter at hne ⊢
  simp only at hne ⊢
  by_cases h1 : c = 58 ∨ optString.dropWhile (· ≠ c) = []
  · rw [if_pos h1] at hne ⊢
    by_cases h2 : c = 45
    · rw [if_pos h2] at hne; exact absurd rfl hne
    · rw [if_neg h2]; exact fin
  · rw [if_neg h1] at hne ⊢
    split
    · exact fin
    · split
      · exact fin1
      · split
        · exact fin1
        · exact fin2

theorem left_getopt (argv : List Bytes) (g : GState) (hne : (getopt argv g).1 ≠ .done) : left argv (getopt argv g).2 < left argv g := by
  obtain ⟨i, p⟩ := g
  cases p with
  | cons c t =>
    have e : getopt argv ⟨i, c :: t⟩ = getoptLetter argv i (c :: t) := by
      unfold getopt
      rw [if_neg (by simp)]
    rw [e] at hne ⊢
    have := left_letter argv i c t hne
    have e2 : left argv ⟨i, c :: t⟩ = (t.length + 1) + ((argv.drop (i + 1)).map fun a : Bytes => a.length + 1).sum := by
      unfold left
      simp
    omega
  | nil =>
    cases ha : argv[i]? with
    | none => exfalso; apply hne; unfold getopt; simp [ha]
    | some a =>
      have e2 : left argv ⟨i, []⟩ = (a.length + 1) + ((argv.drop (i + 1)).map fun a : Bytes => a.length + 1).sum := by
        unfold left
        simp only [if_true, List.length_nil, Nat.zero_add]
        rw [List.getElem?_eq_some_iff] at ha
        obtain ⟨hi, ha⟩ := ha
        rw [List.drop_eq_getElem_cons hi, ha, List.map_cons, List.sum_cons]
      have e : ∃ c t, t.length ≤ a.length ∧ getopt argv ⟨i, []⟩ = getoptLetter argv i (c :: t) := by
        unfold getopt at hne ⊢
        simp only [if_true, ha] at hne ⊢
        by_cases h1 : a.head? ≠ some 45
        · rw [if_pos h1] at hne; exact absurd rfl hne
        · rw [if_neg h1] at hne ⊢
          by_cases h2 : a.tail.head? = some 45
          · rw [if_pos h2] at hne; exact absurd rfl hne
          · rw [if_neg h2]
            by_cases h3 : a.tail = []
            · rw [if_pos h3]
              cases a with
              | nil => simp at h1
              | cons x xs => exact ⟨x, xs, by simp, rfl⟩
            · rw [if_neg h3]
              cases hb : a.tail with
              | nil => exact absurd hb h3
              | cons x xs =>
                refine ⟨x, xs, ?_, rfl⟩
                have := congrArg List.length hb
                simp at this
                omega
      obtain ⟨c, t, hl, e⟩ := e
      rw [e] at hne ⊢
      have := left_letter argv i c t hne
      omega

theorem ok_bind (o : Opts) : (Except.ok o : Except Exit Opts).bind finish = finish o := rfl

theorem finish_plain (o : Opts) (hd : o.isdecimal = false) (hf : o.fcorr = 0) :
    finish o = .ok { fcorr := 0, legacy := o.islegacy, infile := bufName o.infilename, outfile := bufName o.outfilename,
                     freqfile := bufName o.freqfilename } := by
  unfold finish
  simp only [hd, hf, Bool.false_eq_true, if_false]
  rw [if_pos (by decide)]

theorem single_arg (prog v : Bytes) (c : UInt8) (hc : ArgLetter c) (r : Except Exit Opts) (hr : applyOpt opts0 c (some v) = r) :
    Ends [prog, [45, c], v] (r.bind finish) := by
  have := ends_of_loop (prog := prog) (Written.separate [] c v [] [] (by simp) hc Written.nil)
  rw [show (([] : Bytes).map Item.flag ++ Item.arg c v :: []).foldlM itemOpt opts0 = r by
    rw [← hr]
    simp only [List.map_nil, List.nil_append, List.foldlM_cons, List.foldlM_nil, itemOpt, bind_pure]] at this
  exact this

theorem dtob_err : |dtob - 2 ^ 34 / 10 ^ 10| ≤ 2 ^ 34 / 10 ^ 10 * 2 ^ (-53 : ℤ) := by
  have := fl_err 53 (2 ^ 34 / 10 ^ 10)
  rw [abs_of_pos (by norm_num : (0 : ℚ) < 2 ^ 34 / 10 ^ 10)] at this
  exact this

/-- Error of the conversion. -/
theorem decimal_err (n : ℤ) (hn : |n| ≤ 2 ^ 31) : |fl 53 ((n : ℚ) * dtob) - n * (2 ^ 34 / 10 ^ 10)| ≤ ((|n| : ℤ) : ℚ) * 2 ^ (-50 : ℤ) := by
  have h1 := fl_err 53 ((n : ℚ) * dtob)
  have h2 := dtob_err
  have h3 : |(n : ℚ) * dtob - n * (2 ^ 34 / 10 ^ 10)| ≤ |(n : ℚ)| * (2 ^ 34 / 10 ^ 10 * 2 ^ (-53 : ℤ)) := by
    rw [← mul_sub, abs_mul]
    exact mul_le_mul_of_nonneg_left h2 (abs_nonneg _)
  have h4 : |dtob| ≤ 2 := by
    rw [abs_le] at h2 ⊢
    norm_num at h2 ⊢
    constructor <;> linarith [h2.1, h2.2]
  have h5 : |(n : ℚ) * dtob| ≤ |(n : ℚ)| * 2 := by
    rw [abs_mul]
    exact mul_le_mul_of_nonneg_left h4 (abs_nonneg _)
  have h6 : |fl 53 ((n : ℚ) * dtob) - (n : ℚ) * dtob| ≤ |(n : ℚ)| * 2 * 2 ^ (-53 : ℤ) :=
    le_trans h1 (mul_le_mul_of_nonneg_right h5 (by positivity))
  have h7 : |fl 53 ((n : ℚ) * dtob) - n * (2 ^ 34 / 10 ^ 10)| ≤ |fl 53 ((n : ℚ) * dtob) - (n : ℚ) * dtob| + |(n : ℚ) * dtob - n * (2 ^ 34 / 10 ^ 10)| :=
    abs_sub_le _ _ _
  push_cast
  have h8 : |(n : ℚ)| * 2 * 2 ^ (-53 : ℤ) + |(n : ℚ)| * (2 ^ 34 / 10 ^ 10 * 2 ^ (-53 : ℤ)) ≤ |(n : ℚ)| * 2 ^ (-50 : ℤ) := by
    have : |(n : ℚ)| * 2 * 2 ^ (-53 : ℤ) + |(n : ℚ)| * (2 ^ 34 / 10 ^ 10 * 2 ^ (-53 : ℤ)) = |(n : ℚ)| * (2 * 2 ^ (-53 : ℤ) + 2 ^ 34 / 10 ^ 10 * 2 ^ (-53 : ℤ)) := by ring
    rw [this]
    exact mul_le_mul_of_nonneg_left (by norm_num) (abs_nonneg _)
  exact h7.trans ((add_le_add h6 h3).trans h8)

theorem dToI_nonneg (x : ℚ) (t : ℤ) (h0 : 0 ≤ x) (h1 : (t : ℚ) ≤ x) (h2 : x < t + 1) (h3 : t < 2 ^ 31) : (dToI x).toInt = t := by
  have hf : ⌊x⌋ = t := Int.floor_eq_iff.mpr ⟨h1, h2⟩
  have ht : 0 ≤ t := by
    have : (0 : ℚ) < t + 1 := lt_of_le_of_lt h0 h2
    have : (0 : ℤ) < t + 1 := by exact_mod_cast this
    omega
  unfold dToI
  simp only [if_pos h0, hf]
  rw [if_pos (by omega), BitVec.toInt_ofInt]
  exact Int.bmod_eq_of_le (by omega) (by omega)

theorem dToI_neg (x : ℚ) (t : ℤ) (h0 : x < 0) (h1 : (t : ℚ) - 1 < x) (h2 : x ≤ t) (h3 : -2 ^ 31 ≤ t) : (dToI x).toInt = t := by
  have hf : ⌈x⌉ = t := Int.ceil_eq_iff.mpr ⟨h1, h2⟩
  have ht : t ≤ 0 := by
    have : (t : ℚ) < 1 := by linarith
    have : t < 1 := by exact_mod_cast this
    omega
  unfold dToI
  simp only [if_neg (not_le.mpr h0), hf]
  rw [if_pos (by omega), BitVec.toInt_ofInt]
  exact Int.bmod_eq_of_le (by omega) (by omega)

theorem dec_parts (n : ℤ) (h1 : -1220703 ≤ n) (h2 : n ≤ 1220703) (hz : n ≠ 0) :
    ∃ q r : ℤ, n * 16777216 = 9765625 * q + r ∧ 1 ≤ r ∧ r ≤ 9765624 ∧ -2097153 ≤ q ∧ q ≤ 2097152 ∧ (0 < n → 0 ≤ q) ∧ (n < 0 → q < 0) := by
  have hq := (Int.mul_ediv_add_emod (n * 16777216) 9765625).symm
  have hr1 := Int.emod_nonneg (n * 16777216) (show (9765625 : ℤ) ≠ 0 by norm_num)
  have hr2 := Int.emod_lt_of_pos (n * 16777216) (show (0 : ℤ) < 9765625 by norm_num)
  generalize n * 16777216 / 9765625 = q at *
  generalize n * 16777216 % 9765625 = r at *
  refine ⟨q, r, hq, ?_, by linarith, by linarith, by linarith, fun h => by linarith, fun h => by linarith⟩
  rcases Int.lt_or_eq_of_le hr1 with h | h
  · exact h
  · exfalso
    subst h
    have e : n = 9765625 * (1597511 * q - 2744503 * n) := by linarith
    generalize 1597511 * q - 2744503 * n = z at e
    have z1 : z < 1 := by linarith
    have z2 : -1 < z := by linarith
    have : z = 0 := by linarith
    subst this
    exact hz (by linarith)

theorem dToI_pos_out (x : ℚ) (h : 2 ^ 31 ≤ x) : (dToI x).toInt = -2 ^ 31 := by
  have h0 : (0 : ℚ) ≤ x := le_trans (by norm_num) h
  have hf : (2 ^ 31 : ℤ) ≤ ⌊x⌋ := Int.le_floor.mpr (by exact_mod_cast h)
  unfold dToI
  simp only [if_pos h0]
  rw [if_neg (by omega)]
  decide +kernel

theorem dToI_neg_out (x : ℚ) (h : x ≤ -2 ^ 31 - 1) : (dToI x).toInt = -2 ^ 31 := by
  have h0 : x < 0 := lt_of_le_of_lt h (by norm_num)
  have hf : ⌈x⌉ ≤ (-2 ^ 31 - 1 : ℤ) := Int.ceil_le.mpr (le_trans h (by norm_num))
  unfold dToI
  simp only [if_neg (not_le.mpr h0)]
  rw [if_neg (by omega)]
  decide +kernel

/-- Bounds of the converted value. -/
theorem decimal_near (n : ℤ) (hn : |n| ≤ 2 ^ 31) :
    (n : ℚ) * (2 ^ 34 / 10 ^ 10) - 1 / 2 ^ 19 ≤ fl 53 ((n : ℚ) * dtob) ∧ fl 53 ((n : ℚ) * dtob) ≤ n * (2 ^ 34 / 10 ^ 10) + 1 / 2 ^ 19 := by
  have h := decimal_err n hn
  have h2 : ((|n| : ℤ) : ℚ) * 2 ^ (-50 : ℤ) ≤ 1 / 2 ^ 19 := by
    have : ((|n| : ℤ) : ℚ) ≤ 2 ^ 31 := by exact_mod_cast hn
    calc ((|n| : ℤ) : ℚ) * 2 ^ (-50 : ℤ) ≤ 2 ^ 31 * 2 ^ (-50 : ℤ) := mul_le_mul_of_nonneg_right this (by positivity)
      _ = 1 / 2 ^ 19 := by norm_num
  generalize ((|n| : ℤ) : ℚ) * 2 ^ (-50 : ℤ) = ε at *
  rw [abs_le] at h
  constructor <;> linarith [h.1, h.2]

theorem decimal_ne_min (f : BitVec 32) (h : |f.toInt| < 1250000000) : (decimalCorr f).toInt ≠ -2 ^ 31 := by
  unfold decimalCorr
  generalize f.toInt = n at *
  obtain ⟨g1, g2⟩ := decimal_near n (by omega)
  generalize fl 53 ((n : ℚ) * dtob) = y at *
  rw [abs_lt] at h
  have c1 : (n : ℚ) ≤ 1249999999 := by exact_mod_cast (by omega : n ≤ 1249999999)
  have c2 : (-1249999999 : ℚ) ≤ n := by exact_mod_cast (by omega : -1249999999 ≤ n)
  by_cases hy : 0 ≤ y
  · have y2 : y < 2 ^ 31 := by norm_num at g2 ⊢; linarith
    have f2 : ⌊y⌋ < (2 ^ 31 : ℤ) := Int.floor_lt.mpr (by exact_mod_cast y2)
    rw [dToI_nonneg y ⌊y⌋ hy (Int.floor_le y) (Int.lt_floor_add_one y) f2]
    have := Int.floor_nonneg.mpr hy
    omega
  · have hy := not_le.mp hy
    have y2 : -2 ^ 31 < y := by norm_num at g1 ⊢; linarith
    have f2 : (-2 ^ 31 : ℤ) < ⌈y⌉ := Int.lt_ceil.mpr (by push_cast; exact y2)
    rw [dToI_neg y ⌈y⌉ hy (by linarith [Int.ceil_lt_add_one y]) (Int.le_ceil y) f2.le]
    omega

theorem decimal_edge : (decimalCorr 1250000000).toInt = -2 ^ 31 ∧ (decimalCorr (-1250000000)).toInt = -2 ^ 31 := by decide +kernel

end Fp
