import Verif.Spec.TextLayout
import Verif.Props.RawMain
import Verif.Lemmas.TextDamage

/-! # C141: text files edited by hand -/
namespace Fp
open Spec

theorem universalNl_append (x y : List Char) (h : '\r' ∉ x) : universalNl (x ++ y) = x ++ universalNl y := by
  induction x with
  | nil => rfl
  | cons c x ih =>
    have hc : c ≠ '\r' := fun hc => h (by simp [hc])
    rw [List.cons_append, universalNl]
    · rw [ih (fun hx => h (by simp [hx]))]
      rfl
    · rintro cs' rfl; exact absurd rfl hc
    · rintro rfl; exact absurd rfl hc

theorem universalNl_end (e y : List Char) (h : FileLineEnd e) : universalNl (e ++ y) = '\n' :: universalNl y := by
  rcases h with rfl | rfl
  · rw [List.singleton_append, universalNl]
    · intro cs' h; simp at h
    · intro h; simp at h
  · rfl

theorem bytesText_any (cs : List Char) (h : ∀ c ∈ cs, c.toNat < 128) : bytesText (asciiBytes cs) = .ok (universalNl cs) := by
  have hb : ∀ c ∈ cs, (UInt8.ofNat c.toNat).toNat = c.toNat := by
    intro c hc
    have := h c hc
    rw [UInt8.toNat_ofNat']
    omega
  unfold bytesText asciiBytes
  rw [if_pos]
  · congr 2
    rw [List.map_map]
    conv_rhs => rw [← List.map_id cs]
    apply List.map_congr_left
    intro c hc
    simp only [Function.comp, hb c hc, id]
    exact Char.ofNat_toNat c
  · rw [List.all_eq_true]
    intro x hx
    obtain ⟨c, hc, rfl⟩ := List.mem_map.mp hx
    rw [hb c hc]
    simpa using h c hc

theorem comment_mem {c : List Char} (h : Comment c) : ∀ x ∈ c, 32 ≤ x.toNat ∧ x.toNat ≤ 126 := by
  rcases h with rfl | ⟨t, rfl, ht⟩
  · simp
  · intro x hx
    rcases List.mem_cons.mp hx with rfl | hx
    · decide
    · exact ht x hx

theorem not_of_range {p : List Char} (h : ∀ x ∈ p, 32 ≤ x.toNat ∧ x.toNat ≤ 126) : '\n' ∉ p ∧ '\r' ∉ p := by
  constructor <;> intro hc <;> have := (h _ hc).1 <;> revert this <;> decide

theorem entry_range {n m : Nat} {l c : List Char} (hl : TextEntry l) (hc : Comment c) :
    ∀ x ∈ List.replicate n ' ' ++ l ++ List.replicate m ' ' ++ c, 32 ≤ x.toNat ∧ x.toNat ≤ 126 := by
  intro x hx
  simp only [List.mem_append, List.mem_replicate] at hx
  rcases hx with ((⟨-, rfl⟩ | hx) | ⟨-, rfl⟩) | hx
  · decide
  · have := hl.2 x hx; omega
  · decide
  · exact comment_mem hc x hx

theorem empty_range {n : Nat} {c : List Char} (hc : Comment c) :
    ∀ x ∈ List.replicate n ' ' ++ c, 32 ≤ x.toNat ∧ x.toNat ≤ 126 := by
  intro x hx
  simp only [List.mem_append, List.mem_replicate] at hx
  rcases hx with ⟨-, rfl⟩ | hx
  · decide
  · exact comment_mem hc x hx

theorem dropComment_comment (p c : List Char) (hp : '#' ∉ p) (hc : Comment c) : dropComment (p ++ c) = p := by
  unfold dropComment
  have key : c.takeWhile (fun x => decide (x ≠ '#')) = [] := by
    rcases hc with rfl | ⟨t, rfl, -⟩ <;> simp
  have hall : ∀ x ∈ p, decide (x ≠ '#') = true := by
    intro x hx
    simp only [ne_eq, decide_not, Bool.not_eq_true', decide_eq_false_iff_not]
    rintro rfl
    exact hp hx
  rw [List.takeWhile_append_of_pos hall, key, List.append_nil]

theorem stripBy_blanks (n m : Nat) (l : List Char) (hl : ∀ c ∈ l, isLineSpace c = false) :
    stripBy isLineSpace (List.replicate n ' ' ++ l ++ List.replicate m ' ') = l := by
  have drop : ∀ (k : Nat) (b : List Char), (List.replicate k ' ' ++ b).dropWhile isLineSpace = b.dropWhile isLineSpace := by
    intro k b
    induction k with
    | zero => rfl
    | succ k ih => rw [List.replicate_succ, List.cons_append, List.dropWhile_cons_of_pos (by decide), ih]
  have keep : ∀ b : List Char, (∀ c ∈ b, isLineSpace c = false) → b.dropWhile isLineSpace = b := by
    intro b hb
    cases b with
    | nil => rfl
    | cons c b => rw [List.dropWhile_cons_of_neg]; simp [hb c (by simp)]
  unfold stripBy
  rw [List.append_assoc, drop]
  by_cases hne : l = []
  · subst hne
    rw [List.nil_append, ← List.append_nil (List.replicate m ' '), drop]
    rfl
  · have : (l ++ List.replicate m ' ').dropWhile isLineSpace = l ++ List.replicate m ' ' := by
      cases l with
      | nil => exact absurd rfl hne
      | cons c b => rw [List.cons_append, List.dropWhile_cons_of_neg]; simp [hl c (by simp)]
    rw [this, List.reverse_append, List.reverse_replicate, drop, keep _ (fun c hc => hl c (List.mem_reverse.mp hc)),
      List.reverse_reverse]

theorem strip_entry {n m : Nat} {l c : List Char} (hl : TextEntry l) (hc : Comment c) :
    stripBy isLineSpace (dropComment (List.replicate n ' ' ++ l ++ List.replicate m ' ' ++ c)) = l := by
  rw [dropComment_comment _ _ _ hc]
  · apply stripBy_blanks
    intro x hx
    have := (hl.2 x hx).1
    simp only [isLineSpace, decide_eq_false_iff_not]
    rintro (rfl | rfl | rfl) <;> revert this <;> decide
  · intro h
    simp only [List.mem_append, List.mem_replicate] at h
    rcases h with (⟨-, h⟩ | h) | ⟨-, h⟩
    · exact absurd h (by decide)
    · exact (hl.2 _ h).2.2 rfl
    · exact absurd h (by decide)

theorem strip_empty {n : Nat} {c : List Char} (hc : Comment c) :
    stripBy isLineSpace (dropComment (List.replicate n ' ' ++ c)) = [] := by
  rw [dropComment_comment _ _ _ hc]
  · have := stripBy_blanks n 0 [] (by simp)
    simpa using this
  · simp

theorem laidOut_ascii {ls : List (List Char)} {f : List Char} (h : LaidOut ls f) (hl : ∀ l ∈ ls, TextEntry l) :
    ∀ c ∈ f, c.toNat < 128 := by
  have hend : ∀ e, FileLineEnd e → ∀ c ∈ e, c.toNat < 128 := by
    rintro e (rfl | rfl) <;> decide
  induction h with
  | done => simp
  | empty n c e hc he _ ih =>
    intro x hx
    rcases List.mem_append.mp hx with hx | hx
    · have := empty_range hc x hx; omega
    · rcases List.mem_append.mp hx with hx | hx
      · exact hend _ he x hx
      · exact ih hl x hx
  | entry n l m c e hc he _ ih =>
    intro x hx
    rcases List.mem_append.mp hx with hx | hx
    · have := entry_range (hl l (by simp)) hc x hx; omega
    · rcases List.mem_append.mp hx with hx | hx
      · exact hend _ he x hx
      · exact ih (fun l hl' => hl l (by simp [hl'])) x hx
  | final n l m c hc =>
    intro x hx
    have := entry_range (hl l (by simp)) hc x hx; omega
  | finalEmpty n c hc =>
    intro x hx
    have := empty_range hc x hx; omega

theorem laidOut_lines {ls : List (List Char)} {f : List Char} (h : LaidOut ls f) (hl : ∀ l ∈ ls, TextEntry l) :
    ((splitNl (universalNl f)).map (fun l => stripBy isLineSpace (dropComment l))).filter (fun l => decide (l ≠ [])) = ls := by
  induction h with
  | done => decide
  | empty n c e hc he _ ih =>
    obtain ⟨h1, h2⟩ := not_of_range (empty_range (n := n) hc)
    rw [universalNl_append _ _ h2, universalNl_end _ _ he, splitNl_append _ _ h1, List.map_cons, strip_empty hc,
      List.filter_cons_of_neg (by simp)]
    exact ih hl
  | entry n l m c e hc he _ ih =>
    have hle := hl l (by simp)
    obtain ⟨h1, h2⟩ := not_of_range (entry_range (n := n) (m := m) hle hc)
    rw [universalNl_append _ _ h2, universalNl_end _ _ he, splitNl_append _ _ h1, List.map_cons, strip_entry hle hc,
      List.filter_cons_of_pos (by simp [hle.1]), ih (fun l hl' => hl l (by simp [hl']))]
  | final n l m c hc =>
    have hle := hl l (by simp)
    obtain ⟨h1, h2⟩ := not_of_range (entry_range (n := n) (m := m) hle hc)
    have := universalNl_append _ [] h2
    rw [List.append_nil] at this
    rw [this, universalNl, List.append_nil, splitNl_noNl _ h1, List.map_singleton, strip_entry hle hc, List.filter_cons_of_pos (by simp [hle.1])]
    rfl
  | finalEmpty n c hc =>
    obtain ⟨h1, h2⟩ := not_of_range (empty_range (n := n) hc)
    have := universalNl_append _ [] h2
    rw [List.append_nil] at this
    rw [this, universalNl, List.append_nil, splitNl_noNl _ h1, List.map_singleton, strip_empty hc]
    rfl

/-- **C141** (reading at once): two text files that hold the same entries are read alike, whatever their layout: the same
events, or the same exception. -/
theorem C141_layout (fw : Nat) (fmt : Fmt) (hfmt : fmt ≠ .a1) (legacy : Bool) (res : Tsres) (frac : Bool) (ls : List (List Char))
    (hl : ∀ l ∈ ls, TextEntry l) (f g : List Char) (hf : LaidOut ls f) (hg : LaidOut ls g) :
    readFmt fw fmt legacy res frac (asciiBytes f) = readFmt fw fmt legacy res frac (asciiBytes g) := by
  have key : ∀ w, genfromtxt w (universalNl f) = genfromtxt w (universalNl g) := by
    intro w
    unfold genfromtxt
    rw [laidOut_lines hf hl, laidOut_lines hg hl]
  unfold readFmt
  rw [bytesText_any f (laidOut_ascii hf hl), bytesText_any g (laidOut_ascii hg hl)]
  cases fmt with
  | a0 =>
    show readA0 _ _ _ _ = readA0 _ _ _ _
    unfold readA0
    rw [key]
  | a1 => exact absurd rfl hfmt
  | a2 =>
    show readA2 _ _ _ _ = readA2 _ _ _ _
    unfold readA2
    rw [key]

theorem entry_hexPad (w n : Nat) : TextEntry (hexPad w n) := by
  refine ⟨(Line_hexPad w n).1, ?_⟩
  intro c hc
  rw [hexPad_eq] at hc
  obtain ⟨d, hd, rfl⟩ := List.mem_map.mp hc
  have hlt := padDigs_lt w n d hd
  have key : ∀ d < 16, 33 ≤ (hexChar d).toNat ∧ (hexChar d).toNat ≤ 126 ∧ hexChar d ≠ '#' := by decide
  exact key d hlt

theorem entries_entry (fmt : Fmt) (raws : List (Nat × Nat)) : ∀ l ∈ entries fmt raws, TextEntry l := by
  intro l hl
  cases fmt with
  | a0 =>
    obtain ⟨r, -, h⟩ := List.mem_flatMap.mp hl
    simp only [List.mem_cons, List.not_mem_nil, or_false] at h
    rcases h with rfl | rfl <;> exact entry_hexPad _ _
  | a1 => simp [entries] at hl
  | a2 =>
    obtain ⟨r, -, rfl⟩ := List.mem_map.mp hl
    exact entry_hexPad _ _

/-- The file that the programs write is one of the layouts. -/
theorem C141_written (fmt : Fmt) (hfmt : fmt ≠ .a1) (legacy : Bool) (raws : List (Nat × Nat)) :
    ∃ f, LaidOut (entries fmt raws) f ∧ fileOf fmt legacy raws = asciiBytes f := by
  have one : ∀ l ls f, LaidOut ls f → LaidOut (l :: ls) (l ++ ['\n'] ++ f) := by
    intro l ls f h
    have := LaidOut.entry 0 l 0 [] ['\n'] (Or.inl rfl) (Or.inl rfl) h
    simpa using this
  cases fmt with
  | a0 =>
    refine ⟨raws.flatMap a0Event, ?_, rfl⟩
    induction raws with
    | nil => exact .done
    | cons r raws ih =>
      have := one (hexPad 8 (r.1 % 2 ^ 22 * 2 ^ 10 + r.2)) _ _ (one (hexPad 8 (r.1 / 2 ^ 22)) _ _ ih)
      rw [List.flatMap_cons]
      simpa [entries, a0Event] using this
  | a1 => exact absurd rfl hfmt
  | a2 =>
    refine ⟨raws.flatMap a2Event, ?_, rfl⟩
    induction raws with
    | nil => exact .done
    | cons r raws ih =>
      have := one (hexPad 16 (r.1 * 2 ^ 10 + r.2)) _ _ ih
      rw [List.flatMap_cons]
      simpa [entries, a2Event] using this

/-- `parse_timestamps` learns from the input file only what the reader gives. -/
theorem main_reads (fw : Nat) (args : TsArgs) (files files' : Files) (x y : Bytes) (hx : files args.infile = some x)
    (hy : files' args.infile = some y) (hrest : ∀ n, n ≠ args.infile → files n = files' n)
    (hdiff : args.outfile ≠ some args.infile)
    (hm : args.inmemory = true → readFmt fw args.inFmt args.legacyIn .ns1 true x = readFmt fw args.inFmt args.legacyIn .ns1 true y)
    (hs : args.inmemory = false → ∀ res frac, sreadFmt fw args.inFmt args.legacyIn res frac 100000 x =
      sreadFmt fw args.inFmt args.legacyIn res frac 100000 y) :
    SameEffect args.infile (tsMain fw args files) (tsMain fw args files') := by
  have hset : ∀ o (b : Bytes) n, n ≠ args.infile → files.set o b n = files'.set o b n := by
    intro o b n hn
    unfold Files.set
    split
    · rfl
    · exact hrest n hn
  unfold tsMain
  simp only [hx, hy]
  by_cases h0 : ¬ args.print = true ∧ args.outfile.getD [] = []
  · rw [if_pos h0, if_pos h0]
    exact ⟨rfl, rfl, hrest⟩
  rw [if_neg h0, if_neg h0]
  by_cases hmem : args.inmemory = true
  · rw [if_pos hmem, if_pos hmem, hm hmem]
    cases readFmt fw args.inFmt args.legacyIn .ns1 true y with
    | error e => exact ⟨rfl, rfl, hrest⟩
    | ok evs =>
      simp only []
      by_cases hp : args.print = true
      · rw [if_pos hp, if_pos hp]
        cases printStatistics (filterBatch args.filter .ns1 evs) <;> exact ⟨rfl, rfl, hrest⟩
      · rw [if_neg hp, if_neg hp]
        exact ⟨rfl, rfl, hset _ _⟩
  · rw [if_neg hmem, if_neg hmem]
    have hs' := hs (by simpa using hmem)
    by_cases hp : args.print = true
    · rw [if_pos hp, if_pos hp]
      by_cases ha : args.filter.any = true
      · rw [if_pos ha, if_pos ha, hs']
        cases (sreadFmt fw args.inFmt args.legacyIn .ns1 true 100000 y).2 <;> exact ⟨rfl, rfl, hrest⟩
      · rw [if_neg ha, if_neg ha, hs']
        cases (sreadFmt fw args.inFmt args.legacyIn .ps4 false 100000 y).2 <;> exact ⟨rfl, rfl, hrest⟩
    · rw [if_neg hp, if_neg hp]
      have hne : args.infile ≠ args.outfile.getD [] := by
        intro he
        cases ho : args.outfile with
        | none => exact h0 ⟨hp, by rw [ho]; rfl⟩
        | some o => rw [ho] at he hdiff; exact hdiff (congrArg some he.symm)
      have e1 : (files.set (args.outfile.getD []) [] args.infile).getD [] = x := by
        unfold Files.set; rw [if_neg hne, hx]; rfl
      have e2 : (files'.set (args.outfile.getD []) [] args.infile).getD [] = y := by
        unfold Files.set; rw [if_neg hne, hy]; rfl
      rw [e1, e2, hs']
      refine ⟨rfl, rfl, ?_⟩
      intro n hn
      show Files.set _ _ _ n = Files.set _ _ _ n
      unfold Files.set
      split
      · rfl
      · exact hrest n hn

/-- **C141** (the command): with `--inmemory`, a text file edited by hand is converted and summarised like the file written
by the programs that holds the same events. -/
theorem C141_main (fw : Nat) (args : TsArgs) (hfmt : args.inFmt ≠ .a1) (hmem : args.inmemory = true)
    (hdiff : args.outfile ≠ some args.infile) (raws : List (Nat × Nat)) (f : List Char) (hf : LaidOut (entries args.inFmt raws) f)
    (files files' : Files) (hx : files args.infile = some (asciiBytes f))
    (hy : files' args.infile = some (fileOf args.inFmt args.legacyIn raws)) (hrest : ∀ n, n ≠ args.infile → files n = files' n) :
    SameEffect args.infile (tsMain fw args files) (tsMain fw args files') := by
  obtain ⟨g, hg, he⟩ := C141_written args.inFmt hfmt args.legacyIn raws
  rw [he] at hy
  exact main_reads fw args files files' _ _ hx hy hrest hdiff
    (fun _ => C141_layout fw args.inFmt hfmt args.legacyIn .ns1 true _ (entries_entry _ _) f g hf hg)
    (fun h => absurd h (by simp [hmem]))

theorem universalNl_windows (f : List Char) (h : '\r' ∉ f) : universalNl (windows f) = f := by
  induction f with
  | nil => rfl
  | cons c f ih =>
    have ih := ih fun hc => h (by simp [hc])
    have hc : c ≠ '\r' := fun hc => h (by simp [hc])
    unfold windows at ih ⊢
    rw [List.flatMap_cons]
    by_cases hn : c = '\n'
    · subst hn
      rw [if_pos rfl, universalNl_end _ _ (Or.inr rfl), ih]
    · rw [if_neg hn, universalNl_append _ _ (by simpa using Ne.symm hc), ih]
      rfl

/-- **C141** (line ends): the line ends of Windows make no difference to a text file, neither with `--inmemory` nor without. -/
theorem C141_windows (fw : Nat) (args : TsArgs) (hfmt : args.inFmt ≠ .a1) (hdiff : args.outfile ≠ some args.infile)
    (f : List Char) (hascii : ∀ c ∈ f, c.toNat < 128 ∧ c ≠ '\r') (files files' : Files)
    (hx : files args.infile = some (asciiBytes (windows f))) (hy : files' args.infile = some (asciiBytes f))
    (hrest : ∀ n, n ≠ args.infile → files n = files' n) :
    SameEffect args.infile (tsMain fw args files) (tsMain fw args files') := by
  have hw : ∀ c ∈ windows f, c.toNat < 128 := by
    intro c hc
    obtain ⟨d, hd, h⟩ := List.mem_flatMap.mp hc
    by_cases hn : d = '\n'
    · rw [if_pos hn] at h
      simp only [List.mem_cons, List.not_mem_nil, or_false] at h
      rcases h with rfl | rfl <;> decide
    · rw [if_neg hn, List.mem_singleton] at h
      rw [h]; exact (hascii d hd).1
  have hr : '\r' ∉ f := fun h => (hascii _ h).2 rfl
  have hsame : universalNl f = f := by
    have := universalNl_append f [] hr
    rw [List.append_nil] at this
    rw [this, universalNl, List.append_nil]
  have key : bytesText (asciiBytes (windows f)) = bytesText (asciiBytes f) := by
    rw [bytesText_any _ hw, bytesText_any _ (fun c hc => (hascii c hc).1), universalNl_windows f hr, hsame]
  apply main_reads fw args files files' _ _ hx hy hrest hdiff
  · intro _
    unfold readFmt
    rw [key]
    cases h : args.inFmt with
    | a1 => exact absurd h hfmt
    | a0 => rfl
    | a2 => rfl
  · intro _ res frac
    unfold sreadFmt
    rw [key]
    cases h : args.inFmt with
    | a1 => exact absurd h hfmt
    | a0 => rfl
    | a2 => rfl

/-- A line end in the middle of a text is not removed by `strip`. -/
theorem mem_empty_line (a b : List (List Char)) (ha : ∀ l ∈ a, Line l) (hb : ∀ l ∈ b, Line l) (hna : a ≠ []) (hnb : b ≠ []) :
    [] ∈ splitNl (strip (textOf a ++ '\n' :: textOf b)) := by
  obtain ⟨init, last, rfl⟩ : ∃ init last, b = init ++ [last] :=
    ⟨b.dropLast, b.getLast hnb, (List.dropLast_append_getLast hnb).symm⟩
  have hlast : Line last := hb last (by simp)
  have e1 : textOf a ++ '\n' :: textOf (init ++ [last]) = (textOf a ++ '\n' :: textOf init) ++ (last ++ ['\n']) := by simp [textOf]
  have e2 : ((textOf a ++ '\n' :: textOf init) ++ (last ++ ['\n'])).dropWhile isSpace =
      (textOf a ++ '\n' :: textOf init) ++ (last ++ ['\n']) := by
    cases a with
    | nil => exact absurd rfl hna
    | cons l ls =>
      have : (textOf (l :: ls) ++ '\n' :: textOf init) ++ (last ++ ['\n']) =
          l ++ ('\n' :: (textOf ls ++ '\n' :: textOf init ++ (last ++ ['\n']))) := by
        simp [textOf]
      rw [this]
      exact dropWhile_line l _ (ha l (by simp))
  have e3 : strip (textOf a ++ '\n' :: textOf (init ++ [last])) = (textOf a ++ '\n' :: textOf init) ++ last := by
    unfold strip stripBy
    rw [e1, e2]
    have : ((textOf a ++ '\n' :: textOf init) ++ (last ++ ['\n'])).reverse =
        '\n' :: (last.reverse ++ (textOf a ++ '\n' :: textOf init).reverse) := by simp
    rw [this, List.dropWhile_cons_of_pos (by decide), dropWhile_line _ _ (Line_reverse hlast)]
    simp
  rw [e3, List.append_assoc, splitNl_textOf a ha, List.cons_append, splitNl, if_pos rfl]
  simp

theorem parseAllHex_empty (ls : List (List Char)) (h : [] ∈ ls) : parseAllHex ls = .error .valueError := by
  induction ls with
  | nil => simp at h
  | cons a ls ih =>
    unfold parseAllHex
    rcases List.mem_cons.mp h with rfl | h
    · rfl
    · rw [ih h]
      cases pyInt16 a <;> rfl

/-- **C141 is violated** without `--inmemory`, for every a2 file of fewer than 100000 events: one empty line between two
events ends the command with `ValueError`. -/
theorem C141_stream_violated (fw : Nat) (args : TsArgs) (files : Files) (hfmt : args.inFmt = .a2) (hmem : args.inmemory = false)
    (hprint : args.print = true) (pre post : List (Nat × Nat)) (hv : ∀ r ∈ pre ++ post, Valid r) (h1 : pre ≠ []) (h2 : post ≠ [])
    (hlen : pre.length + post.length < 100000)
    (hin : files args.infile = some (asciiBytes (pre.flatMap a2Event ++ ['\n'] ++ post.flatMap a2Event))) :
    tsMain fw args files = ⟨files, none, some .valueError⟩ ∧
      LaidOut (entries .a2 (pre ++ post)) (pre.flatMap a2Event ++ ['\n'] ++ post.flatMap a2Event) := by
  have hlength : ∀ l : List (Nat × Nat), (∀ r ∈ l, Valid r) → (l.flatMap a2Event).length = 17 * l.length := by
    intro l hl
    induction l with
    | nil => rfl
    | cons r l ih =>
      have hr := hl r (by simp)
      unfold Valid at hr
      rw [List.flatMap_cons, List.length_append, ih (fun x hx => hl x (by simp [hx]))]
      unfold a2Event
      rw [List.length_append, hexPad_length 16 _ (by norm_num) (lt_hex16 (by omega)), List.length_singleton, List.length_cons]
      omega
  have hlay : LaidOut (entries .a2 (pre ++ post)) (pre.flatMap a2Event ++ ['\n'] ++ post.flatMap a2Event) := by
    have one : ∀ l ls f, LaidOut ls f → LaidOut (l :: ls) (l ++ ['\n'] ++ f) := by
      intro l ls f h
      have := LaidOut.entry 0 l 0 [] ['\n'] (Or.inl rfl) (Or.inl rfl) h
      simpa using this
    have many : ∀ (p : List (Nat × Nat)) ls f, LaidOut ls f → LaidOut (entries .a2 p ++ ls) (p.flatMap a2Event ++ f) := by
      intro p ls f h
      induction p with
      | nil => exact h
      | cons r p ih =>
        have := one (hexPad 16 (r.1 * 2 ^ 10 + r.2)) _ _ ih
        simpa [entries, a2Event] using this
    have hpost := many post [] [] .done
    rw [List.append_nil, List.append_nil] at hpost
    have hmid := LaidOut.empty 0 [] ['\n'] (Or.inl rfl) (Or.inl rfl) hpost
    have := many pre _ _ hmid
    simpa [entries] using this
  refine ⟨?_, hlay⟩
  have hfile := hlength pre fun r hr => hv r (by simp [hr])
  have hfile2 := hlength post fun r hr => hv r (by simp [hr])
  have hlines : ∀ p : List (Nat × Nat), ∀ l ∈ (p.map fun r : Nat × Nat => r.1 * 1024 + r.2).map (hexPad 16), Line l := by
    intro p l hl
    obtain ⟨x, -, rfl⟩ := List.mem_map.mp hl
    exact Line_hexPad 16 x
  have hdec : ∀ res frac, decodeA2 fw res frac (splitNl (strip (pre.flatMap a2Event ++ ['\n'] ++ post.flatMap a2Event))) =
      .error .valueError := by
    intro res frac
    unfold decodeA2
    rw [parseAllHex_empty]
    · rfl
    · rw [List.append_assoc, List.singleton_append, a2_text pre, a2_text post]
      exact mem_empty_line _ _ (hlines pre) (hlines post) (by simpa using h1) (by simpa using h2)
  have hascii : ∀ c ∈ pre.flatMap a2Event ++ ['\n'] ++ post.flatMap a2Event, c.toNat < 128 ∧ c ≠ '\r' := by
    intro c hc
    rcases List.mem_append.mp hc with hc | hc
    · rcases List.mem_append.mp hc with hc | hc
      · exact a2_ascii pre c hc
      · rw [List.mem_singleton] at hc; subst hc; decide
    · exact a2_ascii post c hc
  have hread : ∀ res frac, sreadFmt fw .a2 args.legacyIn res frac 100000
      (asciiBytes (pre.flatMap a2Event ++ ['\n'] ++ post.flatMap a2Event)) = ([], some .valueError) := by
    intro res frac
    unfold sreadFmt
    have := bytesText_ascii _ hascii
    unfold asciiBytes
    simp only [this]
    unfold sreadA2
    have htake : (pre.flatMap a2Event ++ ['\n'] ++ post.flatMap a2Event).take (100000 * 17) =
        pre.flatMap a2Event ++ ['\n'] ++ post.flatMap a2Event := by
      apply List.take_of_length_le
      simp only [List.length_append, hfile, hfile2, List.length_singleton]
      omega
    rw [streamLoop, htake, dif_neg (by simp), hdec]
  unfold tsMain
  simp only [hprint, not_true_eq_false, false_and, if_false, hin, hmem, Bool.false_eq_true, if_true, hfmt, hread]
  split <;> rfl

/-- An edited file of two events: a comment, an empty line, blanks around the numbers, the line ends of Windows, and no line
end at the end. -/
example : LaidOut (entries .a2 [(1, 2), (3, 4)])
    ("# test\r\n\n  0000000000000402 # first\r\n0000000000000c04".toList) := by
  have h1 := LaidOut.final 0 "0000000000000c04".toList 0 [] (Or.inl rfl)
  have h2 := LaidOut.entry 2 "0000000000000402".toList 1 "# first".toList ['\r', '\n'] (Or.inr ⟨" first".toList, by decide, by decide⟩)
    (Or.inr rfl) h1
  have h3 := LaidOut.empty 0 [] ['\n'] (Or.inl rfl) (Or.inl rfl) h2
  have h4 := LaidOut.empty 0 "# test".toList ['\r', '\n'] (Or.inr ⟨" test".toList, by decide, by decide⟩) (Or.inr rfl) h3
  have he : entries .a2 [(1, 2), (3, 4)] = ["0000000000000402".toList, "0000000000000c04".toList] := by decide +kernel
  rw [he]
  exact h4

/-- **C116** (bytes): a text file with a byte that is no ASCII character is refused by the command with `ValueError`, in every
mode. -/
theorem C116_bytes (fw : Nat) (args : TsArgs) (files : Files) (hfmt : args.inFmt ≠ .a1) (hdiff : args.outfile ≠ some args.infile)
    (x : Bytes) (hin : files args.infile = some x) (b : UInt8) (hb : b ∈ x) (h128 : 128 ≤ b.toNat) :
    (tsMain fw args files).err = some .valueError ∧ (tsMain fw args files).report = none := by
  have hbt : bytesText x = .error .valueError := by
    unfold bytesText
    rw [if_neg]
    rw [List.all_eq_true]
    intro h
    have := of_decide_eq_true (h b hb)
    omega
  have h1 : ∀ res frac, readFmt fw args.inFmt args.legacyIn res frac x = .error .valueError := by
    intro res frac
    unfold readFmt
    rw [hbt]
    cases h : args.inFmt with
    | a1 => exact absurd h hfmt
    | a0 => rfl
    | a2 => rfl
  have h2 : ∀ res frac, sreadFmt fw args.inFmt args.legacyIn res frac 100000 x = ([], some .valueError) := by
    intro res frac
    unfold sreadFmt
    rw [hbt]
    cases h : args.inFmt with
    | a1 => exact absurd h hfmt
    | a0 => rfl
    | a2 => rfl
  unfold tsMain
  simp only [hin, h1, h2]
  by_cases h0 : ¬ args.print = true ∧ args.outfile.getD [] = []
  · rw [if_pos h0]
    exact ⟨rfl, rfl⟩
  rw [if_neg h0]
  by_cases hmem : args.inmemory = true
  · rw [if_pos hmem]
    exact ⟨rfl, rfl⟩
  · rw [if_neg hmem]
    by_cases hp : args.print = true
    · rw [if_pos hp]
      split <;> exact ⟨rfl, rfl⟩
    · rw [if_neg hp]
      have hne : args.infile ≠ args.outfile.getD [] := by
        intro he
        cases ho : args.outfile with
        | none => exact h0 ⟨hp, by rw [ho]; rfl⟩
        | some o => rw [ho] at he hdiff; exact hdiff (congrArg some he.symm)
      have e1 : (files.set (args.outfile.getD []) [] args.infile).getD [] = x := by
        unfold Files.set; rw [if_neg hne, hin]; rfl
      rw [e1, h2]
      exact ⟨rfl, rfl⟩

/-- Hypotheses of `C116_bytes`: a byte of a UTF-8 text. -/
example : (0xC3 : UInt8) ∈ ([0x30, 0xC3, 0x0A] : Bytes) ∧ 128 ≤ (0xC3 : UInt8).toNat := by decide

end Fp
