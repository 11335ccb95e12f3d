import Verif.Lemmas.TestGen

/-! # Properties of the test case generator: C56, C57 -/
namespace Fp
open Spec

/-- **C56**, one event: the time modulo 2^54 and the pattern in the a1 format, with the words in the order asked for by the
variable of the module. -/
theorem C56_event (legacy : Bool) (t p : Int) (ht : 0 ≤ t) (hp : 0 ≤ p) (hp' : p < 16) :
    getEvent legacy t p = .ok (a1Event legacy (t.toNat % 2 ^ 54, p.toNat)) := getEvent_eq legacy t p ht hp hp'

/-- An event without time overflow, one with, and one in the legacy order. -/
example : getEvent false 5 1 = .ok [1, 20, 0, 0, 0, 0, 0, 0] ∧ getEvent false (2 ^ 54 + 5) 1 = .ok [1, 20, 0, 0, 0, 0, 0, 0] ∧
    getEvent true 5 1 = .ok [0, 0, 0, 0, 1, 20, 0, 0] := by decide +kernel

/-- **C56**, output to a file: with or without -x the file gets the events of the times given with -t in the normal word
order, whatever was in it, and nothing else changes. -/
theorem C56_file_partial (fw : Nat) (name temp : List Char) (hn : name ≠ []) (ts : List Int) (hts : ts ≠ []) (h : ∀ t ∈ ts, 0 ≤ t) (x : Bool)
    (infile : Option (List Char)) (stdin : Bytes) (lines : List Typed) (w : World) :
    genMain fw { o := some name, t := some ts, x := x, infile := infile } temp stdin lines w =
      (w.put name (some (ts.flatMap fun t => a1Event false (t.toNat % 2 ^ 54, 1))), none) := by
  obtain ⟨c, n, rfl⟩ := List.exists_cons_of_ne_nil hn
  obtain ⟨a, l, rfl⟩ := List.exists_cons_of_ne_nil hts
  have := writeAll_file (c :: n) (a :: l) h w []
  rw [List.nil_append] at this
  exact this

/-- **C56**, the same for the standard output. -/
theorem C56_stdout_partial (fw : Nat) (temp : List Char) (ts : List Int) (hts : ts ≠ []) (h : ∀ t ∈ ts, 0 ≤ t) (x : Bool)
    (infile : Option (List Char)) (stdin : Bytes) (lines : List Typed) (w : World) :
    genMain fw { o := none, t := some ts, x := x, infile := infile } temp stdin lines w =
      ({ w with out := w.out ++ ts.map fun t => .raw (a1Event false (t.toNat % 2 ^ 54, 1)) }, none) := by
  obtain ⟨a, l, rfl⟩ := List.exists_cons_of_ne_nil hts
  exact writeAll_stdout (a :: l) h w

/-- **C56**, reading: `read_a1` returns the times modulo 2^54, with pattern 1, in the same order. -/
theorem C56_readback_partial (fw : Nat) (hfw : 54 ≤ fw) (res : Tsres) (frac : Bool) (ts : List Int) :
    readA1 fw false res frac (ts.flatMap fun t => a1Event false (t.toNat % 2 ^ 54, 1)) =
      .ok (ts.map fun t => (readValue res frac (t.toNat % 2 ^ 54), 1)) := by
  have := C03_modes_exact fw hfw false res frac (ts.map fun t => (t.toNat % 2 ^ 54, 1))
    (by
      intro r hr
      rw [List.mem_map] at hr
      obtain ⟨t, _, rfl⟩ := hr
      exact ⟨Nat.mod_lt _ (by norm_num), by norm_num⟩)
  rw [List.flatMap_map, List.map_map] at this
  exact this

/-- **C56** fails for -x: the events written for the times 0 and 1 are read back, as legacy events, with other times. -/
theorem C56_violated (w : World) :
    ∃ file : Bytes, (genMain 64 { o := some ['a'], t := some [0, 1], x := true, infile := none } [] [] [] w).1.files ['a'] = some file ∧
      file ≠ [(0, 1), (1, 1)].flatMap (a1Event true) ∧ readA1 64 true .ps4 false file = .ok [(.u64 (2 ^ 22), 0), (.u64 (1025 * 2 ^ 22), 0)] := by
  rw [C56_file_partial 64 ['a'] [] (by simp) [0, 1] (by simp) (by simp) true none [] [] w]
  refine ⟨_, put_get _ _ _, ?_, ?_⟩
  · decide +kernel
  · decide +kernel

/-- The numbers among the lines typed. -/
def typedNumbers : List Typed → List Int
  | [] => []
  | .number n :: l => n :: typedNumbers l
  | _ :: l => typedNumbers l

theorem interactive_file (name : List Char) (l rest : List Typed) (hl : Typed.interrupt ∉ l) (h : ∀ t ∈ typedNumbers l, 0 ≤ t) (w : World)
    (c : Bytes) :
    interactive (some name) (l ++ rest) (w.put name (some c)) =
      interactive (some name) rest (w.put name (some (c ++ (typedNumbers l).flatMap fun t => a1Event false (t.toNat % 2 ^ 54, 1)))) := by
  induction l generalizing c with
  | nil => simp [typedNumbers]
  | cons x l ih =>
    have hl' : Typed.interrupt ∉ l := fun hx => hl (by simp [hx])
    cases x with
    | interrupt => simp at hl
    | other => exact ih hl' h c
    | number t =>
      have he := getEvent_eq moduleLegacy t 1 (h t (by simp [typedNumbers])) (by norm_num) (by norm_num)
      have step : ∀ w, interactive (some name) (.number t :: l ++ rest) w =
          interactive (some name) (l ++ rest) (writeEvent (some name) (a1Event moduleLegacy (t.toNat % 2 ^ 54, (1 : Int).toNat)) w) := by
        intro w
        simp only [List.cons_append, interactive, he]
      rw [step]
      simp only [writeEvent, World.append, put_get, put_put, Option.getD_some]
      rw [ih hl' (fun t ht => h t (by simp [typedNumbers, ht])) _]
      simp [typedNumbers, moduleLegacy]

/-- **C56**, times typed in: until Ctrl-C the events of all numbers are written, other lines are ignored; a negative number
raises `AssertionError` after the events before it, and the end of the input `EOFError`. -/
theorem C56_interactive (fw : Nat) (name temp : List Char) (hn : name ≠ []) (l rest : List Typed) (hl : Typed.interrupt ∉ l)
    (h : ∀ t ∈ typedNumbers l, 0 ≤ t) (x : Bool) (stdin : Bytes) (w w' : World)
    (hw : w' = w.put name (some ((typedNumbers l).flatMap fun t => a1Event false (t.toNat % 2 ^ 54, 1)))) :
    genMain fw { o := some name, t := none, x := x, infile := none } temp stdin (l ++ .interrupt :: rest) w = (w', none) ∧
    genMain fw { o := some name, t := none, x := x, infile := none } temp stdin l w = (w', some .eofError) ∧
    ∀ t < 0, genMain fw { o := some name, t := none, x := x, infile := none } temp stdin (l ++ .number t :: rest) w =
      (w', some .assertionError) := by
  obtain ⟨c, n, rfl⟩ := List.exists_cons_of_ne_nil hn
  have key : ∀ r, genMain fw { o := some (c :: n), t := none, x := x, infile := none } temp stdin (l ++ r) w =
      interactive (some (c :: n)) r w' := by
    intro r
    have := interactive_file (c :: n) l r hl h w []
    rw [List.nil_append, ← hw] at this
    exact this
  refine ⟨key _, ?_, fun t ht => ?_⟩
  · have := key []
    rw [List.append_nil] at this
    exact this
  · rw [key]
    unfold interactive getEvent
    rw [if_pos (by omega)]

/-- Instance of `C56_interactive`: a typing error between two numbers, then Ctrl-C. -/
example : (genMain 64 { o := some ['a'], t := none, x := false, infile := none } [] [] [.number 0, .other, .number 1, .interrupt]
    { files := fun _ => none, out := [] }).1.files ['a'] = some [1, 0, 0, 0, 0, 0, 0, 0, 1, 4, 0, 0, 0, 0, 0, 0] := by decide +kernel

/-- **C56**, negative times: the events before the first negative time are written, then `AssertionError` is raised. -/
theorem C56_negative (fw : Nat) (temp : List Char) (ts ts' : List Int) (t : Int) (h : ∀ t ∈ ts, 0 ≤ t) (ht : t < 0) (x : Bool)
    (infile : Option (List Char)) (stdin : Bytes) (lines : List Typed) (w : World) :
    genMain fw { o := none, t := some (ts ++ t :: ts'), x := x, infile := infile } temp stdin lines w =
      ({ w with out := w.out ++ ts.map fun t => .raw (a1Event false (t.toNat % 2 ^ 54, 1)) }, some .assertionError) := by
  have key : ∀ w : World, writeAll none (ts ++ t :: ts') w =
      ({ w with out := w.out ++ ts.map fun t => .raw (a1Event false (t.toNat % 2 ^ 54, 1)) }, some .assertionError) := by
    induction ts with
    | nil =>
      intro w
      simp only [List.nil_append, writeAll, getEvent]
      rw [if_pos (by omega)]
      simp
    | cons a ts ih =>
      intro w
      rw [List.cons_append]
      unfold writeAll
      rw [getEvent_eq moduleLegacy a 1 (h a (by simp)) (by norm_num) (by norm_num)]
      simp only [writeEvent]
      rw [ih (fun t ht => h t (by simp [ht]))]
      simp [moduleLegacy]
  have hne : ∃ a l, ts ++ t :: ts' = a :: l := by
    cases ts with
    | nil => exact ⟨_, _, rfl⟩
    | cons a l => exact ⟨_, _, rfl⟩
  have hk := key w
  obtain ⟨a, l, hl⟩ := hne
  rw [hl] at hk ⊢
  exact hk

example : ∀ t ∈ [(3 : Int), 2 ^ 60], 0 ≤ t := by decide

/-! ## C57 -/

/-- **C57** fails: the file named on the command line is replaced by the contents of the standard input. -/
theorem C57_violated (fw : Nat) (name temp : List Char) (hn : name ≠ []) (hd : name ≠ ['-']) (x : Bool) (stdin : Bytes)
    (lines : List Typed) (w : World) :
    (genMain fw { o := none, t := none, x := x, infile := some name } temp stdin lines w).1.files name = some stdin := by
  obtain ⟨c, n, rfl⟩ := List.exists_cons_of_ne_nil hn
  unfold genMain
  simp only [truthy, if_neg hd, decide_eq_false hd, convertInput, Bool.false_eq_true, if_false]
  split
  · exact put_get _ _ _
  · exact put_get _ _ _

/-- The file is lost when the standard input is empty. -/
example : (genMain 64 { o := none, t := none, x := false, infile := some ['a'] } [] [] []
    { files := fun _ => some [0, 4, 0, 0, 0, 0, 0, 0], out := [] }).1.files ['a'] = some [] :=
  C57_violated 64 ['a'] [] (by simp) (by simp) false [] [] _

/-- **C57** for the standard input (`-`): prints the times of the events read from it, and leaves all files as they are if
the random name is not in use. -/
theorem C57_stdin_partial (fw : Nat) (hfw : 54 ≤ fw) (temp : List Char) (x : Bool) (raws : List (Nat × Nat)) (h : ∀ r ∈ raws, Valid r)
    (lines : List Typed) (w : World) (ht : w.files temp = none) :
    genMain fw { o := none, t := none, x := x, infile := some ['-'] } temp (raws.flatMap (a1Event x)) lines w =
      ({ w with out := w.out ++ raws.map fun r => .num r.1 }, none) := by
  unfold genMain
  simp only [truthy, if_true, decide_true, convertInput, put_get, Option.getD_some]
  rw [C03_modes_exact fw hfw x .ns1 true raws h]
  simp only
  have e1 : (raws.map fun r => (readValue .ns1 true r.1, r.2)).map (fun e => Out.num (showTime fw e.1)) = raws.map fun r => .num r.1 := by
    rw [List.map_map]
    apply List.map_congr_left
    intro r hr
    simp only [Function.comp]
    rw [showTime_read fw hfw r.1 (h r hr).1]
  rw [e1]
  unfold World.put
  simp only [Prod.mk.injEq, and_true]
  congr 1
  funext k
  by_cases hk : k = temp
  · simp [hk, ht]
  · simp [hk]

/-- **C57**, no temporary file is left behind and no other file is changed, also when the input is not valid. -/
theorem C57_cleanup (fw : Nat) (temp : List Char) (x : Bool) (stdin : Bytes) (lines : List Typed) (w : World) (ht : w.files temp = none) :
    (genMain fw { o := none, t := none, x := x, infile := some ['-'] } temp stdin lines w).1.files = w.files := by
  unfold genMain
  simp only [truthy, if_true, decide_true, convertInput]
  funext k
  by_cases hk : k = temp
  · subst hk
    split <;> simp [World.put, ht]
  · split <;> simp [World.put, hk]

/-- A name that is not in use. -/
example : (World.mk (fun n => if n = ['a'] then some [1] else none) []).files ['t'] = none := by decide

/-- **C56** and **C57** together: the events of `-t` read from the standard input give the times modulo 2^54. -/
theorem C57_pipe (fw : Nat) (hfw : 54 ≤ fw) (temp temp' : List Char) (ts : List Int) (hts : ts ≠ []) (h : ∀ t ∈ ts, 0 ≤ t) (infile : Option (List Char))
    (stdin : Bytes) (lines lines' : List Typed) (w w' : World) (ht : w'.files temp' = none) :
    ∃ bs : List Bytes, (genMain fw { o := none, t := some ts, x := false, infile := infile } temp stdin lines w).1.out = w.out ++ bs.map .raw ∧
      genMain fw { o := none, t := none, x := false, infile := some ['-'] } temp' bs.flatten lines' w' =
        ({ w' with out := w'.out ++ ts.map fun t => .num (t % 2 ^ 54) }, none) := by
  refine ⟨ts.map fun t => a1Event false (t.toNat % 2 ^ 54, 1), ?_, ?_⟩
  · rw [C56_stdout_partial fw temp ts hts h]
    simp
  · have := C57_stdin_partial fw hfw temp' false (ts.map fun t => (t.toNat % 2 ^ 54, 1))
      (by
        intro r hr
        rw [List.mem_map] at hr
        obtain ⟨t, _, rfl⟩ := hr
        exact ⟨Nat.mod_lt _ (by norm_num), by norm_num⟩) lines' w' ht
    rw [List.flatMap_map, List.flatMap_def] at this
    rw [this, List.map_map]
    congr 2
    congr 1
    apply List.map_congr_left
    intro t htt
    simp only [Function.comp, Out.num.injEq]
    have := h t htt
    omega

/-- **C56** (empty arguments): an empty output name, an empty list of times and an empty input name mean the same as none; with
no times and no input, the times are asked for. -/
theorem C56_empty (fw : Nat) (a : GenArgs) (tempname : List Char) (stdin : Bytes) (lines : List Typed) (w : World) :
    genMain fw { a with o := some [] } tempname stdin lines w = genMain fw { a with o := none } tempname stdin lines w ∧
    genMain fw { a with t := some [] } tempname stdin lines w = genMain fw { a with t := none } tempname stdin lines w ∧
    genMain fw { a with infile := some [] } tempname stdin lines w = genMain fw { a with infile := none } tempname stdin lines w ∧
    genMain fw { a with o := none, t := none, infile := none } tempname stdin lines w = interactive none lines w :=
  ⟨rfl, rfl, rfl, rfl⟩

end Fp
