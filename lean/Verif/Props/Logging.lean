import Verif.Lemmas.Logging

/-! # Properties of logging and profiling: C67, C68, C69 -/
namespace Fp
open Spec

/-- **C67**: with details and a message that contains the delimiter, the human-readable format has one line for every item (and
one for the message unless it is blank), in order; all lines have the delimiter in the same column, only white space before it
(the first line keeps the text before the delimiter), tabs are kept, and the items are indented by two more blanks than the message. -/
theorem C67_lines (isspace : Char → Bool) (hs : isspace ' ' = true) (strOf : StrOf) (delim message pre text : List Char)
    (hd : ∃ c ∈ delim, isspace c = false) (details : LogDetails) (hitems : itemsOf details ≠ [])
    (hmsg : FirstAt delim message pre text) :
    ∃ lines : List (List Char), logFormat isspace strOf true delim message details = .ok (List.intercalate ['\n'] lines) ∧
      (if ∀ c ∈ text, c = ' ' then lines.length = (itemsOf details).length
       else lines.length = (itemsOf details).length + 1 ∧ lines.head? = some message) ∧
      ∀ (i : Nat) (item line : List Char), (itemsOf details)[i]? = some item → lines[i + (lines.length - (itemsOf details).length)]? = some line →
        ∃ p, FirstAt delim line p (List.replicate (indent text + 2) ' ' ++ item) ∧ p.length = pre.length ∧
          (if i + (lines.length - (itemsOf details).length) = 0 then p = pre else Blanked isspace pre p) := by
  have hdne : delim ≠ [] := by
    obtain ⟨c, hc, -⟩ := hd
    exact List.ne_nil_of_mem hc
  have hpart : pyPartition delim message = (pre, true, text) := by
    rcases partition_spec delim hdne message with ⟨h1, h2⟩ | ⟨h1, h2⟩
    · obtain ⟨e1, e2⟩ := firstAt_unique h2 hmsg
      rw [← e1, ← e2, ← h1]
    · exact absurd ⟨pre, text, hmsg.1.symm⟩ h2
  obtain ⟨d0, ds, hds⟩ := List.exists_cons_of_ne_nil hitems
  have hblank : (text.dropWhile (· == ' ') = []) ↔ ∀ c ∈ text, c = ' ' := by
    rw [List.dropWhile_eq_nil_iff]
    simp
  have hfmt : logFormat isspace strOf true delim message details = .ok (List.intercalate ['\n']
      (if text.dropWhile (· == ' ') = [] then
        (pre ++ delim ++ List.replicate (indent text) ' ' ++ [' ', ' '] ++ d0) :: ds.map (fun t =>
          (pre.map fun c => if isspace c then c else ' ') ++ delim ++ List.replicate (indent text) ' ' ++ [' ', ' '] ++ t)
      else message :: (d0 :: ds).map (fun t =>
          (pre.map fun c => if isspace c then c else ' ') ++ delim ++ List.replicate (indent text) ' ' ++ [' ', ' '] ++ t))) := by
    cases details with
    | none => exact absurd rfl hitems
    | other t => exact absurd rfl hitems
    | dict items =>
      have : (items.map fun kv => kv.1 ++ [':', ' '] ++ kv.2) = d0 :: ds := hds
      unfold logFormat
      simp only [Bool.not_true, Bool.false_eq_true, if_false, this, if_neg hdne, hpart, strip_len]
    | list items =>
      have : items = d0 :: ds := hds
      unfold logFormat
      simp only [Bool.not_true, Bool.false_eq_true, if_false, this, if_neg hdne, hpart, strip_len]
  have hline : ∀ (p t : List Char), (p ++ delim ++ List.replicate (indent text) ' ' ++ [' ', ' '] ++ t) =
      p ++ delim ++ (List.replicate (indent text + 2) ' ' ++ t) := by
    intro p t
    rw [List.replicate_add]
    simp [List.append_assoc, List.replicate]
  have hb := blanked_map isspace hs pre
  have hfirst : ∀ r, FirstAt delim (pre ++ delim ++ r) pre r := by
    intro r
    refine ⟨rfl, fun p' r' he => ?_⟩
    by_contra hlt
    rw [not_le] at hlt
    -- an earlier occurrence would lie in `pre ++ delim`, hence in the message
    have hpl : p'.length + delim.length ≤ (pre ++ delim).length := by rw [List.length_append]; omega
    have e1 : p' ++ delim = (pre ++ delim).take (p'.length + delim.length) := by
      have := congrArg (List.take (p'.length + delim.length)) he
      rw [List.take_append_of_le_length hpl] at this
      rw [this, ← List.length_append, List.take_left']
      rfl
    have := hmsg.2 p' ((pre ++ delim).drop (p'.length + delim.length) ++ text) (by
      rw [hmsg.1, e1, ← List.append_assoc, List.take_append_drop])
    omega
  refine ⟨_, hfmt, ?_, ?_⟩
  · by_cases h : ∀ c ∈ text, c = ' '
    · rw [if_pos h, if_pos (hblank.mpr h), hds]
      simp
    · rw [if_neg h, if_neg (fun h2 => h (hblank.mp h2)), hds]
      simp
  · intro i item line hi hl
    by_cases h : text.dropWhile (· == ' ') = []
    · rw [if_pos h] at hl
      simp only [if_pos h, hds, List.length_cons, List.length_map, Nat.sub_self, Nat.add_zero] at hl hi ⊢
      cases i with
      | zero =>
        simp only [List.getElem?_cons_zero, Option.some.injEq] at hl hi
        subst hl hi
        refine ⟨pre, ?_, rfl, by simp⟩
        rw [hline]
        exact hfirst _
      | succ j =>
        simp only [List.getElem?_cons_succ, List.getElem?_map] at hl hi
        rw [hi, Option.map_some, Option.some.injEq] at hl
        subst hl
        refine ⟨_, ?_, hb.1, by rw [if_neg (by omega)]; exact hb⟩
        rw [hline]
        exact firstAt_blank isspace _ _ _ hd hb.2.1
    · rw [if_neg h] at hl
      simp only [if_neg h, hds, List.length_cons, List.length_map, Nat.add_sub_cancel_left] at hl hi ⊢
      rw [List.getElem?_cons_succ, List.getElem?_map, hi, Option.map_some, Option.some.injEq] at hl
      subst hl
      refine ⟨_, ?_, hb.1, by rw [if_neg (by omega)]; exact hb⟩
      rw [hline]
      exact firstAt_blank isspace _ _ _ hd hb.2.1

/-- Instance of C67: the documented example (with a tab before the delimiter), and a blank message. -/
example : logFormat (fun c => c == ' ' || c == '\t') (fun _ => []) true "| ".toList "ab\tW | call!".toList
      (.list ["x".toList, "y".toList]) = .ok "ab\tW | call!\n  \t  |   x\n  \t  |   y".toList ∧
    logFormat (fun c => c == ' ' || c == '\t') (fun _ => []) true "| ".toList "ab\t|  ".toList
      (.dict [("x".toList, "1".toList), ("y".toList, "2".toList)]) = .ok "ab\t|    x: 1\n  \t|    y: 2".toList ∧
    FirstAt "| ".toList "ab\tW | call!".toList "ab\tW ".toList "call!".toList := by
  refine ⟨by decide +kernel, by decide +kernel, ?_⟩
  rcases partition_spec "| ".toList (by decide) "ab\tW | call!".toList with ⟨-, h⟩ | ⟨h, -⟩
  · exact h
  · exact absurd h (by decide)

/-- **C67**: in all other cases the message is kept whole: without details unchanged, in the machine-readable format followed by a
tab and the details, and without delimiter the first item goes to its end, so that no item is lost. -/
theorem C67_message_kept (isspace : Char → Bool) (strOf : StrOf) (human : Bool) (delim message : List Char) (hd : delim ≠ []) :
    logFormat isspace strOf human delim message .none = .ok message ∧
    (∀ d, d ≠ .none → logFormat isspace strOf false delim message d = .ok (message ++ '\t' :: strOf d)) ∧
    (∀ d, itemsOf d = [] → logFormat isspace strOf true delim message d = .ok message) ∧
    (∀ d d0 ds, itemsOf d = d0 :: ds → ¬ delim <:+: message → ∃ blank : List Char, blank.length = message.length ∧
      logFormat isspace strOf true delim message d =
        .ok (List.intercalate ['\n'] ((message ++ delim ++ ' ' :: ' ' :: d0) :: ds.map fun t => blank ++ delim ++ ' ' :: ' ' :: t))) := by
  refine ⟨rfl, ?_, ?_, ?_⟩
  · intro d hdn
    cases d <;> simp [logFormat] at hdn ⊢
  · intro d hi
    cases d with
    | none => rfl
    | other t => rfl
    | dict items =>
      have : items = [] := List.map_eq_nil_iff.mp hi
      subst this
      rfl
    | list items =>
      have : items = [] := hi
      subst this
      rfl
  · intro d d0 ds hi hno
    have hpart : pyPartition delim message = (message, false, []) := by
      rcases partition_spec delim hd message with ⟨-, h⟩ | ⟨h, -⟩
      · exact absurd ⟨_, _, h.1.symm⟩ hno
      · exact h
    refine ⟨message.map fun c => if isspace c then c else ' ', List.length_map _, ?_⟩
    cases d with
    | none => exact absurd hi (by simp [itemsOf])
    | other t => exact absurd hi (by simp [itemsOf])
    | dict items =>
      have : (items.map fun kv => kv.1 ++ [':', ' '] ++ kv.2) = d0 :: ds := hi
      unfold logFormat
      simp only [Bool.not_true, Bool.false_eq_true, if_false, this, if_neg hd, hpart]
      simp
    | list items =>
      have : items = d0 :: ds := hi
      unfold logFormat
      simp [this, hd, hpart]

/-- Instance of the last part of `C67_message_kept`. -/
example : logFormat (fun c => c == ' ') (fun _ => []) true "| ".toList "ab".toList (.list ["x".toList, "y".toList]) =
    .ok "ab|   x\n  |   y".toList := by decide +kernel

/-! ## C68 -/

/-- **C68**: the level for a verbosity: warnings, information from 1, debugging from 2 on; more verbosity never shows less. -/
theorem C68_verbosity : verbosity2level 0 = .ok 30 ∧ verbosity2level 1 = .ok 20 ∧ (∀ v, 2 ≤ v → verbosity2level v = .ok 10) ∧
    ∀ v w lv lw, 0 ≤ v → v ≤ w → verbosity2level v = .ok lv → verbosity2level w = .ok lw → lw ≤ lv := by
  have h2 : ∀ v, 2 ≤ v → verbosity2level v = .ok 10 := by
    intro v hv
    unfold verbosity2level
    simp only [List.length_cons, List.length_nil]
    have hm : min v (((0 + 1 + 1 + 1 : Nat) : Int) - 1) = 2 := by omega
    rw [hm]
    rfl
  refine ⟨rfl, rfl, h2, ?_⟩
  intro v w lv lw h0 hvw hv hw
  have cases3 : ∀ x : Int, 0 ≤ x → x = 0 ∨ x = 1 ∨ 2 ≤ x := by intro x hx; omega
  have e0 : verbosity2level 0 = .ok 30 := rfl
  have e1 : verbosity2level 1 = .ok 20 := rfl
  rcases cases3 v h0 with rfl | rfl | hv2 <;> rcases cases3 w (by omega) with rfl | rfl | hw2 <;>
    simp_all <;> omega

/-- Outside the documented range: a negative verbosity counts from the end of the list, and below -3 it is an error. -/
theorem C68_negative : verbosity2level (-1) = .ok 10 ∧ verbosity2level (-3) = .ok 30 ∧ ∀ v, v < -3 → verbosity2level v = .error .indexError := by
  refine ⟨rfl, rfl, ?_⟩
  intro v hv
  unfold verbosity2level
  simp only [List.length_cons, List.length_nil]
  have hm : min v (((0 + 1 + 1 + 1 : Nat) : Int) - 1) = v := by omega
  rw [hm, if_pos (show v < 0 by omega), if_pos (show v + ((0 + 1 + 1 + 1 : Nat) : Int) < 0 by omega)]

/-- **C68**: after any sequence of calls, a logger that was first obtained with `get_logger` has exactly one handler for
standard error, with the format of that first call, and the log files asked for, each once and in order; it does not propagate; its
level is that of the last `get_logger` call.  Calls for other loggers have no effect. -/
theorem C68_handlers (ops : List LogOp) (name : String) (lv0 : Option String) (h0 : Bool) (rest : List LogOp)
    (hfirst : ops.filter (fun op => opName op = name) = .get name lv0 h0 :: rest) :
    let lg := (runOps ops freshLoggers) name
    lg.handlers = .stderr h0 :: filesOf rest ∧ lg.propagate = false ∧
      ∀ lv, (levelsOf (ops.filter fun op => opName op = name)).getLast? = some lv → lg.level = label2level lv := by
  intro lg
  have hlg : lg = (runOps (ops.filter fun op => opName op = name) freshLoggers) name := runOps_other name ops freshLoggers
  have hall : ∀ op ∈ ops.filter (fun op => opName op = name), opName op = name := by
    intro op hop
    simpa using (List.mem_filter.mp hop).2
  obtain ⟨h1, h2, h3⟩ := runOps_same name _ hall
  rw [hlg, h1, h2, h3]
  rw [hfirst]
  refine ⟨rfl, rfl, ?_⟩
  intro lv hlv
  rw [hlv]

/-- **C68**, the labels: the four known ones, `warning` for everything else. -/
theorem C68_labels : label2level (some "debug") = 10 ∧ label2level (some "info") = 20 ∧ label2level (some "warning") = 30 ∧
    label2level (some "error") = 40 ∧ label2level none = 30 ∧
    ∀ s, s ∉ ["debug", "info", "warning", "error"] → label2level (some s) = 30 := by
  refine ⟨rfl, rfl, rfl, rfl, rfl, ?_⟩
  intro s hs
  unfold label2level
  split <;> simp_all [logWARNING]

/-- Instance of `C68_handlers`. -/
example : (runOps [.get "b" none true, .get "a" (some "info") true, .file "a" "log" true, .get "a" none false] freshLoggers "a").handlers =
    [.stderr true, .file "log" true] := by
  obtain ⟨h, -⟩ := C68_handlers [.get "b" none true, .get "a" (some "info") true, .file "a" "log" true, .get "a" none false] "a"
    (some "info") true [.file "a" "log" true, .get "a" none false] (by simp [opName])
  exact h

/-! ## C69 -/

/-- **C69**: whatever profiled functions are called and whichever of them raise exceptions, caught or not, the lines written by the
decorator are properly nested with the right indentation, and the level is restored. -/
theorem C69_profile (d : Nat) (c : PCall) : Nested d (runCall d c).1 ∧ (runCall d c).2.1 = d := runCall_nested d c

/-- Instance of C69: a call that catches the exception of its first call and is stopped by the exception of its third. -/
example : runCall 0 (.mk "main" [(.mk "f" [(.mk "g" [] true, false)] false, true), (.mk "h" [] false, false), (.mk "f" [] true, false), (.mk "h" [] false, false)] false) =
    ([⟨true, 0, "main"⟩, ⟨true, 2, "f"⟩, ⟨true, 4, "g"⟩, ⟨false, 4, "g"⟩, ⟨false, 2, "f"⟩, ⟨true, 2, "h"⟩, ⟨false, 2, "h"⟩,
      ⟨true, 2, "f"⟩, ⟨false, 2, "f"⟩, ⟨false, 0, "main"⟩], 0, true) := by
  decide +kernel

end Fp
