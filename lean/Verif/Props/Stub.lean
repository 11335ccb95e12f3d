import Verif.Spec.Stub
import Verif.Props.FreqcdProgram

/-! # C112: the stand-in for freqcd -/
namespace Fp
open Spec

theorem plain_blank {p : Bytes} (h : Plain p) : ∀ c ∈ p, shBlank c = false := by
  intro c hc
  obtain ⟨h1, h2, h3⟩ := h.2 c hc
  simp [shBlank, h1, h2, h3]

theorem split_word (p : Bytes) (hp : ∀ c ∈ p, shBlank c = false) (acc rest : Bytes) : shSplit acc (p ++ rest) = shSplit (acc ++ p) rest := by
  induction p generalizing acc with
  | nil => simp
  | cons c cs ih =>
    rw [List.cons_append]
    conv_lhs => unfold shSplit
    rw [hp c (by simp)]
    simp only [Bool.false_eq_true, if_false]
    rw [ih (fun d hd => hp d (by simp [hd]))]
    simp

theorem words_plain {p : Bytes} (h : Plain p) : shWords p = [p] := by
  have := split_word p (plain_blank h) [] []
  rw [List.append_nil, List.nil_append] at this
  unfold shWords
  rw [this]
  simp [shSplit, h.1]

theorem words_first {p : Bytes} (h : Plain p) (rest : Bytes) : shWords (p ++ 32 :: rest) = p :: shWords rest := by
  unfold shWords
  rw [split_word p (plain_blank h), List.nil_append]
  conv_lhs => unfold shSplit
  simp [shBlank, h.1]

/-- The name found by the script. -/
theorem program_plain {shell p : Bytes} (hs : Plain shell) (hp : Plain p) (args : List Bytes) : stubProgram shell p args = p := by
  unfold stubProgram
  rw [List.flatMap_cons, List.cons_append, words_first hs]
  cases args with
  | nil => simp [words_plain hp]
  | cons a as => rw [List.flatMap_cons, List.cons_append, words_first hp]; rfl

theorem root_installed {w : ShWorld} {root : Bytes} (h : Installed w root) : stubRoot w = root := by
  unfold stubRoot
  rw [words_plain h.python, h.readlink]
  unfold shDirname
  have e : (asc "/__init__.py").reverse = asc "yp.__tini__" ++ [47] := by decide +kernel
  have h1 : (root ++ asc "/__init__.py").reverse = asc "yp.__tini__" ++ (47 :: root.reverse) := by
    rw [List.reverse_append, e]; simp
  have h2 : ((root ++ asc "/__init__.py").reverse.dropWhile (· == 47)).dropWhile (· != 47) = 47 :: root.reverse := by
    rw [h1]
    have : (asc "yp.__tini__") = [121, 112, 46, 95, 95, 116, 105, 110, 105, 95, 95] := by decide +kernel
    rw [this]
    simp [List.dropWhile]
  have h3 : (47 :: root.reverse).dropWhile (· == 47) = root.reverse := by
    rw [List.dropWhile_cons]
    simp only [beq_self_eq_true, if_true]
    have hl := h.noSlash
    rw [← List.head?_reverse] at hl
    cases hr : root.reverse with
    | nil => rfl
    | cons c cs =>
      rw [hr] at hl
      rw [List.dropWhile_cons]
      have : (c == 47) = false := by simpa using hl
      simp [this]
  have hne : root.reverse ≠ [] := by simpa using h.plain.1
  simp only [h2, h3, reduceCtorEq, if_false, hne, List.reverse_reverse]

/-- **C112**: in an installed library, a call under a name without blanks compiles the program into a file of this name and runs it
with the arguments given; if the compiler fails, the script ends with status 1 and runs nothing.  What runs is the name as called,
seen from the directory of the library, and this is its working directory. -/
theorem C112_runs_partial (w : ShWorld) (root : Bytes) (hw : Installed w root) (shell p : Bytes) (hs : Plain shell) (hp : Plain p) (args : List Bytes) :
    ∃ acts, (stub w shell p args).1 = acts ++ [.compile root [asc "-o", p, asc "freqcd.c", asc "lib/getopt.c"]] ∧
      (∀ a ∈ acts, a = .remove [root ++ asc "/freqcd_path"] ∨ a = .record (root ++ asc "/freqcd_path") (p ++ [10])) ∧
      (stub w shell p args).2 =
        if w.gcc root [asc "-o", p, asc "freqcd.c", asc "lib/getopt.c"] then .exec root p args else .exit 1 := by
  have hr := root_installed hw
  have hprog := program_plain hs hp args
  have hpath : shWords (root ++ asc "/freqcd_path") = [root ++ asc "/freqcd_path"] := by
    apply words_plain
    refine ⟨by simp [hw.plain.1], ?_⟩
    intro c hc
    rcases List.mem_append.mp hc with h | h
    · exact hw.plain.2 c h
    · have : ∀ c ∈ asc "/freqcd_path", c ≠ 32 ∧ c ≠ 9 ∧ c ≠ 10 := by decide +kernel
      exact this c h
  have hgcc : postinstall (shWords p) = [asc "-o", p, asc "freqcd.c", asc "lib/getopt.c"] := by
    rw [words_plain hp]
    unfold postinstall
    simp [hp.1, words_plain hp]
  unfold stub
  simp only [hr, hprog, hpath, words_plain hw.plain, hw.cd, hw.script, if_true, hgcc]
  refine ⟨_, rfl, ?_, trivial⟩
  intro a ha
  rcases List.mem_cons.mp ha with rfl | ha
  · exact .inl rfl
  · split at ha
    · rw [List.mem_singleton] at ha; exact .inr ha
    · simp at ha

/-- **C112**, wherever the library is and whatever the names: if another program is run, the compiler has succeeded before, and
the arguments are exactly those of the call. -/
theorem C112_only_compiled (w : ShWorld) (shell p : Bytes) (args : List Bytes) :
    (∃ dir prog gcc, (stub w shell p args).2 = .exec dir prog args ∧ (stub w shell p args).1.getLast? = some (.compile dir gcc) ∧ w.gcc dir gcc = true) ∨
      (stub w shell p args).2 = .exit 1 := by
  unfold stub
  simp only
  split
  · exact .inr rfl
  · rename_i dir hd
    by_cases h : w.script dir = true
    · rw [if_pos h]
      by_cases h2 : w.gcc dir (postinstall (shWords (stubProgram shell p args))) = true
      · left
        refine ⟨dir, stubProgram shell p args, _, by simp only [if_pos h2], ?_, h2⟩
        exact List.getLast?_concat
      · right
        simp only [if_neg h2]
    · rw [if_neg h]
      exact .inr rfl

/-- **C112** is violated for file names: the program runs in the directory of the library, so that a relative name of the call
means another file.  Here an input that is in the user's directory `cwd`, but not in the library: the run ends with an error
status, and the same call of the compiled program reads the file. -/
theorem C112_relative_violated (w : ShWorld) (root : Bytes) (hw : Installed w root) (shell p : Bytes) (hs : Plain shell) (hp : Plain p)
    (args : List Bytes) (hg : w.gcc root [asc "-o", p, asc "freqcd.c", asc "lib/getopt.c"] = true)
    (fs : FWorld) (cwd : Bytes) (c : Config) (hc : Ends (p :: args) (.ok c)) (hi : c.infile ≠ []) (hin : (fs.files (located cwd c.infile)).isSome)
    (hroot : fs.files (located root c.infile) = none) (ho : c.outfile = []) (hf : c.freqfile = []) (m : FMemory) (hm : FMemory.Sized m)
    (rounds : List Round) :
    (stub w shell p args).2 = .exec root p args ∧
      (∃ st, st ≠ 0 ∧ Outcome (inDirectory root fs) (p :: args) m rounds ⟨some st, (inDirectory root fs).files, []⟩) ∧
      ∃ o, Outcome (inDirectory cwd fs) (p :: args) m rounds o ∧ (o.status = none ∨ o.status = some 0) := by
  obtain ⟨acts, -, -, he⟩ := C112_runs_partial w root hw shell p hs hp args
  rw [if_pos hg] at he
  refine ⟨he, ?_, ?_⟩
  · obtain ⟨st, h1, -, h2⟩ := (C94_not_started_partial (inDirectory root fs) (p :: args) m rounds).2.1 c hc (.inl ⟨hi, hroot⟩)
    exact ⟨st, h1, h2⟩
  · obtain ⟨o, s, s', stop, h1, -, -, -, -, -, -, h2⟩ := C94_started (inDirectory cwd fs) (p :: args) m hm rounds c hc
      ⟨fun _ => by
        show fs.files (located cwd c.infile) ≠ none
        intro h
        rw [h] at hin
        simp at hin, fun h => absurd hf h, fun h => absurd ho h⟩
    refine ⟨o, h1, ?_⟩
    rw [h2]
    by_cases h : stop = none
    · exact .inl (by rw [if_pos h])
    · exact .inr (by rw [if_neg h])

/-- **C112** is violated for names with blanks: the part before the blank is what is compiled and run. -/
theorem C112_blank_violated (w : ShWorld) (root : Bytes) (hw : Installed w root) (shell p q : Bytes) (hs : Plain shell) (hp : Plain p)
    (args : List Bytes) :
    (stub w shell (p ++ 32 :: q) args).1.getLast? = some (.compile root [asc "-o", p, asc "freqcd.c", asc "lib/getopt.c"]) ∧
      (stub w shell (p ++ 32 :: q) args).2 =
        if w.gcc root [asc "-o", p, asc "freqcd.c", asc "lib/getopt.c"] then .exec root p args else .exit 1 := by
  have h : stubProgram shell (p ++ 32 :: q) args = stubProgram shell p (q :: args) := by
    unfold stubProgram
    simp
  obtain ⟨acts, h1, -, h2⟩ := C112_runs_partial w root hw shell p hs hp (q :: args)
  have e : (stub w shell (p ++ 32 :: q) args).1 = (stub w shell p (q :: args)).1 := by
    unfold stub
    simp only [h]
    split
    · rfl
    · split <;> rfl
  refine ⟨by rw [e, h1]; simp, ?_⟩
  have hprog := program_plain hs hp (q :: args)
  unfold stub at h2 ⊢
  simp only [h, hprog] at h2 ⊢
  revert h2
  split
  · rename_i hcd
    rw [root_installed hw, words_plain hw.plain, hw.cd] at hcd
    simp at hcd
  · rename_i dir hcd
    rw [root_installed hw, words_plain hw.plain, hw.cd] at hcd
    simp only [Option.some.injEq] at hcd
    subst hcd
    rw [if_pos hw.script, if_pos hw.script]
    intro h2
    have hgcc : postinstall (shWords p) = [asc "-o", p, asc "freqcd.c", asc "lib/getopt.c"] := by
      rw [words_plain hp]
      unfold postinstall
      simp [hp.1, words_plain hp]
    simp only [hgcc]

/-- An installed library, for the instances. -/
def stubWorld : ShWorld where
  python := asc "/l/fpfind/__init__.py"
  readlink := fun l => l.headD []
  rm := fun _ => true
  cd := fun l => l.head?
  script := fun _ => true
  gcc := fun _ _ => true

theorem stubWorld_installed : Installed stubWorld (asc "/l/fpfind") where
  python := by unfold Plain; decide +kernel
  plain := by unfold Plain; decide +kernel
  noSlash := by decide +kernel
  readlink := by decide +kernel
  cd := by decide +kernel
  script := rfl

/-- **C112**: the compiler's output replaces the script that was called, if it was called by its full name or in the directory of
the library; otherwise it does not. -/
theorem C112_replaces_partial (w : ShWorld) (root : Bytes) (hw : Installed w root) (shell p : Bytes) (hs : Plain shell) (hp : Plain p) (args : List Bytes)
    (cwd : Bytes) :
    ∃ out, (stub w shell p args).1.getLast? = some (.compile root [asc "-o", out, asc "freqcd.c", asc "lib/getopt.c"]) ∧
      (located root out = located cwd p ↔ p.head? = some 47 ∨ root = cwd) := by
  obtain ⟨acts, h1, -, -⟩ := C112_runs_partial w root hw shell p hs hp args
  refine ⟨p, by rw [h1, List.getLast?_concat], ?_⟩
  unfold located
  by_cases h : p.head? = some 47
  · simp [h]
  · simp [h]

/-- `./freqcd` in `/bin`: the file `/l/fpfind/./freqcd` is written and `/bin/./freqcd` stays the script. -/
example : (stub stubWorld (asc "/bin/sh") (asc "./freqcd") []).1.getLast? =
      some (.compile (asc "/l/fpfind") [asc "-o", asc "./freqcd", asc "freqcd.c", asc "lib/getopt.c"]) ∧
    located (asc "/l/fpfind") (asc "./freqcd") ≠ located (asc "/bin") (asc "./freqcd") := by decide +kernel

/-- Instances of `C112_runs_partial` and `C112_blank_violated`. -/
example : stub stubWorld (asc "/bin/sh") (asc "/bin/freqcd") [asc "-i", asc "a b"] =
    ([.remove [asc "/l/fpfind/freqcd_path"], .record (asc "/l/fpfind/freqcd_path") (asc "/bin/freqcd" ++ [10]),
      .compile (asc "/l/fpfind") [asc "-o", asc "/bin/freqcd", asc "freqcd.c", asc "lib/getopt.c"]],
      .exec (asc "/l/fpfind") (asc "/bin/freqcd") [asc "-i", asc "a b"]) := by decide +kernel

example : (stub stubWorld (asc "/bin/sh") (asc "/my env/freqcd") []).2 = .exec (asc "/l/fpfind") (asc "/my") [] := by decide +kernel

/-- An instance of `C112_relative_violated`: `freqcd -i e` with a file `/home/e`. -/
example (m : FMemory) (hm : FMemory.Sized m) (rounds : List Round) :
    (stub stubWorld (asc "/bin/sh") (asc "/bin/freqcd") [asc "-ie"]).2 = .exec (asc "/l/fpfind") (asc "/bin/freqcd") [asc "-ie"] ∧
      (∃ st, st ≠ 0 ∧ Outcome (inDirectory (asc "/l/fpfind") ⟨fun n => if n = asc "/home/e" then some [] else none, fun _ => true, []⟩)
        (asc "/bin/freqcd" :: [asc "-ie"]) m rounds
        ⟨some st, (inDirectory (asc "/l/fpfind") ⟨fun n => if n = asc "/home/e" then some [] else none, fun _ => true, []⟩).files, []⟩) ∧
      ∃ o, Outcome (inDirectory (asc "/home") ⟨fun n => if n = asc "/home/e" then some [] else none, fun _ => true, []⟩)
        (asc "/bin/freqcd" :: [asc "-ie"]) m rounds o ∧ (o.status = none ∨ o.status = some 0) := by
  have hends := C53_meaning (asc "/bin/freqcd") [.arg 105 [101]] _ (Written.attached [] 105 [101] _ _ (by simp) (by simp [ArgLetter]) (by simp) Written.nil)
    (by
      intro it hit
      simp only [List.mem_cons, List.not_mem_nil, or_false] at hit
      subst hit
      exact Or.inl ⟨by decide, by simp, by simp, by decide⟩) 0 rfl
  have hends' : Ends (asc "/bin/freqcd" :: [asc "-ie"]) (.ok (⟨0, false, [101], [], []⟩ : Config)) := by
    have e : asc "-ie" = [45, 105, 101] := by decide +kernel
    rw [e]
    simpa [lastArg] using hends
  exact C112_relative_violated stubWorld _ stubWorld_installed _ _ (by unfold Plain; decide +kernel) (by unfold Plain; decide +kernel) _ rfl _
    (asc "/home") _ hends' (by decide +kernel) (by decide +kernel) (by decide +kernel) rfl rfl m hm rounds

end Fp
