import Verif.Spec.LogEmit

/-! # Properties of where log messages go: C130 -/
namespace Fp
open Spec

theorem rootDebug_loggers (W : LogWorld) : (rootDebug W).loggers = W.loggers ∧ (rootDebug W).rootLevel = W.rootLevel := by
  unfold rootDebug basicConfig
  split <;> simp

theorem rootDebug_idem (W : LogWorld) : rootDebug (rootDebug W) = rootDebug W := by
  unfold rootDebug basicConfig
  by_cases h : W.rootHandlers = [] <;> simp [h]

theorem readT2Log_loggers (f : Option Bytes) (W : LogWorld) : (readT2Log f W).loggers = W.loggers ∧ (readT2Log f W).rootLevel = W.rootLevel := by
  unfold readT2Log
  split
  · exact ⟨rfl, rfl⟩
  · split
    · exact ⟨rfl, rfl⟩
    · exact rootDebug_loggers W

theorem readT4Log_loggers (f : Option Bytes) (W : LogWorld) : (readT4Log f W).loggers = W.loggers ∧ (readT4Log f W).rootLevel = W.rootLevel := by
  unfold readT4Log
  split
  · exact ⟨rfl, rfl⟩
  · split
    · exact ⟨rfl, rfl⟩
    · exact rootDebug_loggers W

/-- Calls that are not about a logger leave it as it is. -/
theorem runWorldOp_other (W : LogWorld) (op : WorldOp) (name : String) (h : ¬ About name op) :
    (runWorldOp W op).loggers name = W.loggers name := by
  cases op with
  | get n lv hu => exact Function.update_of_ne (fun e => h e.symm) _ _
  | file n p hu => exact Function.update_of_ne (fun e => h e.symm) _ _
  | level n l => exact Function.update_of_ne (fun e => h e.symm) _ _
  | config hs =>
    show (basicConfig hs W).loggers name = _
    unfold basicConfig
    split <;> rfl
  | readT2 f => exact congrFun (readT2Log_loggers f W).1 name
  | readT4 f => exact congrFun (readT4Log_loggers f W).1 name

theorem runWorld_other (ops : List WorldOp) (W : LogWorld) (name : String) (h : ∀ op ∈ ops, ¬ About name op) :
    (runWorld ops W).loggers name = W.loggers name := by
  induction ops generalizing W with
  | nil => rfl
  | cons op ops ih =>
    show (runWorld ops (runWorldOp W op)).loggers name = _
    rw [ih _ fun o ho => h o (List.mem_cons_of_mem _ ho), runWorldOp_other W op name (h op List.mem_cons_self)]

/-- A logger that has handlers and does not propagate: the calls add its log files and set its level. -/
theorem runWorld_own (ops : List WorldOp) (W : LogWorld) (name : String) (h1 : (W.loggers name).handlers ≠ []) :
    (runWorld ops W).loggers name = ⟨(W.loggers name).handlers ++ logFiles name ops, (W.loggers name).propagate,
      (logLevels name ops).getLastD (W.loggers name).level⟩ := by
  induction ops generalizing W with
  | nil => simp [runWorld, logFiles, logLevels]
  | cons op ops ih =>
    show (runWorld ops (runWorldOp W op)).loggers name = _
    by_cases ha : About name op
    · cases op with
      | get n lv hu =>
        have hn : n = name := ha
        subst hn
        have e : (runWorldOp W (.get n lv hu)).loggers n = { W.loggers n with level := label2level lv } := by
          show Function.update _ _ _ _ = _
          rw [Function.update_self, if_neg h1]
        have e1 : logLevels n (.get n lv hu :: ops) = label2level lv :: logLevels n ops := by simp [logLevels]
        have e2 : logFiles n (.get n lv hu :: ops) = logFiles n ops := by simp [logFiles]
        rw [ih _ (by rw [e]; exact h1), e, e1, e2, List.getLastD_cons]
      | file n p hu =>
        have hn : n = name := ha
        subst hn
        have e : (runWorldOp W (.file n p hu)).loggers n = { W.loggers n with handlers := (W.loggers n).handlers ++ [.file p hu] } := by
          show Function.update _ _ _ _ = _
          rw [Function.update_self]
        rw [ih _ (by rw [e]; simp), e]
        simp [logFiles, logLevels]
      | level n l =>
        have hn : n = name := ha
        subst hn
        have e : (runWorldOp W (.level n l)).loggers n = { W.loggers n with level := l } := by
          show Function.update _ _ _ _ = _
          rw [Function.update_self]
        have e1 : logLevels n (.level n l :: ops) = l :: logLevels n ops := by simp [logLevels]
        have e2 : logFiles n (.level n l :: ops) = logFiles n ops := by simp [logFiles]
        rw [ih _ (by rw [e]; exact h1), e, e1, e2, List.getLastD_cons]
      | config hs => exact ha.elim
      | readT2 f => exact ha.elim
      | readT4 f => exact ha.elim
    · have e := runWorldOp_other W op name ha
      rw [ih _ (by rw [e]; exact h1), e]
      cases op with
      | get n lv hu => simp [logFiles, logLevels, show ¬ n = name from ha]
      | file n p hu => simp [logFiles, logLevels, show ¬ n = name from ha]
      | level n l => simp [logFiles, logLevels, show ¬ n = name from ha]
      | config hs => simp [logFiles, logLevels]
      | readT2 f => simp [logFiles, logLevels]
      | readT4 f => simp [logFiles, logLevels]

/-- What a logger that does not propagate and has a level and handlers writes. -/
theorem logEmit_own (W : LogWorld) (name : String) (level : Int) (h1 : (W.loggers name).handlers ≠ [])
    (h2 : (W.loggers name).propagate = false) (h3 : (W.loggers name).level ≠ 0) :
    logEmit W name level = if (W.loggers name).level ≤ level then (W.loggers name).handlers.map .own else [] := by
  have he : effectiveLevel W name = (W.loggers name).level := by
    simp [effectiveLevel, h3]
  have hh : handlersFrom W (name :: logAncestors name) = (W.loggers name).handlers.map .own := by
    simp [handlersFrom, h2]
  unfold logEmit
  rw [he, hh]
  by_cases h : (W.loggers name).level ≤ level
  · rw [if_neg (not_lt.mpr h), if_pos h]
    split
    · rename_i h4
      exact absurd (List.map_eq_nil_iff.mp h4) h1
    · rfl
  · rw [if_pos (not_le.mp h), if_neg h]

theorem label2level_ne (l : Option String) : label2level l ≠ 0 := by
  unfold label2level
  split <;> decide

/-- **C130**: a logger got with `get_logger` before anything else was done with it: whatever is done then to this logger, other loggers
and the root logger, a message of at least the level last set is written once to standard error and once to each log file set with
`set_logfile` for this logger, and to nothing else; other messages are not written. -/
theorem C130_messages (W : LogWorld) (name : String) (lv : Option String) (human : Bool) (ops : List WorldOp)
    (hfresh : W.loggers name = { handlers := [], propagate := true, level := 0 })
    (hlv : ∀ l ∈ logLevels name ops, l ≠ 0) (level : Int) :
    logEmit (runWorld (.get name lv human :: ops) W) name level =
      if (logLevels name ops).getLastD (label2level lv) ≤ level then .own (.stderr human) :: (logFiles name ops).map .own else [] := by
  have e : (runWorldOp W (.get name lv human)).loggers name = { handlers := [.stderr human], propagate := false, level := label2level lv } := by
    show Function.update _ _ _ _ = _
    rw [Function.update_self, hfresh]
    simp
  have h := runWorld_own ops (runWorldOp W (.get name lv human)) name (by rw [e]; simp)
  rw [e] at h
  have h' : (runWorld (.get name lv human :: ops) W).loggers name = _ := h
  rw [logEmit_own _ _ _ (by rw [h']; simp) (by rw [h']) (by
    rw [h']
    show (logLevels name ops).getLastD (label2level lv) ≠ 0
    rcases List.eq_nil_or_concat (logLevels name ops) with h0 | ⟨l, x, h0⟩
    · rw [h0]; exact label2level_ne lv
    · rw [h0]
      have := hlv x (by rw [h0]; simp)
      simpa using this), h']
  simp

/-- Instance of C130_messages: a logger with a log file, after reading a T2 epoch. -/
example : logEmit (runWorld [.get "fpfind.x" none false, .file "fpfind.x" "log" true, .readT2 (some (List.replicate 24 0)),
      .level "fpfind.x" logINFO, .config [.app 3]] freshWorld) "fpfind.x" logINFO = [.own (.stderr false), .own (.file "log" true)] := by
  rw [C130_messages freshWorld "fpfind.x" none false _ rfl (by simp [logLevels, logINFO])]
  simp [logLevels, logFiles]

/-- A world in which the two loggers of the program have not been used. -/
def UnusedLoggers (W : LogWorld) : Prop :=
  W.loggers fpfindLogger = { handlers := [], propagate := true, level := 0 } ∧
  W.loggers epochLogger = { handlers := [], propagate := true, level := 0 }

theorem loggers_ne : epochLogger ≠ fpfindLogger := by decide

theorem verbosity_level (v : Nat) : verbosity2level v = .ok (if v = 0 then logWARNING else if v = 1 then logINFO else logDEBUG) := by
  rcases v with _ | _ | v
  · rfl
  · rfl
  · have h : min ((v + 1 + 1 : Nat) : Int) (([logWARNING, logINFO, logDEBUG].length : Int) - 1) = 2 := by simp; omega
    unfold verbosity2level
    simp only
    rw [h]
    simp

/-- **C130**: the messages of fpfind itself: with `v` times `-v`, warnings (`v = 0`), also infos (`v = 1`), also debug messages
(`v ≥ 2`) are written once to standard error and once to the file of `--logging`, and to nothing else, whatever has been done to the
root logger and whatever epochs are read later. -/
theorem C130_program (W : LogWorld) (hW : UnusedLoggers W) (logfile : Option String) (v : Nat) (later : List WorldOp)
    (hlater : ∀ op ∈ later, ¬ About fpfindLogger op) (level : Int) :
    ∃ W', mainLog logfile v (importLog W) = .ok W' ∧
      logEmit (runWorld later W') fpfindLogger level =
        if (if v = 0 then logWARNING else if v = 1 then logINFO else logDEBUG) ≤ level then
          .own (.stderr true) :: (logfile.toList.map fun p => .own (.file p true))
        else [] := by
  obtain ⟨l, hl⟩ : ∃ l, l = if v = 0 then logWARNING else if v = 1 then logINFO else logDEBUG := ⟨_, rfl⟩
  have hl0 : l ≠ 0 := by
    rw [hl]
    split
    · decide
    · split <;> decide
  refine ⟨_, by unfold mainLog; rw [verbosity_level]; rfl, ?_⟩
  rw [← hl]
  have e0 : ((importLog W).loggers fpfindLogger) = { handlers := [.stderr true], propagate := false, level := logWARNING } := by
    unfold importLog getLogger
    simp [Function.update_of_ne loggers_ne.symm, hW.1, label2level]
  have e1 : ∀ W1 : LogWorld, (setLevel W1 fpfindLogger l).loggers fpfindLogger = { W1.loggers fpfindLogger with level := l } := by
    intro W1
    unfold setLevel
    simp only [Function.update_self]
  cases logfile with
  | none =>
    have e2 := (runWorld_other later (setLevel (importLog W) fpfindLogger l) fpfindLogger hlater).trans (e1 _)
    rw [e0] at e2
    rw [logEmit_own _ _ _ (by rw [e2]; simp) (by rw [e2]) (by rw [e2]; exact hl0), e2]
    simp
  | some p =>
    have e2 := (runWorld_other later (setLevel { importLog W with loggers := setLogfile (importLog W).loggers fpfindLogger p true }
      fpfindLogger l) fpfindLogger hlater).trans (e1 _)
    have e3 : setLogfile (importLog W).loggers fpfindLogger p true fpfindLogger =
        { (importLog W).loggers fpfindLogger with handlers := ((importLog W).loggers fpfindLogger).handlers ++ [.file p true] } := by
      show Function.update _ _ _ _ = _
      rw [Function.update_self]
    simp only [e3] at e2
    rw [e0] at e2
    rw [logEmit_own _ _ _ (by rw [e2]; simp) (by rw [e2]) (by rw [e2]; exact hl0), e2]
    simp

/-- The messages of the reader of epochs after the start of the program. -/
theorem epoch_messages (W : LogWorld) (hW : UnusedLoggers W) (logfile : Option String) (v : Nat) (later : List WorldOp)
    (hlater : ∀ op ∈ later, ¬ About epochLogger op) (level : Int) :
    ∃ W', mainLog logfile v (importLog W) = .ok W' ∧
      logEmit (runWorld later W') epochLogger level = if logWARNING ≤ level then [.own (.stderr false)] else [] := by
  refine ⟨_, by unfold mainLog; rw [verbosity_level]; rfl, ?_⟩
  have e0 : ((importLog W).loggers epochLogger) = { handlers := [.stderr false], propagate := false, level := logWARNING } := by
    unfold importLog getLogger
    simp [Function.update_of_ne loggers_ne, hW.2, label2level]
  have e1 : ∀ (W1 : LogWorld) (l : Int), (setLevel W1 fpfindLogger l).loggers epochLogger = W1.loggers epochLogger :=
    by
      intro W1 l
      unfold setLevel
      simp only [Function.update_of_ne loggers_ne]
  cases logfile with
  | none =>
    have e2 := (runWorld_other later (setLevel (importLog W) fpfindLogger (if v = 0 then logWARNING else if v = 1 then logINFO else logDEBUG)) epochLogger hlater).trans ((e1 _ _).trans e0)
    rw [logEmit_own _ _ _ (by rw [e2]; simp) (by rw [e2]) (by rw [e2]; decide), e2]
    simp
  | some p =>
    have e3 : setLogfile (importLog W).loggers fpfindLogger p true epochLogger = (importLog W).loggers epochLogger := by
      unfold setLogfile
      simp only [Function.update_of_ne loggers_ne]
    have e2 := (runWorld_other later (setLevel { importLog W with loggers := setLogfile (importLog W).loggers fpfindLogger p true }
      fpfindLogger (if v = 0 then logWARNING else if v = 1 then logINFO else logDEBUG)) epochLogger hlater).trans ((e1 _ _).trans (e3.trans e0))
    rw [logEmit_own _ _ _ (by rw [e2]; simp) (by rw [e2]) (by rw [e2]; decide), e2]
    simp

/-- **C130** (negation of a part): the warnings of the reader of epochs (wrong type or epoch in a header) are written once to standard
error, with any number of `-v`, but never to the file of `--logging`. -/
theorem C130_logfile_violated (W : LogWorld) (hW : UnusedLoggers W) (p : String) (v : Nat) (later : List WorldOp)
    (hlater : ∀ op ∈ later, ¬ About epochLogger op) :
    ∃ W', mainLog (some p) v (importLog W) = .ok W' ∧
      logEmit (runWorld later W') epochLogger logWARNING = [.own (.stderr false)] ∧
      ∀ human, .own (.file p human) ∉ logEmit (runWorld later W') epochLogger logWARNING := by
  obtain ⟨W', h1, h2⟩ := epoch_messages W hW (some p) v later hlater logWARNING
  rw [if_pos le_rfl] at h2
  exact ⟨W', h1, h2, fun human => by rw [h2]; simp⟩

/-- Instance of C130_program and C130_logfile_violated: the loggers at the start of a program, later an epoch read. -/
example : UnusedLoggers freshWorld ∧ ∃ W', mainLog (some "log") 1 (importLog freshWorld) = .ok W' ∧
    logEmit (runWorld [.readT2 (some (List.replicate 24 0))] W') fpfindLogger logINFO = [.own (.stderr true), .own (.file "log" true)] := by
  refine ⟨⟨rfl, rfl⟩, ?_⟩
  obtain ⟨W', h1, h2⟩ := C130_program freshWorld ⟨rfl, rfl⟩ (some "log") 1 [.readT2 (some (List.replicate 24 0))] (by simp [About]) logINFO
  exact ⟨W', h1, by rw [h2]; simp⟩

open Classical in
/-- **C130**: reading epochs: the named loggers and the level of the root logger stay; the root logger gets at most one handler,
the one of `basicConfig`, exactly if it had none and some T2 file of at least 24 or T4 file of at least 20 bytes was read. -/
theorem C130_reading_partial (W : LogWorld) (ops : List WorldOp)
    (hops : ∀ op ∈ ops, (∃ f, op = .readT2 f) ∨ ∃ f, op = .readT4 f) :
    (runWorld ops W).loggers = W.loggers ∧ (runWorld ops W).rootLevel = W.rootLevel ∧
    (runWorld ops W).rootHandlers =
      if W.rootHandlers = [] ∧ ((∃ f, .readT2 (some f) ∈ ops ∧ 24 ≤ f.length) ∨ ∃ f, .readT4 (some f) ∈ ops ∧ 20 ≤ f.length) then [.basic]
      else W.rootHandlers := by
  have one : ∀ W : LogWorld, (rootDebug W).rootHandlers = if W.rootHandlers = [] then [.basic] else W.rootHandlers := by
    intro W
    unfold rootDebug basicConfig
    split <;> simp_all
  have t2 : ∀ (W : LogWorld) (f : Option Bytes), (readT2Log f W).rootHandlers =
      if W.rootHandlers = [] ∧ ∃ g, f = some g ∧ 24 ≤ g.length then [.basic] else W.rootHandlers := by
    intro W f
    cases f with
    | none => simp [readT2Log]
    | some g =>
      by_cases hg : 24 ≤ g.length
      · simp [readT2Log, readT2Header, hg, one]
      · simp [readT2Log, readT2Header, hg]
  have t4 : ∀ (W : LogWorld) (f : Option Bytes), (readT4Log f W).rootHandlers =
      if W.rootHandlers = [] ∧ ∃ g, f = some g ∧ 20 ≤ g.length then [.basic] else W.rootHandlers := by
    intro W f
    cases f with
    | none => simp [readT4Log]
    | some g =>
      by_cases hg : 20 ≤ g.length
      · simp [readT4Log, readT4Header, hg, one]
      · simp [readT4Log, readT4Header, hg]
  induction ops generalizing W with
  | nil => simp [runWorld]
  | cons op ops ih =>
    obtain ⟨i1, i2, i3⟩ := ih (runWorldOp W op) fun o ho => hops o (List.mem_cons_of_mem _ ho)
    refine ⟨i1.trans ?_, i2.trans ?_, i3.trans ?_⟩
    · rcases hops op List.mem_cons_self with ⟨f, rfl⟩ | ⟨f, rfl⟩
      · exact (readT2Log_loggers f W).1
      · exact (readT4Log_loggers f W).1
    · rcases hops op List.mem_cons_self with ⟨f, rfl⟩ | ⟨f, rfl⟩
      · exact (readT2Log_loggers f W).2
      · exact (readT4Log_loggers f W).2
    · rcases hops op List.mem_cons_self with ⟨f, rfl⟩ | ⟨f, rfl⟩
      · have e : (runWorldOp W (.readT2 f)).rootHandlers = _ := t2 W f
        by_cases h0 : W.rootHandlers = []
        · by_cases hf : ∃ g, f = some g ∧ 24 ≤ g.length
          · obtain ⟨g, rfl, hg⟩ := hf
            rw [e.trans (if_pos ⟨h0, g, rfl, hg⟩), if_neg (by simp), if_pos ⟨h0, Or.inl ⟨g, List.mem_cons_self, hg⟩⟩]
          · rw [e.trans (if_neg (fun h => hf h.2))]
            refine if_congr (and_congr_right fun _ => or_congr (exists_congr fun g => and_congr_left fun hg => ?_)
              (exists_congr fun g => and_congr_left fun hg => ?_)) rfl rfl
            · rw [List.mem_cons]
              refine ⟨Or.inr, fun h => h.resolve_left fun h => hf ⟨g, ?_, hg⟩⟩
              injection h with h
              exact h.symm
            · rw [List.mem_cons]
              exact ⟨Or.inr, fun h => h.resolve_left (by simp)⟩
        · rw [e.trans (if_neg fun h => h0 h.1)]
          simp [h0]
      · have e : (runWorldOp W (.readT4 f)).rootHandlers = _ := t4 W f
        by_cases h0 : W.rootHandlers = []
        · by_cases hf : ∃ g, f = some g ∧ 20 ≤ g.length
          · obtain ⟨g, rfl, hg⟩ := hf
            rw [e.trans (if_pos ⟨h0, g, rfl, hg⟩), if_neg (by simp), if_pos ⟨h0, Or.inr ⟨g, List.mem_cons_self, hg⟩⟩]
          · rw [e.trans (if_neg (fun h => hf h.2))]
            refine if_congr (and_congr_right fun _ => or_congr (exists_congr fun g => and_congr_left fun hg => ?_)
              (exists_congr fun g => and_congr_left fun hg => ?_)) rfl rfl
            · rw [List.mem_cons]
              exact ⟨Or.inr, fun h => h.resolve_left (by simp)⟩
            · rw [List.mem_cons]
              refine ⟨Or.inr, fun h => h.resolve_left fun h => hf ⟨g, ?_, hg⟩⟩
              injection h with h
              exact h.symm
        · rw [e.trans (if_neg fun h => h0 h.1)]
          simp [h0]

/-- Instance of C130_reading_partial: a short file changes nothing, an epoch of 24 bytes adds the handler. -/
example : (runWorld [.readT2 (some [1, 2])] freshWorld).rootHandlers = [] ∧
    (runWorld [.readT2 (some [1, 2]), .readT2 (some (List.replicate 24 0))] freshWorld).rootHandlers = [.basic] := by
  constructor
  · rw [(C130_reading_partial freshWorld _ (by simp)).2.2]
    simp [freshWorld]
  · rw [(C130_reading_partial freshWorld _ (by simp)).2.2, if_pos]
    exact ⟨rfl, Or.inl ⟨List.replicate 24 0, by simp, by simp⟩⟩

/-- **C130** (negation of a part): reading a T2 epoch changes the logging of an application that has not configured it: messages of
its loggers are then written by the handler of `basicConfig` rather than the one of last resort (which leaves out messages below the
level of warnings), and its own later `basicConfig` has no effect any more. -/
theorem C130_root_violated (file : Bytes) (hfile : 24 ≤ file.length) (W : LogWorld) (hW : W.rootHandlers = []) (name : String)
    (hname : ∀ n ∈ name :: logAncestors name, W.loggers n = { handlers := [], propagate := true, level := 0 })
    (level : Int) (hl : W.rootLevel ≤ level) (hs : List RootHandler) (hhs : hs ≠ []) :
    logEmit W name level = (if logWARNING ≤ level then [.lastResort] else []) ∧
    logEmit (readT2Log (some file) W) name level = [.root .basic] ∧
    logEmit (basicConfig hs W) name level = hs.map .root ∧
    logEmit (basicConfig hs (readT2Log (some file) W)) name level = [.root .basic] := by
  have hr : readT2Log (some file) W = { W with rootHandlers := [.basic] } := by
    simp [readT2Log, readT2Header, hfile, rootDebug, basicConfig, hW]
  have key : ∀ rh : List RootHandler, logEmit { W with rootHandlers := rh } name level =
      match rh.map LogSink.root with | [] => (if logWARNING ≤ level then [.lastResort] else []) | h => h := by
    intro rh
    have he : effectiveLevel { W with rootHandlers := rh } name = W.rootLevel := by
      unfold effectiveLevel
      have : ((name :: logAncestors name).map fun n => (W.loggers n).level).find? (· ≠ 0) = none := by
        rw [List.find?_eq_none]
        intro x hx
        obtain ⟨n, hn, rfl⟩ := List.mem_map.mp hx
        simp [hname n hn]
      rw [this]
      rfl
    have hh : ∀ ns : List String, (∀ n ∈ ns, W.loggers n = { handlers := [], propagate := true, level := 0 }) →
        handlersFrom { W with rootHandlers := rh } ns = rh.map .root := by
      intro ns
      induction ns with
      | nil => intro _; rfl
      | cons n ns ih =>
        intro h
        unfold handlersFrom
        simp only
        rw [h n List.mem_cons_self, ih fun m hm => h m (List.mem_cons_of_mem _ hm)]
        simp
    unfold logEmit
    rw [he, hh _ hname, if_neg (not_lt.mpr hl)]
    cases rh <;> simp
  have hb : basicConfig hs W = { W with rootHandlers := hs } := by simp [basicConfig, hW]
  have hb2 : basicConfig hs { W with rootHandlers := [.basic] } = { W with rootHandlers := [.basic] } := by simp [basicConfig]
  refine ⟨?_, by rw [hr, key]; rfl, ?_, by rw [hr, hb2, key]; rfl⟩
  · have := key W.rootHandlers
    rw [hW] at this
    have e : ({ W with rootHandlers := [] } : LogWorld) = W := by rw [← hW]
    rw [e] at this
    exact this
  · rw [hb, key]
    split
    · rename_i h
      exact absurd (List.map_eq_nil_iff.mp h) hhs
    · rfl

/-- Instance of C130_root_violated: the logger `app.x` at the start of a program. -/
example : logEmit (basicConfig [.app 1] (readT2Log (some (List.replicate 24 0)) freshWorld)) "app.x" logWARNING = [.root .basic] ∧
    logEmit (basicConfig [.app 1] freshWorld) "app.x" logWARNING = [.root (.app 1)] :=
  ⟨(C130_root_violated _ (by simp) freshWorld rfl "app.x" (fun _ _ => rfl) logWARNING (le_refl _) [.app 1] (by simp)).2.2.2,
   (C130_root_violated (List.replicate 24 0) (by simp) freshWorld rfl "app.x" (fun _ _ => rfl) logWARNING (le_refl _) [.app 1] (by simp)).2.2.1⟩

end Fp
