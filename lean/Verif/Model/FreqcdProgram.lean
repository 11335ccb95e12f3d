import Verif.Model.FreqcdMain

/-!
# Model of the whole of `main` in `src/fpfind/freqcd.c`: start, main loop, exit status

Files are regular files, given by their names and contents (for a pipe the contents stand for what comes through it, but a
pipe is not emptied when it is opened).  The standard streams are open, `malloc` does not fail.
-/
namespace Fp

/-- What `freqcd` finds: the files that can be opened for reading, the names that can be opened for writing, and the standard
input. -/
structure FWorld where
  files : Bytes → Option Bytes
  writable : Bytes → Bool
  stdin : Bytes

/-- What can be seen of a run: the exit status (`none` while it is running), the files, and the standard output. -/
structure FOutcome where
  status : Option Nat
  files : Bytes → Option Bytes
  stdout : Bytes

/-- A write beyond a file name buffer, or a wrong access to one of the heap buffers. -/
inductive FCrash
  | overrun
  | heap (f : Fault)
  deriving DecidableEq

/-- The exit status of `return -emsg(code)` in `main`: the low byte of a negative number. -/
def errorStatus (code : Nat) : Nat := 256 - code

/-- `open(name, O_WRONLY | O_CREAT | O_TRUNC, ...)` and later writes: the file with the given contents. -/
def setFile (files : Bytes → Option Bytes) (name content : Bytes) : Bytes → Option Bytes :=
  fun n => if n = name then some content else files n

/-- The contents of the buffers and variables that are not initialised, freqcd.c:235-255, 274-275. -/
structure FMemory where
  inbuf : Bytes
  outbuf : Bytes
  freqbuf : Bytes
  tsmeas : BitVec 64
  tscorr : BitVec 64

/-- freqcd.c:215-233: the contents of the input and of the frequency channel, and the files after the output has been opened;
or the exit status (with the files) if one cannot be opened. -/
def openFiles (w : FWorld) (c : Config) : Except (Nat × (Bytes → Option Bytes)) (Bytes × Bytes × (Bytes → Option Bytes)) :=
  if c.infile ≠ [] ∧ w.files c.infile = none then .error (errorStatus 3, w.files)
  else if c.outfile ≠ [] ∧ w.writable c.outfile = false then .error (errorStatus 9, w.files)
  else
    let files := if c.outfile = [] then w.files else setFile w.files c.outfile []
    if c.freqfile ≠ [] ∧ files c.freqfile = none then .error (errorStatus 11, files)
    else .ok (if c.infile = [] then w.stdin else (files c.infile).getD [], if c.freqfile = [] then [] else (files c.freqfile).getD [], files)

/-- The program with its options, freqcd.c:215-461.  Every way out of the main loop leads to `return 0`.  Simplification: a
frequency channel that is the output file at the same time is taken as empty. -/
def freqcdRun (w : FWorld) (c : Config) (m : FMemory) (rounds : List Round) : Except FCrash FOutcome :=
  match openFiles w c with
  | .error (status, files) => .ok ⟨some status, files, []⟩
  | .ok (src, freqSrc, files) =>
    match fRun c.legacy rounds (fInit m.inbuf m.outbuf m.freqbuf m.tsmeas m.tscorr c.fcorr (decide (c.freqfile ≠ [])) src freqSrc) with
    | .error f => .error (.heap f)
    | .ok (s, stop) =>
      .ok ⟨if stop = none then none else some 0, if c.outfile = [] then files else setFile files c.outfile s.out,
        if c.outfile = [] then s.out else []⟩

/-- `main`, freqcd.c:159-461; at most `fuel` calls of `getopt`. -/
def freqcdMain (fuel : Nat) (w : FWorld) (argv : List Bytes) (m : FMemory) (rounds : List Round) : Option (Except FCrash FOutcome) :=
  match mainOpts fuel argv with
  | none => none
  | some (.error .overrun) => some (.error .overrun)
  | some (.error .usage) => some (.ok ⟨some 1, w.files, []⟩)
  | some (.error (.error code)) => some (.ok ⟨some (errorStatus code), w.files, []⟩)
  | some (.ok c) => some (freqcdRun w c m rounds)

end Fp
