import Verif.Model.RawFilter

/-!
# Model of `main` of `src/fpfind/lib/parse_timestamps.py`: the conversion and statistics command for all formats

The files are a function from names to contents.  Different names are different files (no links).  Not modelled: the
progress bar, the help text, errors of the operating system.
-/
namespace Fp

/-- The choices of `-A` and `-a`, parse_timestamps.py:688-690. -/
inductive Fmt
  | a0
  | a1
  | a2
  deriving DecidableEq, Repr

/-- The files by name. -/
abbrev Files := List Char → Option Bytes

/-- A file created or overwritten: `open(name, "w")` and the writes up to the end of the `with` block. -/
def Files.set (files : Files) (name : List Char) (content : Bytes) : Files :=
  fun n => if n = name then some content else files n

/-- Universal newlines of a file opened in text mode (Python runtime): `\r\n` and `\r` are read as `\n`. -/
def universalNl : List Char → List Char
  | '\r' :: '\n' :: cs => '\n' :: universalNl cs
  | '\r' :: cs => '\n' :: universalNl cs
  | c :: cs => c :: universalNl cs
  | [] => []

/-- Reading a file in text mode.  Simplification: any byte from 128 on is `UnicodeDecodeError` (a `ValueError`), and it is
raised before the first buffer is processed; the formats are pure ASCII. -/
def bytesText (b : Bytes) : Except PyErr (List Char) :=
  if b.all (fun x => decide (x.toNat < 128)) then .ok (universalNl (b.map fun x => Char.ofNat x.toNat)) else .error .valueError

/-- Writing ASCII characters in text mode (Linux: no translation of newlines). -/
def textBytes (cs : List Char) : Bytes := cs.map fun c => UInt8.ofNat c.toNat

/-- `read = [read_a0, read_a1, read_a2][int(args.A)]`, parse_timestamps.py:719. -/
def readFmt (fw : Nat) (fmt : Fmt) (legacy : Bool) (res : Tsres) (fractional : Bool) (file : Bytes) :
    Except PyErr (List (Num × Nat)) :=
  match fmt with
  | .a0 => do readA0 fw res fractional (← bytesText file)
  | .a1 => readA1 fw legacy res fractional file
  | .a2 => do readA2 fw res fractional (← bytesText file)

/-- `sread = [sread_a0, sread_a1, sread_a2][int(args.A)]`, parse_timestamps.py:720: the batches and the exception that
ended the generator. -/
def sreadFmt (fw : Nat) (fmt : Fmt) (legacy : Bool) (res : Tsres) (fractional : Bool) (bufferSize : Nat) (file : Bytes) :
    List (List (Num × Nat)) × Option PyErr :=
  match fmt with
  | .a0 => match bytesText file with
    | .error e => ([], some e)
    | .ok cs => (sreadA0 fw res fractional bufferSize cs).1
  | .a1 => (sreadA1 fw legacy res fractional bufferSize file).1
  | .a2 => match bytesText file with
    | .error e => ([], some e)
    | .ok cs => (sreadA2 fw res fractional bufferSize cs).1

/-- `write = [write_a0, write_a1, write_a2][int(args.a)]`, parse_timestamps.py:721. -/
def writeFmt (fw : Nat) (fmt : Fmt) (legacy : Bool) (res : Tsres) (events : List (Num × Nat)) : Bytes :=
  match fmt with
  | .a0 => textBytes (writeA0 fw res events)
  | .a1 => writeA1 fw legacy res events
  | .a2 => textBytes (writeA2 fw res events)

/-- `swrite = [swrite_a0, swrite_a1, swrite_a2][int(args.a)]`, parse_timestamps.py:722. -/
def swriteFmt (fw : Nat) (fmt : Fmt) (legacy : Bool) (res : Tsres) (stream : List (List (Num × Nat))) : Bytes :=
  match fmt with
  | .a0 => textBytes (swriteA0 fw res stream)
  | .a1 => swriteA1 fw legacy res stream
  | .a2 => textBytes (swriteA2 fw res stream)

/-- The command line, parse_timestamps.py:687-707 (`-q` only concerns the progress bar). -/
structure TsArgs where
  inFmt : Fmt
  legacyIn : Bool
  outFmt : Fmt
  legacyOut : Bool
  print : Bool
  filter : FilterArgs
  inmemory : Bool
  infile : List Char
  outfile : Option (List Char)

/-- The effect of the command: the files afterwards, the arguments `print_statistics_report` was called with (if it was),
and the exception that ended the command (if any). -/
structure TsResult where
  files : Files
  report : Option Report
  err : Option PyErr

/-- The exception of a result. -/
def errOf {α : Type} : Except PyErr α → Option PyErr
  | .ok _ => none
  | .error e => some e

/-- `has_filtering`, parse_timestamps.py:730-733. -/
def FilterArgs.any (a : FilterArgs) : Bool := a.pattern.isSome || a.start.isSome || a.stop.isSome

/-- `main`, parse_timestamps.py:714-773 (after the arguments are parsed).  When streaming, the writer opens (and empties)
the output file, lines 353, 376 and 395, before the generator opens the input file at its first step, lines 189, 214 and
240.  The widths of the floating-point numbers in the report: `float128` for 1 ns times, `float64` for a quotient of
integers. -/
def tsMain (fw : Nat) (args : TsArgs) (files : Files) : TsResult :=
  let outfile := args.outfile.getD []
  -- lines 716-717
  if ¬ args.print ∧ outfile = [] then ⟨files, none, some .valueError⟩
  else
    -- lines 725-727
    match files args.infile with
    | none => ⟨files, none, some .valueError⟩
    | some content =>
      -- lines 750-756
      if args.inmemory then
        match readFmt fw args.inFmt args.legacyIn .ns1 true content with
        | .error e => ⟨files, none, some e⟩
        | .ok evs =>
          let evs := filterBatch args.filter .ns1 evs
          if args.print then
            match printStatistics evs with
            | .error e => ⟨files, none, some e⟩
            | .ok r => ⟨files, some r, errOf (printReport fw r)⟩
          else ⟨files.set outfile (writeFmt fw args.outFmt args.legacyOut .ns1 evs), none, none⟩
      else if args.print then
        if args.filter.any then
          -- lines 760-763
          let s := sreadFmt fw args.inFmt args.legacyIn .ns1 true 100000 content
          match s.2 with
          | some e => ⟨files, none, some e⟩
          | none =>
            let r := printStatisticsStream fw .ns1 (s.1.map (filterBatch args.filter .ns1))
            ⟨files, some r, errOf (printReport fw r)⟩
        else
          -- lines 765-767
          let s := sreadFmt fw args.inFmt args.legacyIn .ps4 false 100000 content
          match s.2 with
          | some e => ⟨files, none, some e⟩
          | none =>
            let r := printStatisticsStream fw .ps4 s.1
            ⟨files, some r, errOf (printReport 53 r)⟩
      else
        -- lines 770-773
        let emptied := files.set outfile []
        let s := sreadFmt fw args.inFmt args.legacyIn .ps4 false 100000 ((emptied args.infile).getD [])
        ⟨emptied.set outfile (swriteFmt fw args.outFmt args.legacyOut .ps4 (s.1.map (filterBatch args.filter .ps4))), none, s.2⟩

end Fp
