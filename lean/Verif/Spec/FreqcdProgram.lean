import Verif.Model.FreqcdProgram
import Verif.Spec.FreqcdMain

/-! Specification vocabulary for whole runs of `freqcd`. -/
namespace Fp.Spec

/-- The buffers have their sizes. -/
def FMemory.Sized (m : FMemory) : Prop := m.inbuf.length = 8192 ∧ m.outbuf.length = 8192 ∧ m.freqbuf.length = 100

/-- The program called with these arguments has the outcome `o`. -/
def Outcome (w : FWorld) (argv : List Bytes) (m : FMemory) (rounds : List Round) (o : FOutcome) : Prop :=
  ∃ N, ∀ fuel ≥ N, freqcdMain fuel w argv m rounds = some (.ok o)

/-- The output of the program: the file given with `-o`, or the standard output. -/
def FOutcome.output (o : FOutcome) (outfile : Bytes) : Bytes := if outfile = [] then o.stdout else (o.files outfile).getD []

/-- The input of the program: the file given with `-i`, or the standard input. -/
def FWorld.input (w : FWorld) (infile : Bytes) : Bytes := if infile = [] then w.stdin else (w.files infile).getD []

/-- Everything that the program has to open can be opened, and the output is not one of the inputs. -/
def Available (w : FWorld) (c : Config) : Prop :=
  (c.infile ≠ [] → w.files c.infile ≠ none) ∧ (c.freqfile ≠ [] → w.files c.freqfile ≠ none) ∧
    (c.outfile ≠ [] → w.writable c.outfile = true ∧ c.infile ≠ c.outfile ∧ c.freqfile ≠ c.outfile)

/-- A pass of the main loop on regular files without frequency channel: a read returns as much as is asked for and there is, a
write is complete. -/
def FullRound (r : Round) : Prop :=
  r.selectOk = true ∧ (∃ k, r.inRead = some (some k) ∧ 8192 ≤ k) ∧ r.freqRead = none ∧ ∃ k, r.write = some k ∧ 8192 ≤ k

end Fp.Spec
