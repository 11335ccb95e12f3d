import Verif.Model.Stub
import Verif.Spec.FreqcdProgram

/-! # Specification of the stand-in for freqcd -/
namespace Fp.Spec

/-- A name without blanks. -/
def Plain (p : Bytes) : Prop := p ≠ [] ∧ ∀ c ∈ p, c ≠ 32 ∧ c ≠ 9 ∧ c ≠ 10

/-- The file a name stands for in a directory. -/
def located (dir name : Bytes) : Bytes := if name.head? = some 47 then name else dir ++ 47 :: name

/-- The library is installed in the directory `root` and everything the script calls is there; the compiler may fail. -/
structure Installed (w : ShWorld) (root : Bytes) : Prop where
  python : Plain w.python
  plain : Plain root
  noSlash : root.getLast? ≠ some 47
  readlink : w.readlink [w.python] = root ++ asc "/__init__.py"
  cd : w.cd [root] = some root
  script : w.script root = true

/-- What a program started in the directory `dir` finds, if `w` tells what there is under each full name. -/
def inDirectory (dir : Bytes) (w : FWorld) : FWorld where
  files := fun n => w.files (located dir n)
  writable := fun n => w.writable (located dir n)
  stdin := w.stdin

end Fp.Spec
