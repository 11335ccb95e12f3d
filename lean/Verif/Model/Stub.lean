import Verif.Model.FreqcdProgram

/-!
# Model of the stand-in script `src/fpfind/freqcd` and of `src/fpfind/_postinstall`

The script is what is installed as `freqcd` until the C program has been compiled.  The programs it calls are parameters
(`ShWorld`).  Words are split at blanks; there are no characters with a meaning for the shell's file name expansion.  The name
after a redirection is not split.  `ps -q $$ -o args=` prints the arguments the script's shell was started with, separated by
spaces: the shell, the name of the script and the arguments.  The message of line 26 is left out, and so is a failure of the last
`exec`.
-/
namespace Fp

/-- The bytes of an ASCII text. -/
def asc (s : String) : Bytes := s.toList.map fun c => UInt8.ofNat c.toNat

/-- Blank, tab and newline: where the shell and `awk -F ' '` split. -/
def shBlank (c : UInt8) : Bool := c == 32 || c == 9 || c == 10

/-- Splitting into words; `acc` is the word begun. -/
def shSplit (acc : Bytes) : Bytes → List Bytes
  | [] => if acc = [] then [] else [acc]
  | c :: cs => if shBlank c then (if acc = [] then [] else [acc]) ++ shSplit [] cs else shSplit (acc ++ [c]) cs

/-- The words of an unquoted text. -/
def shWords (s : Bytes) : List Bytes := shSplit [] s

/-- `dirname` of a path. -/
def shDirname (p : Bytes) : Bytes :=
  let r := (p.reverse.dropWhile (· == 47)).dropWhile (· != 47)
  if r = [] then (if p.headD 0 = 47 then [47] else asc ".")
  else if r.dropWhile (· == 47) = [] then [47] else (r.dropWhile (· == 47)).reverse

/-- What the script finds. -/
structure ShWorld where
  /-- The output of the call of python3 in line 16, without newlines at its end. -/
  python : Bytes
  /-- The output of `readlink -f` for these arguments. -/
  readlink : List Bytes → Bytes
  /-- Whether `rm -f` with these arguments succeeds. -/
  rm : List Bytes → Bool
  /-- `cd` with these arguments: the new working directory, if it succeeds. -/
  cd : List Bytes → Option Bytes
  /-- Whether `./_postinstall` can be run in this directory. -/
  script : Bytes → Bool
  /-- Whether `gcc` succeeds in this directory with these arguments. -/
  gcc : Bytes → List Bytes → Bool

/-- What the script does, in order. -/
inductive ShAction
  | remove (args : List Bytes)
  | record (file content : Bytes)
  | compile (dir : Bytes) (args : List Bytes)
  deriving DecidableEq

/-- How the script ends: with an exit status, or as another program with its working directory, name and arguments. -/
inductive ShEnd
  | exit (status : Nat)
  | exec (dir prog : Bytes) (args : List Bytes)
  deriving DecidableEq

/-- `_postinstall`, lines 3-5: the arguments of `gcc`. -/
def postinstall (args : List Bytes) : List Bytes :=
  let target := if args.headD [] = [] then asc "freqcd" else args.headD []
  [asc "-o"] ++ shWords target ++ [asc "freqcd.c", asc "lib/getopt.c"]

/-- `PROGRAM` of line 13. -/
def stubProgram (shell script : Bytes) (args : List Bytes) : Bytes :=
  (shWords (shell ++ (script :: args).flatMap fun a => 32 :: a)).getD 1 []

/-- `INSTALL_ROOT` of line 17. -/
def stubRoot (w : ShWorld) : Bytes := shDirname (w.readlink (shWords w.python))

/-- `src/fpfind/freqcd`, called as `script` with the arguments `args`. -/
def stub (w : ShWorld) (shell script : Bytes) (args : List Bytes) : List ShAction × ShEnd :=
  let program := stubProgram shell script args
  let root := stubRoot w
  let path := root ++ asc "/freqcd_path"
  let acts := .remove (shWords path) :: if w.rm (shWords path) then [.record path (program ++ [10])] else []
  match w.cd (shWords root) with
  | none => (acts, .exit 1)
  | some dir =>
    if w.script dir then
      let gcc := postinstall (shWords program)
      (acts ++ [.compile dir gcc], if w.gcc dir gcc then .exec dir program args else .exit 1)
    else (acts, .exit 1)

end Fp
