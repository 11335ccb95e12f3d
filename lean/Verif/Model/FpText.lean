import Verif.Model.Decimal
import Verif.Model.FpMain

/-!
# Model of the output line and of the whole of `main` in `src/fpfind/fpfind.py`

The numerical environment is a parameter, as in `Model/FpFind.lean`.  Logging is not modelled; neither is the parsing of the
command line.
-/
namespace Fp

/-- Runtime model: the number of significant digits `repr` uses for a float, the least that is enough to get the float back. -/
def reprPrecision (x : ℚ) : Nat :=
  ((List.range 17).find? fun i : Nat =>
    decide (fl 53 ((sigDigits (i + 1) x).1 * 10 ^ ((sigDigits (i + 1) x).2 - ((i + 1 : Nat) : Int) + 1)) = x)).getD 16 + 1

/-- `.0` is added to what looks like an integer. -/
def addPoint (t : List Char) : List Char := if '.' ∈ t ∨ 'e' ∈ t then t else t ++ ['.', '0']

/-- Runtime model: `repr` of a float and `str` of a numpy `float64`, without exponent from `1e-4` to `1e16`.  (At powers of two
the last digit may in rare cases be chosen differently.) -/
def reprFloat (x : ℚ) : List Char :=
  if x = 0 then ['0', '.', '0']
  else
    let p := reprPrecision |x|
    let d := sigDigits p |x|
    (if x < 0 then ['-'] else []) ++ addPoint (layoutG 16 (fixDigits 17 (d.1 * 10 ^ (17 - p))) d.2)

/-- `f"{n:d}"`. -/
def intText (n : ℤ) : List Char := (if n < 0 then ['-'] else []) ++ natDigits n.natAbs

/-- `str.isspace` for ASCII characters. -/
def isPySpace (c : Char) : Bool := c = ' ' ∨ (9 ≤ c.toNat ∧ c.toNat ≤ 13) ∨ (28 ≤ c.toNat ∧ c.toNat ≤ 31)

/-- `str.rstrip()`. -/
def rstrip (l : List Char) : List Char := (l.reverse.dropWhile isPySpace).reverse

/-- The first field, fpfind.py:669 and 673. -/
def dfText : ℚ ⊕ ℤ → List Char
  | .inl x => reprFloat x
  | .inr n => intText n

/-- The line printed by `main`, fpfind.py:673-677. -/
def fpLine (o : FpOutput) : List Char :=
  let output := dfText o.df ++ ['\t']
  let output := match o.dt with
    | some dt => output ++ (intText dt ++ ['\t'])
    | none => output
  rstrip output ++ ['\n']

/-- All options used by `main` from line 563 on. -/
structure FpMainArgs extends FpArgs where
  finalRes : Nat
  threshold : ℚ
  output : Nat
  precompEnable : Bool
  precompStart : ℚ
  precompStep : ℚ
  precompStop : ℚ
  precompOrdered : Bool
  precompFullscan : Bool

/-- The numerical environment: rounding of scalars and arrays, `get_xcorr` of two histograms, significance of a peak. -/
structure NumEnv where
  rnd : ℚ → ℚ
  rndA : ℚ → ℚ
  xcorr : List Nat → List Nat → List ℚ
  signif : List ℚ → ℚ → Except PyErr ℚ

/-- What `main` and `fpfind` give to `time_freq`, fpfind.py:564-566, 649-659 and 359-363; lines 126 and 127. -/
def FpMainArgs.params (env : NumEnv) (args : FpMainArgs) (alice : List ℚ) (endTime : ℚ) : TFParams where
  ats := alice
  numBins := 2 ^ args.bufferOrder
  target := args.finalRes
  threshold := args.threshold
  sep := env.rnd (args.separation * env.rnd (args.ta : ℚ))
  duration := args.ta
  endTime := endTime
  rnd := env.rnd
  rndA := env.rndA
  xcorr := env.xcorr
  signif := env.signif

/-- The call of `time_freq` in line 359 for given target timestamps; `none` = still running. -/
def FpMainArgs.call (env : NumEnv) (fuel : Nat) (args : FpMainArgs) (alice bob : List ℚ) : Option (Except PyErr (ℚ × ℚ)) :=
  match tfEndTime alice bob with
  | .error e => some (.error e)
  | .ok endTime => (timeFreq (args.params env alice endTime) fuel bob args.initialRes).map fun r => r.map fun r => (r.1, r.2.1)

/-- `fpfind`, fpfind.py:314-387, for calls of `time_freq` that may be still running: as `fpfindScan` in `Model/FpFind.lean`. -/
def fpfindScanF (rnd rndA : ℚ → ℚ) (tf : List ℚ → Option (Except PyErr (ℚ × ℚ))) (bob : List ℚ) (fullscan : Bool) :
    List ℚ → Option (Except PyErr (ℚ × ℚ))
  | [] => some (.error .valueError)
  | df0 :: rest =>
    let f := rnd (1 + df0)
    match tf (bob.map fun t => rndA (rndA (t - 0) / f)) with
    | none => none
    | some (.error .valueError) => fpfindScanF rnd rndA tf bob fullscan rest
    | some (.error e) => some (.error e)
    | some (.ok (dt1, df1)) =>
      let dt := rnd (0 + rnd (f * dt1))
      let f := rnd (f * rnd (1 + df1))
      if fullscan then fpfindScanF rnd rndA tf bob fullscan rest
      else some (.ok (dt, rnd (f - 1)))

/-- fpfind.py:632-640: the precompensations to try. -/
def FpMainArgs.precompensations (env : NumEnv) (args : FpMainArgs) : List ℚ :=
  if args.precompEnable then generatePrecompensations env.rnd args.precompStart args.precompStop args.precompStep args.precompOrdered
  else [0]

/-- `main`, fpfind.py:563-677: the line printed, or `none` for the exit with status 1 because of missing inputs.  Lines 624-626
look at the first and last timestamps, which raises `IndexError` if there are none. -/
def fpMain (env : NumEnv) (fuel : Nat) (args : FpMainArgs) : Option (Except PyErr (Option (List Char))) :=
  match mainInput env.rnd env.rndA fuel args.toFpArgs with
  | none => none
  | some (.error e) => some (.error e)
  | some (.ok none) => some (.ok none)
  | some (.ok (some arrays)) =>
    let alice := arrays.getD 0 []
    let bob := arrays.getD 1 []
    if alice = [] ∨ bob = [] then some (.error .indexError)
    else
      match fpfindScanF env.rnd env.rndA (args.call env fuel alice) bob args.precompFullscan (args.precompensations env) with
      | none => none
      | some (.error e) => some (.error e)
      | some (.ok (dt, df)) => some (.ok (some (fpLine (fpOutput env.rnd args.output dt df))))

end Fp
