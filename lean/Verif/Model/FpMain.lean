import Verif.Model.FpFind
import Verif.Model.Raw

/-!
# Model of the input part of `main` in `src/fpfind/fpfind.py`

Files named on the command line exist (their contents are in the arguments); entries of the epoch directories are files.
Logging is not modelled.
-/
namespace Fp

/-- An epoch directory: the names `glob("*")` finds, and the contents of files by name. -/
structure EpochDir where
  names : List (List Char)
  file : List Char → Option Bytes

/-- The options used by lines 563-619 of fpfind.py.  Raw timestamp files are given by their contents.  The model is meant for resolutions
and separations other than zero (see `fpCli`). -/
structure FpArgs where
  sendfiles : Option EpochDir
  t1files : Option EpochDir
  reference : Option Bytes
  target : Option Bytes
  legacy : Bool
  skipDuration : ℚ
  firstEpoch : Option (List Char)
  skipEpochs : Int
  initialRes : Nat
  bufferOrder : Nat
  numWraps : Nat
  separation : ℚ

/-- `Ta`, fpfind.py:564-565, an exact Python integer. -/
def FpArgs.ta (args : FpArgs) : Nat := args.initialRes * 2 ^ args.bufferOrder * args.numWraps

/-- `minimum_duration`, fpfind.py:567: `separation` is a float. -/
def FpArgs.minDuration (rnd : ℚ → ℚ) (args : FpArgs) : ℚ := rnd (rnd (args.separation + 1) * rnd (args.ta : ℚ))

/-- `.astype(np.int32)` of a whole float (x86-64): -2^31 for values out of range. -/
def astypeInt32 (n : ℤ) : ℤ := if -2 ^ 31 ≤ n ∧ n < 2 ^ 31 then n else -2 ^ 31

/-- `required_epochs`, fpfind.py:583. -/
def FpArgs.requiredEpochs (rnd : ℚ → ℚ) (args : FpArgs) : ℤ :=
  astypeInt32 ⌈rnd (args.minDuration rnd / 2 ^ 29)⌉ + args.skipEpochs + 1

/-- `get_timestamp` (utils.py:404-411) for a first epoch that may be `None`: then `int(None, 16)` raises `TypeError` in the first
round of the loop. -/
def getTimestampFrom (fuel : Nat) (dir : List Char → Option Bytes) (isT1 : Bool) (firstEpoch : Option (List Char)) (skipEpoch : Int)
    (numEpochs : Int) : Option (Except PyErr (List ENum)) :=
  match firstEpoch with
  | some f => getTimestamp fuel dir isT1 f skipEpoch numEpochs.toNat
  | none => some (if numEpochs.toNat = 0 then .ok [] else .error .typeError)

/-- fpfind.py:578-618: the timestamps of the reference (alice) and of the target (bob), in ns, and the duration to skip in
seconds (line 618).  `.ok none` is the exit with status 1.  The comparison with the available epochs only prints a warning.
`none` = still running. -/
def loadInput (rnd : ℚ → ℚ) (fuel : Nat) (args : FpArgs) : Option (Except PyErr (Option (List ℚ × List ℚ × ℚ))) :=
  match args.sendfiles, args.t1files, args.target, args.reference with
  | some d1, some d2, _, _ =>
    let required := args.requiredEpochs rnd
    match getFirstOverlappingEpoch fuel d1.names d2.names args.firstEpoch with
    | none => none
    | some (.error e) => some (.error e)
    | some (.ok (first, _)) =>
      match getTimestampFrom fuel d1.file false first args.skipEpochs (required - args.skipEpochs) with
      | none => none
      | some (.error e) => some (.error e)
      | some (.ok alice) =>
        match getTimestampFrom fuel d2.file true first args.skipEpochs (required - args.skipEpochs) with
        | none => none
        | some (.error e) => some (.error e)
        | some (.ok bob) => some (.ok (some (alice.map ENum.val, bob.map ENum.val, 0)))
  | _, _, some target, some reference =>
    match readA1 64 args.legacy .ns1 true reference, readA1 64 args.legacy .ns1 true target with
    | .error e, _ => some (.error e)
    | _, .error e => some (.error e)
    | .ok alice, .ok bob => some (.ok (some (alice.map (·.1.val), bob.map (·.1.val), args.skipDuration)))
  | _, _, _, _ => some (.ok none)

/-- fpfind.py:578-619: the normalised timestamps given to `fpfind`. -/
def mainInput (rnd rndA : ℚ → ℚ) (fuel : Nat) (args : FpArgs) : Option (Except PyErr (Option (List (List ℚ)))) :=
  match loadInput rnd fuel args with
  | none => none
  | some (.error e) => some (.error e)
  | some (.ok none) => some (.ok none)
  | some (.ok (some (alice, bob, skip))) => some ((normalizeTimestampsR rnd rndA [alice, bob] skip true).map some)

end Fp
