import Verif.Model.FpMain

/-!
# Model of `src/fpfind/fpplot.py`

The program up to the arrays it hands to `S15lib.g2lib.histogram` (not part of the repository).  Plotting, logging and the
experimental breakpoint are not modelled; a warning about insufficient epochs has no other effect (lines 137-138).
-/
namespace Fp

/-- The options used by fpplot.py:127-174.  Raw timestamp files are given by their contents. -/
structure PlotArgs where
  sendfiles : Option EpochDir
  t1files : Option EpochDir
  reference : Option Bytes
  target : Option Bytes
  legacy : Bool
  skipDuration : ℚ
  firstEpoch : Option (List Char)
  numEpochs : Int
  skipEpochs : Int
  freq : ℚ
  time : ℚ
  duration : Option ℚ

/-- fpplot.py:127-166: the timestamps of the reference (alice) and of the target (bob), in ns, and the duration to skip.
`.ok none` is the exit with status 1, `none` = still running. -/
def plotLoad (fuel : Nat) (args : PlotArgs) : Option (Except PyErr (Option (List ℚ × List ℚ × ℚ))) :=
  match args.sendfiles, args.t1files, args.target, args.reference with
  | some d1, some d2, _, _ =>
    match getFirstOverlappingEpoch fuel d1.names d2.names args.firstEpoch with
    | none => none
    | some (.error e) => some (.error e)
    | some (.ok (first, _)) =>
      match getTimestampFrom fuel d1.file false first args.skipEpochs args.numEpochs with
      | none => none
      | some (.error e) => some (.error e)
      | some (.ok alice) =>
        match getTimestampFrom fuel d2.file true first args.skipEpochs args.numEpochs with
        | none => none
        | some (.error e) => some (.error e)
        | some (.ok bob) => some (.ok (some (alice.map ENum.val, bob.map ENum.val, 0)))
  | _, _, some target, some reference =>
    match readA1 64 args.legacy .ns1 true reference, readA1 64 args.legacy .ns1 true target with
    | .error e, _ => some (.error e)
    | _, .error e => some (.error e)
    | .ok alice, .ok bob => some (.ok (some (alice.map (·.1.val), bob.map (·.1.val), args.skipDuration)))
  | _, _, _, _ => some (.ok none)

/-- fpplot.py:171-174: `duration` in seconds. -/
def plotSlice (rnd rndA : ℚ → ℚ) (duration : Option ℚ) (T : List (List ℚ)) : Except PyErr (List (List ℚ)) :=
  match duration with
  | none => .ok T
  | some d => T.mapM fun ts => sliceTimestampsR rndA ts (some 0) (some (rnd (d * 10 ^ 9)))

/-- fpplot.py:127-174: the arguments `alice`, `bob` of `plotter`. -/
def plotInput (rnd rndA : ℚ → ℚ) (fuel : Nat) (args : PlotArgs) : Option (Except PyErr (Option (List (List ℚ)))) :=
  match plotLoad fuel args with
  | none => none
  | some (.error e) => some (.error e)
  | some (.ok none) => some (.ok none)
  | some (.ok (some (alice, bob, skip))) =>
    some (((normalizeTimestampsR rnd rndA [alice, bob] skip true).bind (plotSlice rnd rndA args.duration)).map some)

/-- fpplot.py:31: the corrected time of a target event.  `1 + freq*1e-6` is a scalar, the other operations are on arrays. -/
def plotCorrect (rnd rndA : ℚ → ℚ) (freq time t : ℚ) : ℚ :=
  rndA (rndA (t - time) / rnd (1 + rnd (freq * rnd (1 / 10 ^ 6))))

/-- fpplot.py:31-32: the arrays given to `histogram`. -/
def plotArrays (rnd rndA : ℚ → ℚ) (fuel : Nat) (args : PlotArgs) : Option (Except PyErr (Option (List ℚ × List ℚ))) :=
  (plotInput rnd rndA fuel args).map fun r => r.map fun o => o.bind fun T => match T with
    | [alice, bob] => some (alice, bob.map (plotCorrect rnd rndA args.freq args.time))
    | _ => none

end Fp
