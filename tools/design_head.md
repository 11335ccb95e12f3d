# Formal model of franciumxzf/fpfind in Lean 4

## Layout

* `lean/Verif/Model/*.lean`: the model, function by function. Every definition cites the file and lines it models and says
  where it simplifies.
* `lean/Verif/Spec/*.lean`: small independent specifications the theorems are stated against.
* `lean/Verif/Lemmas/*.lean`: helper lemmas (not part of any claim).
* `lean/Verif/Props/*.lean`: the property theorems, with examples that meet their hypotheses beside them.
* `properties.jsonl`: the English properties. `MANIFEST.json`: which theorems prove which property.
* `seeded/LOG.jsonl`: bugs put into a copy of the model, and the theorems they break.
  `breaks` names the claims that the bug makes false. Where this label was changed after the run, `breaks_first` and `survived_first`
  keep the label made before and the claims of it that still proved, and `note` says why it was changed. The changed labels were
  found by comparing the log with the raw output of the runs, which is kept for most of the entries but not for about 130 early ones;
  those may hold changed labels that are not marked. An empty `survived` is therefore weaker evidence than it seems.
* `tools/`: scripts that write `properties.jsonl`, `MANIFEST.json` and this file, and that run the seeded bugs.

A claim is `partial` when the code does not have the property or when only part of it is proved. Theorems about the part
that holds end in `_partial`; theorems named `_violated` or `_negation` prove that the code breaks the property.

## Trusted base

* Lean 4.33.0's kernel. Theorems depend at most on `propext`, `Classical.choice`, `Quot.sound` (list at the end).
* The reading of the code into the model: nothing is extracted from or checked against a running program.
* The semantics of the runtime as written in the model files:
  - CPython: integers are `Int`/`Nat`; `int.from_bytes`, `struct.pack`/`unpack`, `hex`, `int(s, 16)` as in `Model/Py.lean`.
    Exceptions are values of `Except PyErr`; their messages are not modelled.
  - numpy 1.24 to 1.26 (pyproject asks for `^1.24.1`) on little-endian x86-64 Linux. `uint64` with `int64` gives `float64`,
    also for scalars. `np.array` of Python integers is `int64`, `uint64`, or `float64` when mixed. `fromfile` drops an
    incomplete trailing item, `frombuffer` refuses it. `reshape(-1, 2)` refuses odd sizes. `genfromtxt` gives a
    0-dimensional array for one line, skips empty lines and comments, and cuts words at the given width.
  - A comparison of a `uint64` element with a Python float rounds the element to `float64` first (`Num.cmp`).
  - Floats are rationals with an explicit rounding to 53 or 64 significant bits, ties to even, after each operation
    (`Model/Float.lean`). The exponent is unbounded; there is no NaN, infinity or signed zero.
  - `repr` of a float gives the fewest digits whose correctly rounded value is that float (`Model/FpText.lean`).
  - Fourier transforms are computed in exact complex arithmetic, square roots in exact real arithmetic; C115 bounds the effect of
    the errors of numerical transforms.
  - C: gcc without optimisation on x86-64 Linux. `int` has 32 bits, `long` and `long long` have 64; overflow wraps around;
    `abs(INT_MIN)` is `INT_MIN`; a double too large for an `int` becomes `INT_MIN`. `strtol` and `sscanf` as in glibc.
  - `read`, `write` and `select` return whatever the environment likes, within what POSIX allows.
* A `while True` loop is a step function with fuel. Results are stated as "for all large enough fuel"; "never returns" means
  that no amount of fuel suffices.

## Parts of the repository that are not modelled

* Progress bars, plotting itself (`histogram` of S15lib and matplotlib in `fpplot`), configuration files of `configargparse`, the package `boiler` used by `fpplot` (the command lines are modelled after `argparse` of Python 3.11, C132 and C138), the texts of messages, and the setup files (other than the stand-in script for freqcd and `_postinstall`, C112).
* Rounding errors in the numerical part of `utils.py` (C26 to C32) unless a theorem says otherwise (C63, C75, C76 and C89 do; `time_freq` itself is modelled with all roundings).
* Operating system errors when files are opened; file permissions.
* Divisions by zero in `fpfind`: a resolution of zero (`-R 0`, `ZeroDivisionError` in line 157), a separation of zero (`-s 0`, NaN in
  line 242; both end as `.outside` in `fpCli`) and a precompensation of -1 (infinite times in line 360). Likewise `--freq -1000000` in `fpplot`.

## What the proofs found out about the code

* `freqcd.c`: a read that completes no event adds the previous correction once more (C42, C43, C49). The first read may use
  an uninitialised variable (C40). The roll-over of the time is corrected wrongly (C50). Events out of order get
  corrections that differ by 2^30 units or more (C61). The value -2^31 passes all range checks, values beyond 32 bits wrap (C46).
  A read from the frequency channel that contains no line end is dropped (C45). An error on that channel loses events that
  have been read (C51). A file name of 200 characters or more writes beyond its buffer (C54). The option `-f` uses the integer a
  text begins with, so fpfind's output 3.3e-06 is taken as 3 units (C87). The first call after the installation runs in the
  directory of the library, so relative file names mean other files (C112). Corrections are rounded down in every read, so small
  reads lose positive corrections and exaggerate negative ones (C121). A second run does not continue the correction (C122).
* `parse_timestamps.py`: odd times from 2^53 on do not survive the a0 format (C05). a2 files with one event, or with events
  on both sides of 2^53, cannot be read (C06). Incomplete files stop `sread_a1` but not `read_a1` (C04). Text
  files cut inside a line give an event that is too early (C116). The report of a file
  with one event raises `OverflowError` (C13). Timing filters compare rounded times (C10, C11). Converting a
  file onto itself while streaming empties it without an error (C84). A conversion that fails loses up to 99999 intact events
  before the damage (C117). Two readable a2 files may give an unreadable one when joined (C118).
* `parse_epochs.py`: an event whose encoding is all zero ends reading (C14). A crash inside the last event gives a wrong
  event (C16). Truncated T2 and T4 files are never finished (C20). Integers in units of 4 ps raise `TypeError` (C21).
  `date2epoch` drops fractions of a second, so it does not invert `epoch2date`, and is one epoch early at some boundaries (C62).
  Its warnings do not reach the log file of fpfind, and reading T2 and T4 epochs configures the root logger (C130).
* `fpfind.py` and `utils.py`: a full scan of precompensations always raises (C35, C88). Two of the documented examples of
  `generate_precompensations` are wrong (C36), and the end of a scan may be missed by rounding (C131). The usage in the README is refused, and so are negative numbers with exponents (C132). The inverted time correction is wrong unless `dt = 0` or `df = 0` (C37).
  Frequency corrections accepted by `fpfind` may be refused by `freqcd` (C38). `freqcd` multiplies times by `1+f`, `fpfind`
  divides by `1+df`: the value meant for the target doubles its offset, the inverted value has to be used (C65). A float centre, as
  documented, raises `TypeError` (C31). `get_top_k_delays_fft` omits the height for one peak (C71). `significance_raw` and
  `histogram_fft` always raise `TypeError`, the latter after shifting the arrays of the caller (C72, C73). The extra epoch that is
  read does not guarantee the minimum duration (C74). `round` to significant figures goes through a double: large ints change
  their digits, 16 digits are rounded twice (C80). Skipped durations that are not whole nanoseconds make the result depend on the
  absolute time (C97). The relation between the times of both directions that the tests assert is wrong (C98). The
  frequency is computed from the highest bin of the late correlation even if that is noise (C113). With a separation
  below √2 the resolution gets coarser instead of finer, `-r` has no effect, and exact copies are not recognised (C136).
* `generate_freqcd_testcase.py`: `-x` has no effect (C56). A file given for reading is overwritten (C57).
* `g2_two_timestamps.py`: the last event of the first array is never dropped, whatever the delay (C66).
