import Verif.Model.Epoch
import Verif.Model.Decimal

/-!
# Model of the header readers of `src/fpfind/lib/parse_epochs.py` with the warnings they log

A reader is given the path it is called with and the contents of the file; the warnings are returned in order.
-/
namespace Fp

/-- `file_name.split('/')[-1]`. -/
def lastPart (path : List Char) : List Char := (path.reverse.takeWhile (· ≠ '/')).reverse

/-- The two checks of a header reader, e.g. parse_epochs.py:63-66.  `n` is the type whose tags are accepted, `shown` the type
named by the message. -/
def headWarnings (n shown : Nat) (path : List Char) (tag : Int) (epoch : Nat) : List (List Char) :=
  (if tag ≠ 0x100 + (n : Int) ∧ tag ≠ (n : Int) then [path ++ " is not a Type".toList ++ natDigits shown ++ " header file".toList]
    else []) ++
  (if '0' :: 'x' :: hexOf epoch ≠ '0' :: 'x' :: lastPart path then
      ["Epoch in header ".toList ++ natDigits epoch ++ " does not match epoc filename ".toList ++ path]
    else [])

/-- `read_T1_header`, parse_epochs.py:58-67, with its warnings.  The message of line 64 says "Type2". -/
def readT1HeaderW (path : List Char) (file : Bytes) : Except PyErr (HeadT1 × List (List Char)) := do
  let h ← readT1Header file
  return (h, headWarnings 1 2 path h.tag h.epoch)

/-- `read_T2_header`, parse_epochs.py:69-78, with its warnings. -/
def readT2HeaderW (path : List Char) (file : Bytes) : Except PyErr (HeadT2 × List (List Char)) := do
  let h ← readT2Header file
  return (h, headWarnings 2 2 path h.tag h.epoch)

/-- `read_T3_header`, parse_epochs.py:80-89, with its warnings. -/
def readT3HeaderW (path : List Char) (file : Bytes) : Except PyErr (HeadT3 × List (List Char)) := do
  let h ← readT3Header file
  return (h, headWarnings 3 3 path h.tag h.epoch)

/-- `read_T4_header`, parse_epochs.py:91-100, with its warnings. -/
def readT4HeaderW (path : List Char) (file : Bytes) : Except PyErr (HeadT4 × List (List Char)) := do
  let h ← readT4Header file
  return (h, headWarnings 4 4 path h.tag h.epoch)

end Fp
