/-!
# Python, `struct` and numpy primitives used by the models

These definitions model the *runtime* (CPython, `struct`, numpy 1.24-1.26 on little-endian x86-64 Linux), not code of
the repository; they are part of the trusted base described in `DESIGN.md`.
-/
namespace Fp

/-- The exceptions the modelled Python functions can raise (messages are not modelled). -/
inductive PyErr
  | valueError
  | indexError
  | typeError
  | structError
  | overflowError
  | assertionError
  | zeroDivisionError
  | keyError
  | fileNotFound
  | eofError
  deriving DecidableEq, Repr

/-- A binary file or byte string. -/
abbrev Bytes := List UInt8

/-- `int.from_bytes(b, byteorder="little")`; also a little-endian machine word. -/
def leNat : Bytes → Nat
  | [] => 0
  | b :: bs => b.toNat + 256 * leNat bs

/-- The `k` bytes of `n` (taken modulo `256^k`) in little-endian order. -/
def leBytes : Nat → Nat → Bytes
  | 0, _ => []
  | k + 1, n => UInt8.ofNat (n % 256) :: leBytes k (n / 256)

/-- `struct.pack("=Q", n)`: `struct.error` if `n` does not fit into 64 bits. -/
def packQ (n : Nat) : Except PyErr Bytes :=
  if n < 2 ^ 64 then .ok (leBytes 8 n) else .error .structError

/-- A 32-bit word read with the signed `struct` code `i`. -/
def toSigned32 (n : Nat) : Int := if n < 2 ^ 31 then (n : Int) else (n : Int) - 2 ^ 32

/-- `np.fromfile(dtype="=I")`: complete 32-bit items; an incomplete trailing item is ignored. -/
def words32 : Bytes → List Nat
  | a :: b :: c :: d :: rest => leNat [a, b, c, d] :: words32 rest
  | _ => []

/-- `np.frombuffer(buffer, dtype="=I")`: `ValueError` unless the size is a multiple of the item size. -/
def frombuffer32 (b : Bytes) : Except PyErr (List Nat) :=
  if b.length % 4 = 0 then .ok (words32 b) else .error .valueError

/-- `a.reshape(-1, 2)`: rows of two; `ValueError` for an odd number of items. -/
def reshape2 {α : Type} : List α → Except PyErr (List (α × α))
  | [] => .ok []
  | [_] => .error .valueError
  | a :: b :: rest => do
      let r ← reshape2 rest
      return (a, b) :: r

/-! ## Text: hexadecimal numbers -/

/-- Lower-case hexadecimal digit. -/
def hexChar (d : Nat) : Char :=
  if d < 10 then Char.ofNat (48 + d) else Char.ofNat (87 + d)

/-- Hexadecimal digits of `n`, least significant first, at least one digit. -/
def hexRev (n : Nat) : List Char :=
  if n < 16 then [hexChar n] else hexChar (n % 16) :: hexRev (n / 16)
termination_by n
decreasing_by omega

/-- `f"{n:x}"`, equivalently `hex(n)[2:]`, for `n ≥ 0`. -/
def hexOf (n : Nat) : List Char := (hexRev n).reverse

/-- `f"{n:0wx}"`: zero-padded to at least `w` digits. -/
def hexPad (w n : Nat) : List Char :=
  List.replicate (w - (hexOf n).length) '0' ++ hexOf n

/-- Value of one hexadecimal digit (either case). -/
def hexVal (c : Char) : Option Nat :=
  if '0'.toNat ≤ c.toNat ∧ c.toNat ≤ '9'.toNat then some (c.toNat - 48)
  else if 'a'.toNat ≤ c.toNat ∧ c.toNat ≤ 'f'.toNat then some (c.toNat - 87)
  else if 'A'.toNat ≤ c.toNat ∧ c.toNat ≤ 'F'.toNat then some (c.toNat - 55)
  else none

/-- `s.strip(chars)`, for the characters that `sp` accepts. -/
def stripBy (sp : Char → Bool) (s : List Char) : List Char :=
  ((s.dropWhile sp).reverse.dropWhile sp).reverse

/-- ASCII white space as recognised by `str.strip()`: also the separators 28-31. -/
def isSpace (c : Char) : Bool :=
  c = ' ' ∨ c = '\t' ∨ c = '\n' ∨ c = '\r' ∨ c.toNat = 11 ∨ c.toNat = 12 ∨ (28 ≤ c.toNat ∧ c.toNat ≤ 31)

/-- `s.strip()` (ASCII white space). -/
def strip (s : List Char) : List Char := stripBy isSpace s

/-- White space as recognised by `int()` around the digits of an ASCII string. -/
def isIntSpace (c : Char) : Bool :=
  c = ' ' ∨ c = '\t' ∨ c = '\n' ∨ c = '\r' ∨ c.toNat = 11 ∨ c.toNat = 12

/-- Digits with single underscores between them; `us` tells that the previous character was not a digit. -/
def hexDigitsVal (acc : Nat) (us : Bool) : List Char → Option Nat
  | [] => if us then none else some acc
  | c :: cs =>
    if c = '_' then (if us then none else hexDigitsVal acc true cs)
    else match hexVal c with
      | some d => hexDigitsVal (acc * 16 + d) false cs
      | none => none

/-- Optional `0x` prefix (possibly followed by one underscore), then digits. -/
def hexBody : List Char → Option Nat
  | '0' :: x :: rest =>
    if x = 'x' ∨ x = 'X' then
      match rest with
      | '_' :: r => hexDigitsVal 0 true r
      | r => hexDigitsVal 0 true r
    else hexDigitsVal 0 true ('0' :: x :: rest)
  | s => hexDigitsVal 0 true s

/-- `int(s, 16)` for ASCII strings; `none` is `ValueError`. -/
def pyInt16 (s : List Char) : Option Int :=
  match stripBy isIntSpace s with
  | '-' :: r => (hexBody r).map fun n => -(n : Int)
  | '+' :: r => (hexBody r).map fun n => (n : Int)
  | r => (hexBody r).map fun n => (n : Int)

/-- `s.split("\n")` / the lines of a text file: always at least one piece. -/
def splitNl : List Char → List (List Char)
  | [] => [[]]
  | c :: cs =>
    if c = '\n' then [] :: splitNl cs
    else match splitNl cs with
      | [] => [[c]]
      | l :: ls => (c :: l) :: ls

end Fp
