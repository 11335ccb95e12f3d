import Verif.Model.FreqcdMain
import Verif.Spec.Freqcd

/-! Specification vocabulary for the options of `freqcd`. -/
namespace Fp.Spec

/-- An option: a letter without or with an argument. -/
inductive Item
  | flag (c : UInt8)
  | arg (c : UInt8) (v : Bytes)
  deriving DecidableEq

/-- Letters of options without argument: x, d, h. -/
def FlagLetter (c : UInt8) : Prop := c = 120 ∨ c = 100 ∨ c = 104

/-- Letters of options with an argument: i, o, F, f. -/
def ArgLetter (c : UInt8) : Prop := c = 105 ∨ c = 111 ∨ c = 70 ∨ c = 102

/-- `args` is a way to write the options `os` on the command line: any number of options without argument in one word, at
the end of the word possibly one with its argument in the same or in the next word; the options end with the arguments, at
a word that begins with two dashes, at a single dash, and at a word that does not begin with a dash. -/
inductive Written : List Item → List Bytes → Prop
  | nil : Written [] []
  | dashes (a : Bytes) (rest : List Bytes) : Written [] ((45 :: 45 :: a) :: rest)
  | dash (rest : List Bytes) : Written [] ([45] :: rest)
  | operand (a : Bytes) (rest : List Bytes) : a.head? ≠ some 45 → Written [] (a :: rest)
  | flags (fs : Bytes) (os : List Item) (rest : List Bytes) : fs ≠ [] → (∀ c ∈ fs, FlagLetter c) → Written os rest →
      Written (fs.map Item.flag ++ os) ((45 :: fs) :: rest)
  | attached (fs : Bytes) (c : UInt8) (v : Bytes) (os : List Item) (rest : List Bytes) : (∀ c ∈ fs, FlagLetter c) → ArgLetter c →
      v ≠ [] → Written os rest → Written (fs.map Item.flag ++ Item.arg c v :: os) ((45 :: fs ++ c :: v) :: rest)
  | separate (fs : Bytes) (c : UInt8) (v : Bytes) (os : List Item) (rest : List Bytes) : (∀ c ∈ fs, FlagLetter c) → ArgLetter c →
      Written os rest → Written (fs.map Item.flag ++ Item.arg c v :: os) ((45 :: fs ++ [c]) :: v :: rest)

/-- The last argument given with the option `c`. -/
def lastArg (c : UInt8) : List Item → Option Bytes
  | [] => none
  | Item.flag _ :: os => lastArg c os
  | Item.arg c' v :: os => (lastArg c os).or (if c' = c then some v else none)

/-- A string without white space that fits in a file name buffer. -/
def GoodName (v : Bytes) : Prop := v ≠ [] ∧ v.length < 200 ∧ ∀ c ∈ v, c ≠ 0 ∧ c ≠ 32 ∧ ¬ (9 ≤ c ∧ c ≤ 13)

/-- Options that can be processed: file names without white space and with 1 to 199 characters, and numbers that fit in an `int`. -/
def Sound (os : List Item) : Prop :=
  ∀ it ∈ os, match it with
    | .flag c => c = 120 ∨ c = 100
    | .arg c v => ((c = 105 ∨ c = 111 ∨ c = 70) ∧ GoodName v) ∨ (c = 102 ∧ ∃ n : Int, Numeral v n ∧ -2 ^ 31 ≤ n ∧ n < 2 ^ 31)

/-- The option `it` ends the program with the error `e`: -h with the usage, -f without a number at the beginning of its argument
with error 4, and -i, -o, -F with an argument that is blank with errors 2, 8, 10. -/
def Fails (it : Item) (e : Exit) : Prop :=
  match it with
  | .flag c => c = 104 ∧ e = .usage
  | .arg c v => (c = 102 ∧ (∀ p q n, v = p ++ q → ¬ Numeral p n) ∧ e = .error 4) ∨
      ((∀ x ∈ v, x = 32 ∨ (9 ≤ x ∧ x ≤ 13)) ∧ ((c = 105 ∧ e = .error 2) ∨ (c = 111 ∧ e = .error 8) ∨ (c = 70 ∧ e = .error 10)))

/-- Processing the arguments comes to an end with the result `r`: a configuration, or an error. -/
def Ends (argv : List Bytes) (r : Except Exit Config) : Prop := ∃ N, ∀ fuel ≥ N, mainOpts fuel argv = some r

end Fp.Spec
