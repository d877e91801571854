import Verif.Model.File
import Mathlib.Data.Nat.Digits.Defs

/-!
# What a data file means

A grammar of numerals and fields, independent of the character-level reader of `Model/File.lean`.
-/

namespace Sacf

open Arith

inductive Sign where
  | none | plus | minus
deriving DecidableEq

def Sign.chars : Sign → List Char
  | .none => []
  | .plus => ['+']
  | .minus => ['-']

def Sign.isMinus : Sign → Bool
  | .minus => true
  | _ => false

/-- a numeral: sign, digits, optional point with digits, optional exponent -/
structure Numeral where
  sign : Sign := .none
  ints : List Char
  /-- digits after the point; `none`: no point -/
  frac : Option (List Char) := none
  /-- exponent letter, sign, digits -/
  expo : Option (Char × Sign × List Char) := none

namespace Numeral

def fracDigits (n : Numeral) : List Char := n.frac.getD []

def pointChars (n : Numeral) : List Char :=
  match n.frac with
  | none => []
  | some f => '.' :: f

def expoChars (n : Numeral) : List Char :=
  match n.expo with
  | none => []
  | some (c, s, d) => c :: (s.chars ++ d)

def chars (n : Numeral) : List Char := n.sign.chars ++ (n.ints ++ (n.pointChars ++ n.expoChars))

def AllDigits (l : List Char) : Prop := ∀ c ∈ l, c.isDigit = true

structure Valid (n : Numeral) : Prop where
  ints : AllDigits n.ints
  frac : AllDigits n.fracDigits
  some_digit : n.ints ≠ [] ∨ n.fracDigits ≠ []
  expo : ∀ c s d, n.expo = some (c, s, d) → (c = 'e' ∨ c = 'E') ∧ d ≠ [] ∧ AllDigits d

/-- number denoted by a digit string -/
def natOf (l : List Char) : Nat := Nat.ofDigits 10 ((l.map fun c => c.toNat - '0'.toNat).reverse)

/-- all mantissa digits as a number -/
def mant (n : Numeral) : Nat := natOf (n.ints ++ n.fracDigits)

/-- power of ten by which `mant` is scaled -/
def exp10 (n : Numeral) : Int :=
  (match n.expo with
    | none => 0
    | some (_, s, d) => if s.isMinus then -(natOf d : Int) else natOf d) - (n.fracDigits.length : Int)

/-- the numeral cannot be continued by what follows it -/
def Ends (n : Numeral) (rest : List Char) : Prop :=
  ∀ c, rest.head? = some c → c.isDigit = false ∧
    (n.expo = none → c ≠ 'e' ∧ c ≠ 'E' ∧ (n.frac = none → c ≠ '.'))

/-- value as a `double`; `none` on overflow -/
def value {F : Type} [Arith F] (n : Numeral) : Option F := ofDec n.sign.isMinus n.mant n.exp10

end Numeral

/-- blanks and commas separate numbers -/
def isSep (c : Char) : Bool := isSpaceC c || c == ','

variable {F : Type} [Arith F]

/-- after optional separators, `s` starts with a numeral of value `x`, followed by `rest` -/
def Token (s : List Char) (x : F) (rest : List Char) : Prop :=
  ∃ (b : List Char) (n : Numeral), (∀ c ∈ b, isSep c = true) ∧ n.Valid ∧ s = b ++ (n.chars ++ rest) ∧ n.Ends rest ∧
    n.value = some x

/-- the numbers at the start of a line, up to the first thing that is not a number -/
inductive Tokens : List Char → List F → Prop
  | stop {s : List Char} : (∀ (x : F) r, ¬ Token s x r) → Tokens s []
  | cons {s r : List Char} {x : F} {l : List F} : Token s x r → Tokens r l → Tokens s (x :: l)

/-- a line that consists of the given numbers, with separators between them -/
inductive Fields : List Char → List F → Prop
  | nil {b : List Char} : (∀ c ∈ b, isSep c = true) → Fields b []
  | cons {b rest : List Char} {n : Numeral} {x : F} {l : List F} : (∀ c ∈ b, isSep c = true) → n.Valid →
      n.value = some x → (∀ c, rest.head? = some c → isSep c = true) → Fields rest l →
      Fields (b ++ (n.chars ++ rest)) (x :: l)

/-- `ls` are the lines of the text `s`; the last one may lack its newline -/
def IsLines (s : List Char) (ls : List (List Char)) : Prop :=
  (∀ l ∈ ls, '\n' ∉ l) ∧
  (s = (ls.map (· ++ ['\n'])).flatten ∨
    ∃ ini last, ls = ini ++ [last] ∧ last ≠ [] ∧ s = (ini.map (· ++ ['\n'])).flatten ++ last)

/-- a comment line -/
def IsComment (l : List Char) : Prop := l.head? = some '#'

instance (l : List Char) : Decidable (IsComment l) := by unfold IsComment; infer_instance

/-- data points of a line in a file without errors: time and value, then one number is skipped, and so on -/
def everyThird : List F → List (F × F)
  | t :: x :: _ :: rest => (t, x) :: everyThird rest
  | [t, x] => [(t, x)]
  | _ => []

/-- The object built from the numbers found in each line that is not a comment.  Lines with fewer than two numbers are
ignored.  If the first remaining line has at least three numbers, each line gives one data point and all its further
numbers are errors; otherwise there are no errors, and each line gives the points `everyThird`. -/
def fileMeaning (L : List (List F)) : Res (DS F) :=
  match L.filter (2 ≤ ·.length) with
  | [] => .exn .emptyDataStructure
  | first :: more =>
    if 3 ≤ first.length then
      mkFlatErr ((first :: more).map fun l => l.getD 0 zero) ((first :: more).map fun l => l.getD 1 zero)
        ((first :: more).map fun l => l.drop 2).flatten
    else
      mkFlat (((first :: more).map everyThird).flatten.map Prod.fst)
        (((first :: more).map everyThird).flatten.map Prod.snd)

end Sacf
