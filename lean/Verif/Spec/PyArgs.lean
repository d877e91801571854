import Verif.Model.Python

/-!
# What a Python argument denotes

Readings of an argument as a number, as a list of numbers, and as a table.
-/

namespace Sacf

variable {F : Type}

/-- an object that can be read as the number `a` -/
inductive IsNum : PyVal F → F → Prop
  | float (a : F) : IsNum (.float a) a
  | int (a : F) : IsNum (.int (some a)) a
  | cell (fl : Bool) (a : F) : IsNum (.cell fl a) a
  | point (a : F) : IsNum (.point a) a

/-- a sequence: what the look-ups `s[0]`, …, `s[len(s) - 1]` give, `none` where one raises -/
inductive HasItems : PyVal F → List (Option (PyVal F)) → Prop
  | list (l : List (PyVal F)) : HasItems (.list l) (l.map some)
  | cellFloat (a : F) : HasItems (.cell true a) [some (.float a)]
  | cellInt (a : F) : HasItems (.cell false a) [some (.int (some a))]
  | seq (l : List (Option (PyVal F))) : HasItems (.seq l) l

/-- a sequence of numbers -/
def FlatOf (x : PyVal F) (l : List F) : Prop := ∃ xs : List (PyVal F), HasItems x (xs.map some) ∧ List.Forall₂ IsNum xs l

/-- a sequence of sequences of numbers -/
def TableOf (x : PyVal F) (rows : List (List F)) : Prop := ∃ xs : List (PyVal F), HasItems x (xs.map some) ∧ List.Forall₂ FlatOf xs rows

/-- an argument with a length, or one that does not claim to be a sequence: not a zero-dimensional array -/
def Sized (x : PyVal F) : Prop := ∀ a, x ≠ .point a

/-- an argument none of whose look-ups raises -/
def Complete (x : PyVal F) : Prop := ∀ l, HasItems x l → none ∉ l

/-- an argument that can be read to its end -/
def Plain (x : PyVal F) : Prop := Sized x ∧ Complete x

/-- a sequence whose rows, read one after the other, are sequences of numbers up to one that cannot be read to its end -/
def BrokenRow (x : PyVal F) : Prop :=
  ∃ (ys : List (PyVal F)) (y : PyVal F) (zs : List (Option (PyVal F))),
    HasItems x (ys.map some ++ some y :: zs) ∧ (∀ y ∈ ys, ∃ l, FlatOf y l) ∧ ¬ Plain y

/-- an argument none of whose look-ups raises, nor those of its rows -/
def CompleteRows (x : PyVal F) : Prop := Complete x ∧ ∀ l, HasItems x l → ∀ y, some y ∈ l → Complete y

/-- a sequence whose rows, read one after the other, are sequences of numbers up to one that is a zero-dimensional array -/
def UnsizedRow (x : PyVal F) : Prop :=
  ∃ (ys : List (PyVal F)) (a : F) (zs : List (Option (PyVal F))), HasItems x (ys.map some ++ some (.point a) :: zs) ∧ ∀ y ∈ ys, ∃ l, FlatOf y l

/-- a sequence of numbers up to a look-up that raises -/
def BrokenItem (x : PyVal F) : Prop :=
  ∃ (ys : List (PyVal F)) (zs : List (Option (PyVal F))), HasItems x (ys.map some ++ none :: zs) ∧ ∀ y ∈ ys, Plain y ∧ ∃ a, IsNum y a

/-- a `float` (`numpy.float64`) or another number -/
def num (fl : Bool) (a : F) : PyVal F := if fl then .float a else .int (some a)

/-- a `pandas.Series` with the labels `labels` (distinct integers) and the values `vals`, row by row: `s[i]` is the value labelled `i`, and raises `KeyError` if there is none -/
def series (fl : Bool) (labels : List ℤ) (vals : List F) : PyVal F :=
  .seq ((List.range vals.length).map fun i : ℕ => ((labels.zip vals).lookup (i : ℤ)).map (num fl))

/-- a list of `float`s -/
def floatList (l : List F) : PyVal F := .list (l.map .float)
/-- a list of other numbers, such as `int`s -/
def intList (l : List F) : PyVal F := .list (l.map fun a => .int (some a))
/-- a list of lists of `float`s, or a two-dimensional array with more than one column -/
def floatTable (rows : List (List F)) : PyVal F := .list (rows.map floatList)
/-- a numpy array with one column -/
def columnArray (fl : Bool) (l : List F) : PyVal F := .list (l.map (.cell fl))

end Sacf
