/-!
# Outcomes of C++ / Python code

`Res α` is the outcome of running a piece of the modelled code:

* `ok a`     – normal return,
* `exn e`    – a C++ exception that pybind11 turns into a Python exception, or a Python exception,
* `ub`       – undefined behaviour of the C++ program (an out-of-range unchecked access, an
               out-of-range floating-to-integer conversion, a negative vector size),
* `diverge`  – a loop of the *model* ran out of fuel.  The property files prove that no
               modelled entry point ever returns it.
-/

namespace Sacf

/-- The exceptions that can reach a caller.
`sacf/datastructure/datastructure_bindings.cpp:25-27` registers the first three;
pybind11 translates `std::out_of_range` to `IndexError` and an argument mismatch to `TypeError`;
`keyError` and `unboundLocal` are raised by `sacf/sacf.py:86,88` and `sacf/sacf.py:92`;
`lengthError` is `std::length_error` from `vector::resize` with a negative argument
(`sacf/correlator/Correlator.cpp:244`), or from pybind11's sequence caster (`sacf/include/pybind11/include/pybind11/stl.h:163`); pybind11
translates it to `ValueError` (`detail/internals.h:225`); `itemError` is whatever an argument's own `__getitem__` raises, which pybind11 passes on
(`pytypes.h:551`, `pybind11.h:663-665`). -/
inductive Exc where
  | emptyDataStructure
  | badDataFileRead
  | badDataInput
  | indexError
  | typeError
  | keyError (name : String)
  | unboundLocal
  | lengthError
  | itemError
deriving DecidableEq, Repr

/-- Outcome of a computation. -/
inductive Res (α : Type) where
  | ok (a : α)
  | exn (e : Exc)
  | ub
  | diverge
deriving DecidableEq, Repr

namespace Res

variable {α β γ σ : Type}

/-- Sequencing: exceptions and undefined behaviour abort the rest. -/
def bind (x : Res α) (f : α → Res β) : Res β :=
  match x with
  | ok a => f a
  | exn e => exn e
  | ub => ub
  | diverge => diverge

instance : Monad Res where
  pure := ok
  bind := bind

/-- `for x in l: s = f(s, x)` with early exit. -/
def foldL (f : σ → α → Res σ) : σ → List α → Res σ
  | s, [] => ok s
  | s, x :: xs => (f s x).bind fun s' => foldL f s' xs

/-- `[f(x) for x in l]` with early exit. -/
def mapL (f : α → Res β) : List α → Res (List β)
  | [] => ok []
  | x :: xs => (f x).bind fun y => (mapL f xs).bind fun ys => ok (y :: ys)

end Res

/-! ### `std::vector` accesses -/

variable {α : Type}

/-- `v[i]` (unchecked): undefined out of range. -/
def rawGet (v : List α) (i : Nat) : Res α :=
  match v[i]? with
  | some x => .ok x
  | none => .ub

/-- `v.at(i)` (checked): `std::out_of_range` (Python `IndexError`) out of range. -/
def atGet (v : List α) (i : Nat) : Res α :=
  match v[i]? with
  | some x => .ok x
  | none => .exn .indexError

/-- `v[i] = x` (unchecked): undefined out of range. -/
def rawSet (v : List α) (i : Nat) (x : α) : Res (List α) :=
  if i < v.length then .ok (v.set i x) else .ub

/-- The elements of the iterator range `[v.begin()+a, v.begin()+b)`; undefined when the end of
the range lies past `v.end()`. -/
def slice (v : List α) (a b : Nat) : Res (List α) :=
  if b ≤ v.length then .ok ((v.drop a).take (b - a)) else .ub

/-- Overwrite the elements from position `a` on by `w` (`std::copy` / `std::transform` output);
undefined when the output does not fit. -/
def writeAt (v : List α) (a : Nat) (w : List α) : Res (List α) :=
  if a + w.length ≤ v.length then .ok (v.take a ++ w ++ v.drop (a + w.length)) else .ub

end Sacf
