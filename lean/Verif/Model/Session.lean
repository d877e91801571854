import Verif.Model.Python

/-!
# Working with a `Correlator` object from Python

`sacf.py` and the bindings again, with what an exception leaves behind: the caller may catch it and go on using the object.  Arguments are
Python objects.
-/

namespace Sacf

open Arith

variable {F : Type} [Arith F]

/-- Outcome of code that works on an object of type `σ`: the object is there after an exception, too. -/
inductive Out (σ α : Type) where
  | ok (a : α) (s : σ)
  | exn (e : Exc) (s : σ)
  | ub
  | diverge
deriving DecidableEq

namespace Out
variable {σ α β : Type}

/-- sequencing; an exception or undefined behaviour ends the run -/
def bind (x : Out σ α) (f : α → σ → Out σ β) : Out σ β :=
  match x with
  | ok a s => f a s
  | exn e s => exn e s
  | ub => ub
  | diverge => diverge

/-- a step that returns the changed object, or raises without having changed it -/
def step (s : σ) : Res σ → Out σ Unit
  | .ok s' => ok () s'
  | .exn e => exn e s
  | .ub => ub
  | .diverge => diverge

/-- forget the object an exception leaves behind -/
def res : Out σ Unit → Res σ
  | ok _ s => .ok s
  | exn e _ => .exn e
  | ub => .ub
  | diverge => .diverge
end Out

/-! ## Function names -/

/-- A Python object given as the name of a function.

* `str s`: a string;
* `obj r`: any other object that can be a key of a dictionary (`None`, numbers, tuples of such, functions); `r` stands for the object;
* `unhashable`: lists, dictionaries, sets, numpy arrays.

Objects with a comparison of their own that makes them equal to a string are not modelled; nor is the warning or error of comparing
a numpy array of strings. -/
inductive PyName where
  | str (s : String)
  | obj (r : String)
  | unhashable
deriving DecidableEq

/-- `name == s`, `sacf.py:125` -/
def PyName.is (name : PyName) (s : String) : Bool :=
  match name with
  | str s' => s' == s
  | _ => false

/-- `TABLE[name]`, `sacf.py:86,88`: a `KeyError` for a key that is not there, a `TypeError` for one that cannot be a key. -/
def PyName.lookup {α : Type} (table : String → Res α) : PyName → Res α
  | str s => table s
  | obj r => .exn (.keyError r)
  | unhashable => .exn .typeError

/-- Body of the loop of `find_correlation`, `sacf.py:85-90`, for any names.  What is done before `addCorrelationData` changes only the
new `CorrelationIterator`, and `addCorrelationData` raises nothing. -/
def nameStep (a : AbsFn) (sel wt : PyName) (c : Corr F) (k : F) (i : Nat) : Res (Corr F) :=
  (sel.lookup (selectionFunction a)).bind fun f =>
  (f c (CorrIt.new k c.ds.N)).bind fun it =>
  (Corr.deltaT a c it).bind fun it =>
  (wt.lookup weightFunction).bind fun w =>
  (Corr.findCorrelation c (w c it)).bind fun it =>
  Corr.addCorrelationData c it i

/-! ## The two drivers -/

/-- The lag loop (`Correlator.cpp:259-272` and `sacf.py:70-90`) with the body `f`, on the correlator; returns the counter. -/
def lagLoop (f : Corr F → F → Nat → Res (Corr F)) (maxLag lagRes : F) :
    Nat → Corr F → F → Bool → Nat → Out (Corr F) Nat
  | 0, _, _, _, _ => .diverge
  | fuel + 1, c, k, isPos, i =>
    if le k maxLag then
      let isPos := if eq k zero then true else isPos
      if lt zero k && !isPos then
        (Out.step c (f c zero i)).bind fun _ c =>
        (Out.step c (f c k (i + 1))).bind fun _ c =>
        lagLoop f maxLag lagRes fuel c (add k lagRes) true (i + 2)
      else
        (Out.step c (f c k i)).bind fun _ c =>
        lagLoop f maxLag lagRes fuel c (add k lagRes) isPos (i + 1)
    else .ok i c

/-- `calculateStandardCorrelation()`, `Correlator.cpp:254-274`; `max_lag` and `lag_resolution` do not change in the loop. -/
def calculateOn (a : AbsFn) (c : Corr F) : Out (Corr F) Unit :=
  (lagLoop (Corr.standardStep a) c.maxLag c.lagRes (c.tsBuf.length + 1) c c.minLag false 0).bind fun i c =>
  Out.step c (c.cleanCorrelationData i)

/-- `SACF.find_correlation(corr, sel, wt)`, `sacf.py:57-92`. -/
def findOn (a : AbsFn) (sel wt : PyName) (c : Corr F) : Out (Corr F) Unit :=
  (lagLoop (nameStep a sel wt) c.maxLag c.lagRes (c.tsBuf.length + 1) c c.minLag false 0).bind fun i c =>
  if i = 0 then .exn .unboundLocal c else Out.step c (c.cleanCorrelationData i)

/-! ## Integer arguments -/

/-- pybind11's caster for `int` (`cast.h:976-1021`); `none` is an object that is no integer (also any `float`).  A value outside `int` is a
`TypeError`, too. -/
def loadInt (x : Option Int) : Res Int :=
  match x with
  | none => .exn .typeError
  | some n => if -2147483648 ≤ n ∧ n ≤ 2147483647 then .ok n else .exn .typeError

/-- `addCorrelationData(it, step)`, `Correlator.cpp:235-240`: a negative step is an index outside the vector. -/
def addOn (it : CorrIt F) (step : Option Int) (c : Corr F) : Res (Corr F) :=
  (loadInt step).bind fun n => if n < 0 then .ub else c.addCorrelationData it n.toNat

/-- `cleanCorrelationData(i)`, `Correlator.cpp:242-252`: `resize` with a negative argument throws `std::length_error` before anything has
changed. -/
def cleanOn (i : Option Int) (c : Corr F) : Res (Corr F) :=
  (loadInt i).bind fun n => if n < 0 then .exn .lengthError else c.cleanCorrelationData n.toNat

/-- `corr.attr = x`, `correlator_bindings.cpp:41-44`: `None` is no number. -/
def assignOn (set : Corr F → F → Corr F) (x : PyVal F) (c : Corr F) : Res (Corr F) :=
  match x.asNum true with
  | some v => .ok (set c v)
  | Option.none => .exn .typeError

/-! ## Accessors -/

/-- `corr.values()`, `Correlator.cpp:64`. -/
def Corr.values (c : Corr F) : Res (List (List F)) := c.ds.data2d
/-- `corr.normalised_timeseries()`, `Correlator.cpp:63`. -/
def Corr.normalisedTimeseries (c : Corr F) : List F := c.ds.normT
/-- `corr.M_datapoints`, `Correlator.cpp:227-229`: a `double`. -/
def Corr.mDatapoints (c : Corr F) : F := ofInt c.ds.M
/-- `corr.N_datasets`, `Correlator.cpp:231-233`: a `double`. -/
def Corr.nDatasets (c : Corr F) : F := ofInt c.ds.N
/-- `corr.max_lag`, `Correlator.cpp:202-204`. -/
def Corr.getMaxLag (c : Corr F) : F := c.maxLag
/-- `corr.min_lag`, `Correlator.cpp:209-211`. -/
def Corr.getMinLag (c : Corr F) : F := c.minLag
/-- `corr.lag_resolution`, `Correlator.cpp:216-218`. -/
def Corr.getLagResolution (c : Corr F) : F := c.lagRes
/-- `corr.alpha`, `Correlator.cpp:223-225`. -/
def Corr.getAlpha (c : Corr F) : F := c.alpha

/-! ## Sessions -/

/-- the calls that change a `Correlator`, with arbitrary arguments (`correlator_bindings.cpp:23-44`, `sacf.py:57-92`) -/
inductive SCall (F : Type) where
  | setMaxLag (x : PyVal F)
  | setMinLag (x : PyVal F)
  | setLagResolution (x : PyVal F)
  | setAlpha (x : PyVal F)
  | calculate
  | find (sel wt : PyName)
  | add (it : CorrIt F) (step : Option Int)
  | clean (i : Option Int)
  | clear

/-- one call -/
def SCall.run (a : AbsFn) (c : Corr F) : SCall F → Out (Corr F) Unit
  | setMaxLag x => Out.step c (assignOn Corr.setMaxLag x c)
  | setMinLag x => Out.step c (assignOn Corr.setMinLag x c)
  | setLagResolution x => Out.step c (assignOn Corr.setLagResolution x c)
  | setAlpha x => Out.step c (assignOn Corr.setAlpha x c)
  | calculate => calculateOn a c
  | find sel wt => findOn a sel wt c
  | add it step => Out.step c (addOn it step c)
  | clean i => Out.step c (cleanOn i c)
  | clear => .ok () c.clearCorrelation

/-- a sequence of calls whose exceptions the caller catches; the exceptions are recorded, in order -/
def runSession (a : AbsFn) : Corr F → List (SCall F) → Res (Corr F × List (Option Exc))
  | c, [] => .ok (c, [])
  | c, x :: xs =>
    match x.run a c with
    | .ok _ c => (runSession a c xs).bind fun p => .ok (p.1, Option.none :: p.2)
    | .exn e c => (runSession a c xs).bind fun p => .ok (p.1, some e :: p.2)
    | .ub => .ub
    | .diverge => .diverge

/-- `SACF.autocorrelation`, `sacf.py:94-146`, for arbitrary arguments. -/
def anyAutocorrelation (a : AbsFn) (ds : DS F) (minLag maxLag lagRes alpha : PyVal F) (sel wt : PyName)
    (returnCorrelator : PyVal F := .none) : Res (PyResult F) :=
  (Corr.new ds).bind fun c0 =>
  (pySetUpCorrelation c0 minLag maxLag lagRes alpha).bind fun c =>
  (if sel.is "natural" && wt.is "fractional" then calculateOn a c else findOn a sel wt c).res.bind fun c =>
  c.correlations.bind fun rows =>
  (corrOut rows).bind fun out =>
  .ok (if returnCorrelator.truthy then .triple c.lagTimeseries out c else .pair c.lagTimeseries out)

end Sacf
