import Verif.Model.Correlator
import Verif.Model.File

/-!
# `sacf/sacf.py`
-/

namespace Sacf

open Arith

variable {F : Type} [Arith F]

/-- Keyword arguments of `set_up_correlation` / `autocorrelation`, `sacf.py:44-46, 94-103`; `none` is `None`. -/
structure LagArgs (F : Type) where
  minLag : Option F := none
  maxLag : Option F := none
  lagRes : Option F := none
  alpha : Option F := none
deriving DecidableEq

/-- `set_up_correlation`, `sacf.py:43-55`. -/
def setUpCorrelation (c : Corr F) (g : LagArgs F) : Corr F :=
  let c := match g.maxLag with | some x => c.setMaxLag x | none => c
  let c := match g.minLag with | some x => c.setMinLag x | none => c
  let c := match g.lagRes with | some x => c.setLagResolution x | none => c
  match g.alpha with | some x => c.setAlpha x | none => c

/-- `SELECTION_FUNCTIONS[name]`, `sacf.py:4-7`. -/
def selectionFunction (a : AbsFn) (name : String) : Res (Corr F → CorrIt F → Res (CorrIt F)) :=
  if name = "fast" then .ok (Corr.fastSelection a)
  else if name = "natural" then .ok (Corr.naturalSelection a)
  else .exn (.keyError name)

/-- `WEIGHT_FUNCTIONS[name]`, `sacf.py:9-13`. -/
def weightFunction (name : String) : Res (Corr F → CorrIt F → CorrIt F) :=
  if name = "gaussian" then .ok Corr.getGaussianWeights
  else if name = "fractional" then .ok Corr.getFractionWeights
  else if name = "fractional_squared" then .ok Corr.getFractionSquaredWeights
  else .exn (.keyError name)

/-- Body of the `for i, k in enumerate(...)` loop, `sacf.py:85-90`. -/
def pyStep (a : AbsFn) (sel wt : String) (c : Corr F) (k : F) (i : Nat) : Res (Corr F) :=
  (selectionFunction a sel).bind fun f =>
  (f c (CorrIt.new k c.ds.N)).bind fun it =>
  (Corr.deltaT a c it).bind fun it =>
  (weightFunction wt).bind fun w =>
  (Corr.findCorrelation c (w c it)).bind fun it =>
  Corr.addCorrelationData c it i

/-- The loop over `lag_generator(min_lag, max_lag, lag_resolution)`, `sacf.py:70-90`: generator and consumer
interleaved; `fuel` bounds the number of `while` iterations of the generator.  `i` is the index of
the next yielded lag.  The bounds of the generator are those read before the loop (`sacf.py:83`). -/
def pyLoop (a : AbsFn) (sel wt : String) (maxLag lagRes : F) :
    Nat → Corr F → F → Bool → Nat → Res (Corr F × Nat)
  | 0, _, _, _, _ => .diverge
  | fuel + 1, c, k, isPos, i =>
    if le k maxLag then
      let isPos := if eq k zero then true else isPos
      if lt zero k && !isPos then
        (pyStep a sel wt c zero i).bind fun c =>
        (pyStep a sel wt c k (i + 1)).bind fun c =>
        pyLoop a sel wt maxLag lagRes fuel c (add k lagRes) true (i + 2)
      else
        (pyStep a sel wt c k i).bind fun c =>
        pyLoop a sel wt maxLag lagRes fuel c (add k lagRes) isPos (i + 1)
    else .ok (c, i)

/-- `find_correlation`, `sacf.py:57-92`.  `corr.cleanCorrelationData(i + 1)` uses the loop variable after
the loop: if the loop body never ran, `i` is unbound. -/
def pyFindCorrelation (a : AbsFn) (c : Corr F) (sel : String := "natural")
    (wt : String := "fractional") : Res (Corr F) :=
  (pyLoop a sel wt c.maxLag c.lagRes (c.tsBuf.length + 1) c c.minLag false 0).bind fun p =>
  if p.2 = 0 then .exn .unboundLocal else Corr.cleanCorrelationData p.1 p.2

/-- Second component of the result: a flat list for one dataset, a list of lists otherwise,
`sacf.py:135-137, 143-145`. -/
inductive CorrOut (F : Type) where
  | flat (row : List F)
  | table (rows : List (List F))
deriving DecidableEq

/-- `corr.correlations() if len(corr.correlations()) > 1.0 else corr.correlations()[0]`; an empty list would
raise `IndexError`. -/
def corrOut (rows : List (List F)) : Res (CorrOut F) :=
  if rows.length > 1 then .ok (.table rows)
  else match rows with
    | row :: _ => .ok (.flat row)
    | [] => .exn .indexError

/-- What `autocorrelation(return_correlator=True)` returns, `sacf.py:132-146`. -/
structure AcResult (F : Type) where
  lags : List F
  corrs : CorrOut F
  corr : Corr F
deriving DecidableEq

/-- `SACF.autocorrelation`, `sacf.py:94-146`, on the object's `DataStructure`. -/
def autocorrelation (a : AbsFn) (ds : DS F) (g : LagArgs F := {}) (sel : String := "natural")
    (wt : String := "fractional") : Res (AcResult F) :=
  (Corr.new ds).bind fun c0 =>
  let c := setUpCorrelation c0 g
  (if sel = "natural" ∧ wt = "fractional" then Corr.calculateStandardCorrelation a c
   else pyFindCorrelation a c sel wt).bind fun c =>
  c.correlations.bind fun rows =>
  (corrOut rows).bind fun out =>
  .ok { lags := c.lagTimeseries, corrs := out, corr := c }

/-! ## Constructor arguments and overload resolution -/

/-- Python argument values, as far as pybind11's conversions tell them apart.

* `float x`: a `float` or an instance of a subclass such as `numpy.float64`;
* `int x`: any other object with a conversion to `float` that is not a sequence (`int`, `bool`, numpy scalars); `none` if the conversion
  raises (`OverflowError`);
* `list l`: a sequence that is not a string and has no conversion to `float`: lists, tuples, numpy arrays (a two-dimensional array is
  the sequence of its rows);
* `cell fl x`: a numpy array of shape `(1,)`, which is a sequence of one number and also converts to `float`; `fl` tells whether its element
  is a `numpy.float64`;
* `point x`: a numpy array of shape `()`, which passes for a sequence but has no length, and converts to `float`;
* `seq l`: an object with its own sequence protocol, such as a `pandas.Series`, that does not convert to `float`: `l` lists what `s[0]`, `s[1]`, …, `s[len(s) - 1]` give,
  `none` where the look-up raises (taken to be the same at every look-up);
* `other`: anything else. -/
inductive PyVal (F : Type) where
  | none
  | float (x : F)
  | int (x : Option F)
  | str (s : String)
  | bytes (s : String)
  | list (l : List (PyVal F))
  | cell (fl : Bool) (x : F)
  | point (x : F)
  | seq (l : List (Option (PyVal F)))
  | other

/-- pybind11's caster for `double` (`sacf/include/pybind11/include/pybind11/cast.h:976-1021`): a `float`, or with `convert` anything that
converts to one. -/
def PyVal.asNum (convert : Bool) : PyVal F → Option F
  | .float x => some x
  | .int x => if convert then x else Option.none
  | .cell _ x => if convert then some x else Option.none
  | .point x => if convert then some x else Option.none
  | _ => Option.none

/-- The items of a sequence that is not a string, as `PySequence_GetItem` finds them at the positions below its length (`stl.h:147`, `pytypes.h:549-553`;
`isinstance<str>` accepts `bytes` too, `pytypes.h:739,884`). -/
def PyVal.items : PyVal F → Option (List (Option (PyVal F)))
  | .list l => some (l.map some)
  | .cell fl x => some [some (if fl then .float x else .int (some x))]
  | .seq l => some l
  | _ => Option.none

/-- pybind11's caster for `std::vector<double>*` (`stl.h:146-159`): a sequence that is not a string, all of whose items load as `double`. -/
def PyVal.asVec (convert : Bool) (x : PyVal F) : Option (List F) :=
  x.items.bind fun l => l.mapM fun o => o.bind (PyVal.asNum convert)

/-- pybind11's caster for `std::vector<std::vector<double>>*`. -/
def PyVal.asTable (convert : Bool) (x : PyVal F) : Option (List (List F)) :=
  x.items.bind fun l => l.mapM fun o => o.bind (PyVal.asVec convert)

/-- Loading numbers one after the other (`stl.h:152-157`): an item that cannot be looked up is met before one that does not load. -/
def itemsRaise (convert : Bool) : List (Option (PyVal F)) → Option Exc
  | [] => Option.none
  | Option.none :: _ => some .itemError
  | some y :: ys => if (y.asNum convert).isSome then itemsRaise convert ys else Option.none

/-- What loading a `std::vector<double>` raises.  For a zero-dimensional array: `value.reserve(s.size())` (`stl.h:163`) where `PySequence_Size`
(`pytypes.h:1229`) is `-1`; as a `size_t` that exceeds `max_size`, and `std::length_error` leaves the caster. -/
def PyVal.vecRaises (convert : Bool) (x : PyVal F) : Option Exc :=
  match x with
  | .point _ => some .lengthError
  | _ => x.items.bind (itemsRaise convert)

/-- The same for rows. -/
def rowsRaise (convert : Bool) : List (Option (PyVal F)) → Option Exc
  | [] => Option.none
  | Option.none :: _ => some .itemError
  | some y :: ys =>
    match y.vecRaises convert with
    | some e => some e
    | Option.none => if (y.asVec convert).isSome then rowsRaise convert ys else Option.none

/-- What loading a `std::vector<std::vector<double>>` raises. -/
def PyVal.tableRaises (convert : Bool) (x : PyVal F) : Option Exc :=
  match x with
  | .point _ => some .lengthError
  | _ => x.items.bind (rowsRaise convert)

/-- One pass over the overloads of `DataStructure(t, v)` in registration order, `datastructure_bindings.cpp:10,12`; `none` if no overload
takes the arguments.  All arguments of an overload are loaded before it is looked whether all of them did (`cast.h:1921-1927`), and an exception
of a caster ends the call (`pybind11.h:616-686`). -/
def pass2 (convert : Bool) (t v : PyVal F) : Option (Res (DS F)) :=
  match t.vecRaises convert, v.vecRaises convert with
  | some e, _ => some (.exn e)
  | Option.none, some e => some (.exn e)
  | Option.none, Option.none =>
    match t.asVec convert, v.asVec convert with
    | some t, some v => some (mkFlat t v)
    | _, _ =>
      match v.tableRaises convert with
      | some e => some (.exn e)
      | Option.none =>
        match t.asVec convert, v.asTable convert with
        | some t, some v => some (mkTable t v)
        | _, _ => Option.none

/-- The same for `DataStructure(t, v, e)`, `datastructure_bindings.cpp:11,13`. -/
def pass3 (convert : Bool) (t v e : PyVal F) : Option (Res (DS F)) :=
  match t.vecRaises convert, v.vecRaises convert, e.vecRaises convert with
  | some x, _, _ => some (.exn x)
  | Option.none, some x, _ => some (.exn x)
  | Option.none, Option.none, some x => some (.exn x)
  | Option.none, Option.none, Option.none =>
    match t.asVec convert, v.asVec convert, e.asVec convert with
    | some t, some v, some e => some (mkFlatErr t v e)
    | _, _, _ =>
      match v.tableRaises convert, e.tableRaises convert with
      | some x, _ => some (.exn x)
      | Option.none, some x => some (.exn x)
      | Option.none, Option.none =>
        match t.asVec convert, v.asTable convert, e.asTable convert with
        | some t, some v, some e => some (mkTableErr t v e)
        | _, _, _ => Option.none

/-- pybind11's dispatcher (`pybind11.h:449-650`): a pass without implicit conversions, then one with; no match is a `TypeError`. -/
def dispatch {α : Type} (pass : Bool → Option (Res α)) : Res α :=
  match pass false with
  | some r => r
  | Option.none =>
    match pass true with
    | some r => r
    | Option.none => .exn .typeError

/-- `DataStructure(t, v)`. -/
def pyDS2 (t v : PyVal F) : Res (DS F) := dispatch fun c => pass2 c t v

/-- `DataStructure(t, v, e)`. -/
def pyDS3 (t v e : PyVal F) : Res (DS F) := dispatch fun c => pass3 c t v e

/-- `DataStructure(x)` with one argument: only the string overload, `datastructure_bindings.cpp:9`; `bytes` are taken as they are
(`cast.h:1241-1253`).  `fs` gives the contents of a file, `none` if it cannot be opened. -/
def pyDS1 (fs : String → Option (List Char)) (x : PyVal F) : Res (DS F) :=
  match x with
  | .str s => mkFile (fs s)
  | .bytes s => mkFile (fs s)
  | _ => .exn .typeError

/-- Python truth value (`if filename:`, `sacf.py:35`).  (A numpy array of more than one element has none and raises, nor does a `pandas.Series`;
simplified to the truth value of a list.) -/
def PyVal.truthy : PyVal F → Bool
  | .none => false
  | .float x => !eq x zero
  | .int (some x) => !eq x zero
  | .int Option.none => true
  | .str s => s != ""
  | .bytes s => s != ""
  | .list l => !l.isEmpty
  | .cell _ x => !eq x zero
  | .point x => !eq x zero
  | .seq l => !l.isEmpty
  | .other => true

/-- `x is None` -/
def PyVal.isNone : PyVal F → Bool
  | .none => true
  | _ => false

/-- `SACF.__init__`, `sacf.py:33-41`. -/
def pyInit (fs : String → Option (List Char)) (timeseries values errors filename : PyVal F) :
    Res (DS F) :=
  if filename.truthy then pyDS1 fs filename
  else if errors.isNone then pyDS2 timeseries values
  else pyDS3 timeseries values errors

/-! ## Arguments of `autocorrelation` -/

/-- `if x is not None: corr.attr = x`, `sacf.py:48-55`: the setter takes a `double`; it has no overloads, so implicit conversions are
tried at once (`pybind11.h:456`), and anything that is not a number is a `TypeError`. -/
def setArg (set : Corr F → F → Corr F) (x : PyVal F) (c : Corr F) : Res (Corr F) :=
  if x.isNone then .ok c
  else match x.asNum true with
    | some a => .ok (set c a)
    | Option.none => .exn .typeError

/-- `set_up_correlation`, `sacf.py:43-55`, for arbitrary arguments. -/
def pySetUpCorrelation (c : Corr F) (minLag maxLag lagRes alpha : PyVal F) : Res (Corr F) :=
  (setArg Corr.setMaxLag maxLag c).bind fun c =>
  (setArg Corr.setMinLag minLag c).bind fun c =>
  (setArg Corr.setLagResolution lagRes c).bind fun c =>
  setArg Corr.setAlpha alpha c

/-- What `autocorrelation` returns: a pair, or with `return_correlator` a triple, `sacf.py:131-146`. -/
inductive PyResult (F : Type) where
  | pair (lags : List F) (corrs : CorrOut F)
  | triple (lags : List F) (corrs : CorrOut F) (corr : Corr F)

/-- `SACF.autocorrelation`, `sacf.py:94-146`, for arbitrary arguments, except that the names of the functions are strings. -/
def pyAutocorrelation (a : AbsFn) (ds : DS F) (minLag maxLag lagRes alpha : PyVal F := .none)
    (sel : String := "natural") (wt : String := "fractional") (returnCorrelator : PyVal F := .none) : Res (PyResult F) :=
  (Corr.new ds).bind fun c0 =>
  (pySetUpCorrelation c0 minLag maxLag lagRes alpha).bind fun c =>
  (if sel = "natural" ∧ wt = "fractional" then Corr.calculateStandardCorrelation a c
   else pyFindCorrelation a c sel wt).bind fun c =>
  c.correlations.bind fun rows =>
  (corrOut rows).bind fun out =>
  .ok (if returnCorrelator.truthy then .triple c.lagTimeseries out c else .pair c.lagTimeseries out)

end Sacf
