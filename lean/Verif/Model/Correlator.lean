import Verif.Model.DataStructure

/-!
# `sacf/correlator/Correlator.cpp`

Function-by-function model of the `Correlator` and `CorrelationIterator` classes.

The members `N_datasets`, `M_datapoints` of `Correlator` are `double`s holding the integers of the
data structure (`Correlator.h:73-74`); the model uses the integers (exact below 2^53).
-/

namespace Sacf

open Arith

variable {F : Type} [Arith F]

/-- Which function the unqualified `abs(double)` of `Correlator.cpp:100,101,127,128,166` denotes.

* `fabs`: the floating-point overload (libc++ puts it into the global namespace);
* `intAbs`: `int abs(int)` applied to the argument converted to `int` (libstdc++ with the headers
  included by `Correlator.cpp`). -/
inductive AbsFn where
  | fabs
  | intAbs
deriving DecidableEq

/-- `abs(x)`.  For `int abs(int)` a value whose truncation is outside `int`, or is `INT_MIN`, is undefined
behaviour. -/
def AbsFn.app (a : AbsFn) (x : F) : Res F :=
  match a with
  | .fabs => .ok (Arith.fabs x)
  | .intAbs =>
    match toInt x with
    | none => .ub
    | some n => if -2147483648 < n ∧ n < 2147483648 then .ok (ofInt n.natAbs) else .ub

/-- A `std::vector<double>` together with what is left in its storage beyond `size()`. -/
structure Vec (F : Type) where
  elems : List F
  /-- contents of the allocated storage after the last element -/
  stale : List F
deriving DecidableEq

namespace Vec
/-- empty vector without storage -/
def empty : Vec F := ⟨[], []⟩
/-- `push_back`: overwrites the first stale slot if there is one; otherwise the vector reallocates
(new spare capacity has unspecified contents and is not recorded). -/
def push (v : Vec F) (x : F) : Vec F := ⟨v.elems ++ [x], v.stale.tail⟩
/-- `clear()`: size becomes 0, storage and its contents stay (`double` has no destructor). -/
def clear (v : Vec F) : Vec F := ⟨[], v.elems ++ v.stale⟩
/-- `v[i]`, unchecked: reads the storage, also beyond `size()`; undefined beyond the known storage. -/
def raw (v : Vec F) (i : Nat) : Res F := rawGet (v.elems ++ v.stale) i
end Vec

/-- `CorrelationIterator`, `sacf/include/Correlator.h:30-40`. -/
structure CorrIt (F : Type) where
  k : F
  correlation : List F
  shifted : Vec F
  selection : List Nat
  deltaT : List F
  weights : List F
deriving DecidableEq

/-- `CorrelationIterator(k, n)`, `Correlator.cpp:25-31`, for an integer-valued second argument. -/
def CorrIt.new (k : F) (n : Nat) : CorrIt F :=
  { k := k, correlation := List.replicate n zero, shifted := Vec.empty, selection := [],
    deltaT := [], weights := [] }

/-- The zeroing loop `for(int i = 0; i < vec_size; i++) correlation[i] = 0;` of
`Correlator.cpp:28-30` for an arbitrary `double` bound, on a vector of `n` elements.  The fuel
bounds the number of iterations; running out is `diverge`. -/
def zeroLoop (bound : F) (n : Nat) : Nat → Nat → Res Unit
  | 0, _ => .diverge
  | fuel + 1, i =>
    if lt (ofInt i) bound then (if i < n then zeroLoop bound n fuel (i + 1) else .ub) else .ok ()

/-- `CorrelationIterator(k, vec_size)` for any `double vec_size`, `Correlator.cpp:25-31`: the vector has
`(size_t) vec_size` elements (undefined for a negative truncation or a non-finite value). -/
def CorrIt.newF (k vecSize : F) : Res (CorrIt F) :=
  match toInt vecSize with
  | none => .ub
  | some n =>
    if n < 0 then .ub
    else (zeroLoop vecSize n.toNat (n.toNat + 1) 0).bind fun _ => .ok (CorrIt.new k n.toNat)

/-- `Correlator`, `sacf/include/Correlator.h:63-75`. -/
structure Corr (F : Type) where
  ds : DS F
  /-- `correlation_data._correlations` -/
  corrBuf : List F
  /-- `correlation_data._timeseries` -/
  tsBuf : List F
  /-- `N`: sum of squared deviations of each dataset -/
  norm : List F
  maxLag : F
  minLag : F
  lagRes : F
  alpha : F
  numLagSteps : Nat
deriving DecidableEq

/-- `findMinDiff`, `Correlator.cpp:10-23`: smallest difference of adjacent entries, starting at `DBL_MAX`. -/
def findMinDiff : List F → F
  | l => go dblMax l
where
  go (diff : F) : List F → F
    | x :: y :: rest =>
      let d := sub y x
      go (if lt d diff then d else diff) (y :: rest)
    | _ => diff

/-- The normaliser `N[j]`, `Correlator.cpp:40-47`: data are read into a `float`, NaNs are skipped, and squared
deviations from the mean are accumulated.  (The conversion of a `double` beyond the range of `float` is formally undefined; `toFloat`
gives the infinity, as IEEE hardware does.) -/
def normOf (ds : DS F) (j : Nat) : Res F :=
  Res.foldL
    (fun acc i =>
      (atGet ds.data (vecIdx ds.M i j)).bind fun x =>
      let X := toFloat x
      if isNaN X then .ok acc
      else (rawGet ds.dataMean j).bind fun m => .ok (addMul acc (sub X m) (sub X m)))
    zero (List.range ds.M)

/-- `(int) std::floor((max_lag - min_lag) / lag_resolution) + 3`, `Correlator.cpp:52`, used as the size of two
vectors (`Correlator.cpp:53-54`).  Undefined when the conversion to `int` or the addition is out of
range, or when the size is negative (`N_datasets` is a `double`, `Correlator.h:73`, so that a negative product is converted from `double` to `size_t`). -/
def lagSlots (maxLag minLag lagRes : F) : Res Nat :=
  match toInt (Arith.floor (div (sub maxLag minLag) lagRes)) with
  | none => .ub
  | some n =>
    if -2147483648 ≤ n ∧ n + 3 < 2147483648 then
      (if 0 ≤ n + 3 then .ok (n + 3).toNat else .ub)
    else .ub

/-- `Correlator(ds)`, `Correlator.cpp:33-55`. -/
def Corr.new (ds : DS F) : Res (Corr F) :=
  (Res.mapL (fun j => normOf ds j) (List.range ds.N)).bind fun norm =>
  (rawGet ds.normT (ds.normT.length - 1)).bind fun maxLag =>
  let minLag := neg maxLag
  let lagRes := findMinDiff ds.normT
  (lagSlots maxLag minLag lagRes).bind fun n =>
  .ok { ds := ds, corrBuf := List.replicate (ds.N * n) zero, tsBuf := List.replicate n zero,
        norm := norm, maxLag := maxLag, minLag := minLag, lagRes := lagRes, alpha := ds.tMedian,
        numLagSteps := n }

/-- `std::lower_bound` as in libstdc++ (`bits/stl_algobase.h`, `__lower_bound`): halving loop on
`[first, first+len)`.  Called in `Correlator.cpp:94,123`. -/
def lowerBoundGo (v : List F) (val : F) (first len : Nat) : Res Nat :=
  if _h : len = 0 then .ok first
  else
    (rawGet v (first + len / 2)).bind fun mid =>
    if lt mid val then lowerBoundGo v val (first + len / 2 + 1) (len - len / 2 - 1)
    else lowerBoundGo v val first (len / 2)
termination_by len
decreasing_by all_goals omega

/-- `distance(begin, lower_bound(begin, end, val))`. -/
def lowerBound (v : List F) (val : F) : Res Nat := lowerBoundGo v val 0 v.length

namespace Corr

/-- First loop of `naturalSelectionFunctionIdx`, `Correlator.cpp:84-89`: shifted times up to the first one that
lies beyond the last time. -/
def shiftNat (k last : F) : List F → Vec F → Vec F
  | [], out => out
  | t :: ts, out => if lt last (add t k) then out else shiftNat k last ts (out.push (add t k))

/-- Body of the second loop of `naturalSelectionFunctionIdx`, `Correlator.cpp:93-103`: index selected for one
shifted time `s`.  (`idx < 0` at line 97 cannot happen for an unsigned distance.  The operands of `<` at line 100 are evaluated from
left to right; C++ leaves the order open, which matters only if one of them raises and the other is undefined.) -/
def selectNat (a : AbsFn) (nt : List F) (s : F) : Res Nat :=
  (lowerBound nt s).bind fun idx =>
  if idx ≠ 0 then
    (atGet nt (idx - 1)).bind fun lo =>
    (a.app (sub s lo)).bind fun dlo =>
    (atGet nt idx).bind fun hi =>
    (a.app (sub s hi)).bind fun dhi =>
    .ok (if lt dlo dhi then idx - 1 else idx)
  else .ok idx

/-- `naturalSelectionFunctionIdx`, `Correlator.cpp:79-107`. -/
def naturalSelection (a : AbsFn) (c : Corr F) (it : CorrIt F) : Res (CorrIt F) :=
  (rawGet c.ds.normT (c.ds.normT.length - 1)).bind fun last =>
  let shifted := shiftNat it.k last c.ds.normT it.shifted
  (Res.mapL (fun i => (shifted.raw i).bind fun s => selectNat a c.ds.normT s)
    (List.range shifted.elems.length)).bind fun sel =>
  .ok { it with shifted := shifted.clear, selection := it.selection ++ sel }

/-- First loop of `fastSelectionFunctionIdx`, `Correlator.cpp:114-119`. -/
def shiftFast (k last : F) : List F → Vec F → Vec F
  | [], out => out
  | t :: ts, out => if le last (add t k) then out else shiftFast k last ts (out.push (add t k))

/-- `selection_indices.resize(n)`: keep the first `n` entries, pad with zeros. -/
def resizeZero (l : List Nat) (n : Nat) : List Nat := l.take n ++ List.replicate (n - l.length) 0

/-- `resize(n)` of a vector of doubles: new elements are `0.0`. -/
def resizeF (l : List F) (n : Nat) : List F := l.take n ++ List.replicate (n - l.length) zero

/-- `fastSelectionFunctionIdx`, `Correlator.cpp:109-135`.  An exception leaves the iterator with its shifted
times; the model drops the iterator then (simplification). -/
def fastSelection (a : AbsFn) (c : Corr F) (it : CorrIt F) : Res (CorrIt F) :=
  let nt := c.ds.normT
  (rawGet nt (nt.length - 1)).bind fun last =>
  let shifted := shiftFast it.k last nt it.shifted
  if shifted.elems.isEmpty then .ok { it with shifted := shifted.clear }
  else
    (shifted.raw 0).bind fun s =>
    (lowerBound nt s).bind fun idx0 =>
    let maxIdx := shifted.elems.length - 1
    (atGet nt (idx0 + 1)).bind fun hi =>
    (a.app (sub s hi)).bind fun dhi =>
    (atGet nt idx0).bind fun lo =>
    (a.app (sub s lo)).bind fun dlo =>
    let idx := if lt dhi dlo then idx0 + 1 else idx0
    let sel0 := resizeZero it.selection shifted.elems.length
    (Res.foldL (fun sel i => rawSet sel i (idx + i)) sel0
      (List.range (maxIdx + 1 - idx))).bind fun sel =>
    .ok { it with shifted := shifted.clear, selection := sel }

/-- `deltaT`, `Correlator.cpp:162-170`: `|t[selected] - shifted[i]|` for every selected index.  The shifted times
have been cleared by the selection function; `Vec.raw` reads the storage they left behind.  (Operands from left to right.) -/
def deltaT (a : AbsFn) (c : Corr F) (it : CorrIt F) : Res (CorrIt F) :=
  (Res.mapL
    (fun (p : Nat × Nat) =>
      (atGet c.ds.normT p.1).bind fun t =>
      (it.shifted.raw p.2).bind fun s => a.app (sub t s))
    it.selection.zipIdx).bind fun ds =>
  .ok { it with deltaT := it.deltaT ++ ds, shifted := it.shifted.clear }

/-- `fractionWeightFunction`, `Correlator.cpp:150-152`. -/
def fractionWeight (alpha d : F) : F := div one (add one (div d alpha))

/-- `fractionSquaredWeightFunction`, `Correlator.cpp:154-156`. -/
def fractionSquaredWeight (alpha d : F) : F := div one (addMul one (div d alpha) (div d alpha))

/-- `gaussianWeightFunction`, `Correlator.cpp:158-160`. -/
def gaussianWeight (alpha d : F) : F := exp (div (neg (mul d d)) (mul (mul two alpha) alpha))

/-- The common body of `getFractionWeights`, `getFractionSquaredWeights`, `getGaussianWeights`,
`Correlator.cpp:172-197`, for the weight function `w`. -/
def applyWeights (w : F → F → F) (c : Corr F) (it : CorrIt F) : CorrIt F :=
  { it with weights := it.weights ++ it.deltaT.map (w c.alpha), deltaT := [] }

/-- `getFractionWeights`, `Correlator.cpp:172-179`. -/
def getFractionWeights (c : Corr F) (it : CorrIt F) : CorrIt F := applyWeights fractionWeight c it
/-- `getFractionSquaredWeights`, `Correlator.cpp:181-188`. -/
def getFractionSquaredWeights (c : Corr F) (it : CorrIt F) : CorrIt F :=
  applyWeights fractionSquaredWeight c it
/-- `getGaussianWeights`, `Correlator.cpp:190-197`. -/
def getGaussianWeights (c : Corr F) (it : CorrIt F) : CorrIt F := applyWeights gaussianWeight c it

/-- Inner loop of `findCorrelation` for dataset `j`, `Correlator.cpp:139-144`:
`acc += weight * x_i * x_sel(i)`.  (Operands from left to right; the order matters only if `at` raises for the one and the unchecked read
of the selection is undefined for the other.) -/
def sumCorrelation (c : Corr F) (it : CorrIt F) (j : Nat) (acc : F) : Res F :=
  Res.foldL
    (fun acc (p : F × Nat) =>
      (atGet c.ds.normData (vecIdx c.ds.M p.2 j)).bind fun x =>
      (rawGet it.selection p.2).bind fun s =>
      (atGet c.ds.normData (vecIdx c.ds.M s j)).bind fun y =>
      .ok (addMul acc (mul p.1 x) y))
    acc it.weights.zipIdx

/-- `findCorrelation`, `Correlator.cpp:137-147`. -/
def findCorrelation (c : Corr F) (it : CorrIt F) : Res (CorrIt F) :=
  (Res.foldL
    (fun out j =>
      (rawGet out j).bind fun acc0 =>
      (sumCorrelation c it j acc0).bind fun acc =>
      (rawGet c.norm j).bind fun n =>
      rawSet out j (mul acc (div one n)))
    it.correlation (List.range c.ds.N)).bind fun out =>
  .ok { it with correlation := out }

/-- `addCorrelationData`, `Correlator.cpp:235-240`, for a non-negative step number. -/
def addCorrelationData (c : Corr F) (it : CorrIt F) (step : Nat) : Res (Corr F) :=
  (rawSet c.tsBuf step it.k).bind fun ts =>
  (Res.foldL
    (fun buf j =>
      (rawGet it.correlation j).bind fun x => rawSet buf (step + c.numLagSteps * j) x)
    c.corrBuf (List.range c.ds.N)).bind fun buf =>
  .ok { c with tsBuf := ts, corrBuf := buf }

/-- `cleanCorrelationData`, `Correlator.cpp:242-252`, for a non-negative argument. -/
def cleanCorrelationData (c : Corr F) (i : Nat) : Res (Corr F) :=
  (Res.foldL
    (fun out j =>
      (slice c.corrBuf (j * c.numLagSteps) (j * c.numLagSteps + i)).bind fun row =>
      writeAt out (j * i) row)
    (List.replicate (c.ds.N * i) zero) (List.range c.ds.N)).bind fun buf =>
  .ok { c with tsBuf := resizeF c.tsBuf i, corrBuf := buf, numLagSteps := i }

/-- `clearCorrelation`, `Correlator.h:90`: both buffers become empty, the number of lags stays. -/
def clearCorrelation (c : Corr F) : Corr F := { c with tsBuf := [], corrBuf := [] }

/-- `_calculateStandardCorrelation(k, i)`, `Correlator.cpp:276-287`. -/
def standardStep (a : AbsFn) (c : Corr F) (k : F) (i : Nat) : Res (Corr F) :=
  (naturalSelection a c (CorrIt.new k c.ds.N)).bind fun it =>
  (deltaT a c it).bind fun it =>
  (findCorrelation c (getFractionWeights c it)).bind fun it =>
  addCorrelationData c it i

/-- The `while` loop of `calculateStandardCorrelation`, `Correlator.cpp:259-272`, with a bound `fuel` on the
number of iterations.  Returns the correlator and the counter `i`. -/
def standardLoop (a : AbsFn) : Nat → Corr F → F → Bool → Nat → Res (Corr F × Nat)
  | 0, _, _, _, _ => .diverge
  | fuel + 1, c, k, isPos, i =>
    if le k c.maxLag then
      let isPos := if eq k zero then true else isPos
      if lt zero k && !isPos then
        (standardStep a c zero i).bind fun c =>
        (standardStep a c k (i + 1)).bind fun c =>
        standardLoop a fuel c (add k c.lagRes) true (i + 2)
      else
        (standardStep a c k i).bind fun c =>
        standardLoop a fuel c (add k c.lagRes) isPos (i + 1)
    else .ok (c, i)

/-- `calculateStandardCorrelation`, `Correlator.cpp:254-274`.  Every iteration writes slot `i` of the time
buffer, so more than `tsBuf.length` iterations are impossible without undefined behaviour; hence
the fuel (`C49_fuel_suffices_cpp` in `Props/Total.lean`). -/
def calculateStandardCorrelation (a : AbsFn) (c : Corr F) : Res (Corr F) :=
  (standardLoop a (c.tsBuf.length + 1) c c.minLag false 0).bind fun p =>
  cleanCorrelationData p.1 p.2

/-- `correlations()`, `Correlator.cpp:67-77`. -/
def correlations (c : Corr F) : Res (List (List F)) :=
  Res.mapL
    (fun j => Res.mapL (fun i => rawGet c.corrBuf (i + j * c.numLagSteps)) (List.range c.numLagSteps))
    (List.range c.ds.N)

/-- `lag_timeseries()`, `Correlator.cpp:65`. -/
def lagTimeseries (c : Corr F) : List F := c.tsBuf

/-- `setMaxLag`, `Correlator.cpp:199-201`. -/
def setMaxLag (c : Corr F) (x : F) : Corr F := { c with maxLag := x }
/-- `setMinLag`, `Correlator.cpp:206-208`. -/
def setMinLag (c : Corr F) (x : F) : Corr F := { c with minLag := x }
/-- `setLagResolution`, `Correlator.cpp:213-215`. -/
def setLagResolution (c : Corr F) (x : F) : Corr F := { c with lagRes := x }
/-- `setAlpha`, `Correlator.cpp:220-222`. -/
def setAlpha (c : Corr F) (x : F) : Corr F := { c with alpha := x }

end Corr

end Sacf
