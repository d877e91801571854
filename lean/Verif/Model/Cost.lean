import Verif.Model.Python

/-!
# Number of steps

The functions of `Model/Correlator.lean` with a counter.  One step is one pass through the body of a loop, or one element of a vector that is
allocated, filled or copied.  Outcomes are those of the functions without the counter (`Props/Cost.lean`).
-/

namespace Sacf

open Arith

variable {F : Type} [Arith F] {α β σ : Type}

/-- an outcome with a number of steps -/
abbrev Tick (α : Type) := Res (α × Nat)

namespace Tick

/-- one after the other; the steps add up -/
def bind (m : Tick α) (f : α → Tick β) : Tick β := Res.bind m fun p => Res.bind (f p.1) fun q => .ok (q.1, p.2 + q.2)

/-- an operation that takes `n` steps -/
def cost (n : Nat) (m : Res α) : Tick α := Res.bind m fun x => .ok (x, n)

/-- the outcome without the number of steps -/
def val (m : Tick α) : Res α := Res.bind m fun p => .ok p.1

/-- `for x in l: s = f(s, x)` -/
def foldL (f : σ → α → Tick σ) : σ → List α → Tick σ
  | s, [] => cost 0 (.ok s)
  | s, x :: xs => bind (cost 1 (.ok ())) fun _ => bind (f s x) fun s' => foldL f s' xs

/-- `for x in l: out.push_back(f(x))` -/
def mapL (f : α → Tick β) : List α → Tick (List β)
  | [] => cost 0 (.ok [])
  | x :: xs => bind (cost 1 (.ok ())) fun _ => bind (f x) fun y => bind (mapL f xs) fun ys => cost 0 (.ok (y :: ys))

end Tick

/-- `findMinDiff`, `Correlator.cpp:10-23`: a step for each pair of neighbours -/
def findMinDiffT : List F → Tick F
  | l => go dblMax l
where
  go (diff : F) : List F → Tick F
    | x :: y :: rest =>
      let d := sub y x
      Tick.bind (Tick.cost 1 (.ok ())) fun _ => go (if lt d diff then d else diff) (y :: rest)
    | _ => Tick.cost 0 (.ok diff)

/-- the normaliser `N[j]`, `Correlator.cpp:40-47`; each of the two calls of `mean_data()` (`DataStructure.cpp:184`) copies the means of all datasets -/
def normOfT (ds : DS F) (j : Nat) : Tick F :=
  Tick.foldL
    (fun acc i =>
      Tick.bind (Tick.cost 0 (atGet ds.data (vecIdx ds.M i j))) fun x =>
      let X := toFloat x
      if isNaN X then Tick.cost 0 (.ok acc)
      else
        Tick.bind (Tick.cost ds.dataMean.length (rawGet ds.dataMean j)) fun m =>
        Tick.bind (Tick.cost ds.dataMean.length (rawGet ds.dataMean j)) fun m' =>
        Tick.cost 0 (.ok (addMul acc (sub X m) (sub X m'))))
    zero (List.range ds.M)

/-- `Correlator(ds)`, `Correlator.cpp:33-55`; the vectors of lines 38, 53 and 54 are filled with zeros -/
def Corr.newT (ds : DS F) : Tick (Corr F) :=
  Tick.bind (Tick.cost ds.N (.ok ())) fun _ =>
  Tick.bind (Tick.mapL (fun j => normOfT ds j) (List.range ds.N)) fun norm =>
  Tick.bind (Tick.cost 0 (rawGet ds.normT (ds.normT.length - 1))) fun maxLag =>
  let minLag := neg maxLag
  Tick.bind (findMinDiffT ds.normT) fun lagRes =>
  Tick.bind (Tick.cost 0 (lagSlots maxLag minLag lagRes)) fun n =>
  Tick.bind (Tick.cost (ds.N * n) (.ok (List.replicate (ds.N * n) zero))) fun corrBuf =>
  Tick.bind (Tick.cost n (.ok (List.replicate n zero))) fun tsBuf =>
  Tick.cost 0 (.ok { ds := ds, corrBuf := corrBuf, tsBuf := tsBuf, norm := norm, maxLag := maxLag, minLag := minLag, lagRes := lagRes,
                     alpha := ds.tMedian, numLagSteps := n })

/-- `std::lower_bound`: a step for each comparison -/
def lowerBoundGoT (v : List F) (val : F) (first len : Nat) : Tick Nat :=
  if _h : len = 0 then Tick.cost 0 (.ok first)
  else
    Tick.bind (Tick.cost 1 (rawGet v (first + len / 2))) fun mid =>
    if lt mid val then lowerBoundGoT v val (first + len / 2 + 1) (len - len / 2 - 1)
    else lowerBoundGoT v val first (len / 2)
termination_by len
decreasing_by all_goals omega

namespace Corr

/-- first loop of `naturalSelectionFunctionIdx`, `Correlator.cpp:84-89` -/
def shiftNatT (k last : F) : List F → Vec F → Tick (Vec F)
  | [], out => Tick.cost 0 (.ok out)
  | t :: ts, out =>
    Tick.bind (Tick.cost 1 (.ok ())) fun _ =>
    if lt last (add t k) then Tick.cost 0 (.ok out) else shiftNatT k last ts (out.push (add t k))

/-- body of the second loop, `Correlator.cpp:93-103` -/
def selectNatT (a : AbsFn) (nt : List F) (s : F) : Tick Nat :=
  Tick.bind (lowerBoundGoT nt s 0 nt.length) fun idx =>
  if idx ≠ 0 then
    Tick.cost 0 ((atGet nt (idx - 1)).bind fun lo =>
    (a.app (sub s lo)).bind fun dlo =>
    (atGet nt idx).bind fun hi =>
    (a.app (sub s hi)).bind fun dhi =>
    .ok (if lt dlo dhi then idx - 1 else idx))
  else Tick.cost 0 (.ok idx)

/-- `naturalSelectionFunctionIdx`, `Correlator.cpp:79-107` -/
def naturalSelectionT (a : AbsFn) (c : Corr F) (it : CorrIt F) : Tick (CorrIt F) :=
  Tick.bind (Tick.cost 0 (rawGet c.ds.normT (c.ds.normT.length - 1))) fun last =>
  Tick.bind (shiftNatT it.k last c.ds.normT it.shifted) fun shifted =>
  Tick.bind (Tick.mapL (fun i => Tick.bind (Tick.cost 0 (shifted.raw i)) fun s => selectNatT a c.ds.normT s) (List.range shifted.elems.length)) fun sel =>
  Tick.cost 0 (.ok { it with shifted := shifted.clear, selection := it.selection ++ sel })

/-- `deltaT`, `Correlator.cpp:162-170` -/
def deltaTT (a : AbsFn) (c : Corr F) (it : CorrIt F) : Tick (CorrIt F) :=
  Tick.bind (Tick.mapL
    (fun (p : Nat × Nat) => Tick.cost 0 ((atGet c.ds.normT p.1).bind fun t =>
      (it.shifted.raw p.2).bind fun s => a.app (sub t s)))
    it.selection.zipIdx) fun ds =>
  Tick.cost 0 (.ok { it with deltaT := it.deltaT ++ ds, shifted := it.shifted.clear })

/-- `getFractionWeights`, `Correlator.cpp:172-179` -/
def getFractionWeightsT (c : Corr F) (it : CorrIt F) : Tick (CorrIt F) :=
  Tick.bind (Tick.mapL (fun d => Tick.cost 0 (.ok (fractionWeight c.alpha d))) it.deltaT) fun ws =>
  Tick.cost 0 (.ok { it with weights := it.weights ++ ws, deltaT := [] })

/-- inner loop of `findCorrelation`, `Correlator.cpp:139-144` -/
def sumCorrelationT (c : Corr F) (it : CorrIt F) (j : Nat) (acc : F) : Tick F :=
  Tick.foldL
    (fun acc (p : F × Nat) => Tick.cost 0 (
      (atGet c.ds.normData (vecIdx c.ds.M p.2 j)).bind fun x =>
      (rawGet it.selection p.2).bind fun s =>
      (atGet c.ds.normData (vecIdx c.ds.M s j)).bind fun y =>
      .ok (addMul acc (mul p.1 x) y)))
    acc it.weights.zipIdx

/-- `findCorrelation`, `Correlator.cpp:137-147` -/
def findCorrelationT (c : Corr F) (it : CorrIt F) : Tick (CorrIt F) :=
  Tick.bind (Tick.foldL
    (fun out j =>
      Tick.bind (Tick.cost 0 (rawGet out j)) fun acc0 =>
      Tick.bind (sumCorrelationT c it j acc0) fun acc =>
      Tick.bind (Tick.cost 0 (rawGet c.norm j)) fun n =>
      Tick.cost 0 (rawSet out j (mul acc (div one n))))
    it.correlation (List.range c.ds.N)) fun out =>
  Tick.cost 0 (.ok { it with correlation := out })

/-- `addCorrelationData`, `Correlator.cpp:235-240` -/
def addCorrelationDataT (c : Corr F) (it : CorrIt F) (step : Nat) : Tick (Corr F) :=
  Tick.bind (Tick.cost 0 (rawSet c.tsBuf step it.k)) fun ts =>
  Tick.bind (Tick.foldL
    (fun buf j => Tick.cost 0 (
      (rawGet it.correlation j).bind fun x => rawSet buf (step + c.numLagSteps * j) x))
    c.corrBuf (List.range c.ds.N)) fun buf =>
  Tick.cost 0 (.ok { c with tsBuf := ts, corrBuf := buf })

/-- `cleanCorrelationData`, `Correlator.cpp:242-252`: the lags are resized, a vector of zeros is allocated, the rows are copied to it, and it is copied back -/
def cleanCorrelationDataT (c : Corr F) (i : Nat) : Tick (Corr F) :=
  Tick.bind (Tick.cost i (.ok (resizeF c.tsBuf i))) fun ts =>
  Tick.bind (Tick.cost (c.ds.N * i) (.ok (List.replicate (c.ds.N * i) zero))) fun zeros =>
  Tick.bind (Tick.foldL
    (fun out j =>
      Tick.bind (Tick.cost 0 (slice c.corrBuf (j * c.numLagSteps) (j * c.numLagSteps + i))) fun row =>
      Tick.cost row.length (writeAt out (j * i) row))
    zeros (List.range c.ds.N)) fun buf =>
  Tick.cost buf.length (.ok { c with tsBuf := ts, corrBuf := buf, numLagSteps := i })

/-- `_calculateStandardCorrelation(k, i)`, `Correlator.cpp:276-287`; the iterator is created with a vector of zeros, set to zero once more (lines 25-31) -/
def standardStepT (a : AbsFn) (c : Corr F) (k : F) (i : Nat) : Tick (Corr F) :=
  Tick.bind (Tick.cost (2 * c.ds.N) (.ok (CorrIt.new k c.ds.N))) fun it =>
  Tick.bind (naturalSelectionT a c it) fun it =>
  Tick.bind (deltaTT a c it) fun it =>
  Tick.bind (getFractionWeightsT c it) fun it =>
  Tick.bind (findCorrelationT c it) fun it =>
  addCorrelationDataT c it i

/-- the loop of `calculateStandardCorrelation`, `Correlator.cpp:259-272` -/
def standardLoopT (a : AbsFn) : Nat → Corr F → F → Bool → Nat → Tick (Corr F × Nat)
  | 0, _, _, _, _ => .diverge
  | fuel + 1, c, k, isPos, i =>
    if le k c.maxLag then
      Tick.bind (Tick.cost 1 (.ok ())) fun _ =>
      let isPos := if eq k zero then true else isPos
      if lt zero k && !isPos then
        Tick.bind (standardStepT a c zero i) fun c =>
        Tick.bind (standardStepT a c k (i + 1)) fun c =>
        standardLoopT a fuel c (add k c.lagRes) true (i + 2)
      else
        Tick.bind (standardStepT a c k i) fun c =>
        standardLoopT a fuel c (add k c.lagRes) isPos (i + 1)
    else Tick.cost 0 (.ok (c, i))

/-- `calculateStandardCorrelation`, `Correlator.cpp:254-274` -/
def calculateStandardCorrelationT (a : AbsFn) (c : Corr F) : Tick (Corr F) :=
  Tick.bind (standardLoopT a (c.tsBuf.length + 1) c c.minLag false 0) fun p =>
  cleanCorrelationDataT p.1 p.2

/-- `correlations()`, `Correlator.cpp:67-77`: for each dataset a vector is allocated, filled, and copied into the table -/
def correlationsT (c : Corr F) : Tick (List (List F)) :=
  Tick.mapL
    (fun j =>
      Tick.bind (Tick.cost c.numLagSteps (.ok ())) fun _ =>
      Tick.bind (Tick.mapL (fun i => Tick.cost 0 (rawGet c.corrBuf (i + j * c.numLagSteps))) (List.range c.numLagSteps)) fun row =>
      Tick.cost row.length (.ok row))
    (List.range c.ds.N)

end Corr

/-- `SACF.autocorrelation`, `sacf.py:94-146`, with the default functions: `lag_timeseries()` copies the lags (`Correlator.cpp:65`), and
`correlations()` is called twice (`sacf.py:141-143`). -/
def autocorrelationT (a : AbsFn) (ds : DS F) (g : LagArgs F) : Tick (AcResult F) :=
  Tick.bind (Corr.newT ds) fun c0 =>
  Tick.bind (Corr.calculateStandardCorrelationT a (setUpCorrelation c0 g)) fun c =>
  Tick.bind (Tick.cost c.tsBuf.length (.ok c.lagTimeseries)) fun lags =>
  Tick.bind c.correlationsT fun _ =>
  Tick.bind c.correlationsT fun rows =>
  Tick.bind (Tick.cost 0 (corrOut rows)) fun out =>
  Tick.cost 0 (.ok { lags := lags, corrs := out, corr := c })

end Sacf
