import Verif.Model.Cost

/-!
# Number of steps of `find_correlation`

The Python driver with the counter of `Model/Cost.lean`, for every selection and weight function.  A pass of the Python loop counts as one step, like a
pass of the C++ loop.
-/

namespace Sacf

open Arith

variable {F : Type} [Arith F]

namespace Corr

/-- first loop of `fastSelectionFunctionIdx`, `Correlator.cpp:114-119` -/
def shiftFastT (k last : F) : List F → Vec F → Tick (Vec F)
  | [], out => Tick.cost 0 (.ok out)
  | t :: ts, out =>
    Tick.bind (Tick.cost 1 (.ok ())) fun _ =>
    if le last (add t k) then Tick.cost 0 (.ok out) else shiftFastT k last ts (out.push (add t k))

/-- `fastSelectionFunctionIdx`, `Correlator.cpp:109-135`: one search, a `resize`, and a loop over the indices -/
def fastSelectionT (a : AbsFn) (c : Corr F) (it : CorrIt F) : Tick (CorrIt F) :=
  let nt := c.ds.normT
  Tick.bind (Tick.cost 0 (rawGet nt (nt.length - 1))) fun last =>
  Tick.bind (shiftFastT it.k last nt it.shifted) fun shifted =>
  if shifted.elems.isEmpty then Tick.cost 0 (.ok { it with shifted := shifted.clear })
  else
    Tick.bind (Tick.cost 0 (shifted.raw 0)) fun s =>
    Tick.bind (lowerBoundGoT nt s 0 nt.length) fun idx0 =>
    let maxIdx := shifted.elems.length - 1
    Tick.bind (Tick.cost 0 ((atGet nt (idx0 + 1)).bind fun hi =>
      (a.app (sub s hi)).bind fun dhi =>
      (atGet nt idx0).bind fun lo =>
      (a.app (sub s lo)).bind fun dlo => .ok (if lt dhi dlo then idx0 + 1 else idx0))) fun idx =>
    Tick.bind (Tick.cost shifted.elems.length (.ok (resizeZero it.selection shifted.elems.length))) fun sel0 =>
    Tick.bind (Tick.foldL (fun sel i => Tick.cost 0 (rawSet sel i (idx + i))) sel0 (List.range (maxIdx + 1 - idx))) fun sel =>
    Tick.cost 0 (.ok { it with shifted := shifted.clear, selection := sel })

/-- the loop shared by the three weight functions, `Correlator.cpp:172-197` -/
def applyWeightsT (w : Corr F → CorrIt F → CorrIt F) (c : Corr F) (it : CorrIt F) : Tick (CorrIt F) :=
  Tick.cost it.deltaT.length (.ok (w c it))

end Corr

/-- `SELECTION_FUNCTIONS[name]`, `sacf.py:4-7` -/
def selectionFunctionT (a : AbsFn) (name : String) : Res (Corr F → CorrIt F → Tick (CorrIt F)) :=
  if name = "fast" then .ok (Corr.fastSelectionT a)
  else if name = "natural" then .ok (Corr.naturalSelectionT a)
  else .exn (.keyError name)

/-- body of the loop, `sacf.py:85-90`; the iterator is created with a vector of zeros, set to zero once more (`Correlator.cpp:25-31`) -/
def pyStepT (a : AbsFn) (sel wt : String) (c : Corr F) (k : F) (i : Nat) : Tick (Corr F) :=
  Tick.bind (Tick.cost (2 * c.ds.N) (.ok (CorrIt.new k c.ds.N))) fun it =>
  Tick.bind (Tick.cost 0 (selectionFunctionT a sel)) fun f =>
  Tick.bind (f c it) fun it =>
  Tick.bind (Corr.deltaTT a c it) fun it =>
  Tick.bind (Tick.cost 0 (weightFunction wt)) fun w =>
  Tick.bind (Corr.applyWeightsT w c it) fun it =>
  Tick.bind (Corr.findCorrelationT c it) fun it =>
  Corr.addCorrelationDataT c it i

/-- the loop over `lag_generator`, `sacf.py:70-90` -/
def pyLoopT (a : AbsFn) (sel wt : String) (maxLag lagRes : F) : Nat → Corr F → F → Bool → Nat → Tick (Corr F × Nat)
  | 0, _, _, _, _ => .diverge
  | fuel + 1, c, k, isPos, i =>
    if le k maxLag then
      Tick.bind (Tick.cost 1 (.ok ())) fun _ =>
      let isPos := if eq k zero then true else isPos
      if lt zero k && !isPos then
        Tick.bind (pyStepT a sel wt c zero i) fun c =>
        Tick.bind (pyStepT a sel wt c k (i + 1)) fun c =>
        pyLoopT a sel wt maxLag lagRes fuel c (add k lagRes) true (i + 2)
      else
        Tick.bind (pyStepT a sel wt c k i) fun c =>
        pyLoopT a sel wt maxLag lagRes fuel c (add k lagRes) isPos (i + 1)
    else Tick.cost 0 (.ok (c, i))

/-- `find_correlation`, `sacf.py:57-92` -/
def pyFindCorrelationT (a : AbsFn) (c : Corr F) (sel : String := "natural") (wt : String := "fractional") : Tick (Corr F) :=
  Tick.bind (pyLoopT a sel wt c.maxLag c.lagRes (c.tsBuf.length + 1) c c.minLag false 0) fun p =>
  if p.2 = 0 then Tick.cost 0 (.exn .unboundLocal) else Corr.cleanCorrelationDataT p.1 p.2

end Sacf
