import Verif.Model.Session

/-!
# Working with `CorrelationIterator` objects from Python

The methods of `Correlator` that take a `CorrelationIterator`, with what an exception leaves behind in it, and sessions with any number of
iterators.
-/

namespace Sacf

open Arith

variable {F : Type} [Arith F]

namespace Out
variable {σ α : Type}

/-- evaluation of an expression that does not change the object -/
def lift (s : σ) : Res α → Out σ α
  | .ok a => ok a s
  | .exn e => exn e s
  | .ub => ub
  | .diverge => diverge

/-- `for x in l: body`; an exception leaves behind what the body has done so far -/
def forL (f : σ → α → Out σ Unit) : List α → σ → Out σ Unit
  | [], s => ok () s
  | x :: xs, s => (f s x).bind fun _ s => forL f xs s

end Out

namespace Corr

/-- `naturalSelectionFunctionIdx`, `Correlator.cpp:79-107`, on an iterator that survives an exception: one index is appended for every
shifted time, and the shifted times are cleared at the end only. -/
def naturalOn (a : AbsFn) (c : Corr F) (it : CorrIt F) : Out (CorrIt F) Unit :=
  (Out.lift it (rawGet c.ds.normT (c.ds.normT.length - 1))).bind fun last it =>
  let it := { it with shifted := shiftNat it.k last c.ds.normT it.shifted }
  (Out.forL
    (fun it i =>
      (Out.lift it ((it.shifted.raw i).bind fun s => selectNat a c.ds.normT s)).bind fun idx it =>
      .ok () { it with selection := it.selection ++ [idx] })
    (List.range it.shifted.elems.length) it).bind fun _ it =>
  .ok () { it with shifted := it.shifted.clear }

/-- `fastSelectionFunctionIdx`, `Correlator.cpp:109-135`, likewise. -/
def fastOn (a : AbsFn) (c : Corr F) (it : CorrIt F) : Out (CorrIt F) Unit :=
  let nt := c.ds.normT
  (Out.lift it (rawGet nt (nt.length - 1))).bind fun last it =>
  let it := { it with shifted := shiftFast it.k last nt it.shifted }
  if it.shifted.elems.isEmpty then .ok () { it with shifted := it.shifted.clear }
  else
    (Out.lift it ((it.shifted.raw 0).bind fun s =>
      (lowerBound nt s).bind fun idx0 =>
      (atGet nt (idx0 + 1)).bind fun hi =>
      (a.app (sub s hi)).bind fun dhi =>
      (atGet nt idx0).bind fun lo =>
      (a.app (sub s lo)).bind fun dlo => .ok (if lt dhi dlo then idx0 + 1 else idx0))).bind fun idx it =>
    let maxIdx := it.shifted.elems.length - 1
    let it := { it with selection := resizeZero it.selection it.shifted.elems.length }
    (Out.forL
      (fun it i => (Out.lift it (rawSet it.selection i (idx + i))).bind fun sel it => .ok () { it with selection := sel })
      (List.range (maxIdx + 1 - idx)) it).bind fun _ it =>
    .ok () { it with shifted := it.shifted.clear }

/-- `deltaT`, `Correlator.cpp:162-170`, likewise.  (`at` of the subtraction is evaluated before the unchecked read; C++ leaves the order open.) -/
def deltaOn (a : AbsFn) (c : Corr F) (it : CorrIt F) : Out (CorrIt F) Unit :=
  (Out.forL
    (fun it (p : Nat × Nat) =>
      (Out.lift it ((atGet c.ds.normT p.1).bind fun t =>
        (it.shifted.raw p.2).bind fun s => a.app (sub t s))).bind fun d it =>
      .ok () { it with deltaT := it.deltaT ++ [d] })
    it.selection.zipIdx it).bind fun _ it =>
  .ok () { it with shifted := it.shifted.clear }

/-- `findCorrelation`, `Correlator.cpp:137-147`, likewise: the sums are formed in the iterator, one product at a time.  (`correlation[j]` is
evaluated first; C++ before C++17 leaves the order open.) -/
def correlateOn (c : Corr F) (it : CorrIt F) : Out (CorrIt F) Unit :=
  Out.forL
    (fun it j =>
      (Out.lift it (rawGet it.correlation j)).bind fun _ it =>
      (Out.forL
        (fun it (p : F × Nat) =>
          (Out.lift it ((atGet c.ds.normData (vecIdx c.ds.M p.2 j)).bind fun x =>
            (rawGet it.selection p.2).bind fun s =>
            (atGet c.ds.normData (vecIdx c.ds.M s j)).bind fun y =>
            (rawGet it.correlation j).bind fun acc =>
            rawSet it.correlation j (addMul acc (mul p.1 x) y))).bind fun out it =>
          .ok () { it with correlation := out })
        it.weights.zipIdx it).bind fun _ it =>
      (Out.lift it ((rawGet it.correlation j).bind fun acc =>
        (rawGet c.norm j).bind fun n =>
        rawSet it.correlation j (mul acc (div one n)))).bind fun out it =>
      .ok () { it with correlation := out })
    (List.range c.ds.N) it

end Corr

/-! ## Sessions -/

/-- the methods with an iterator as their only argument, `correlator_bindings.cpp:24-34` -/
inductive ItMethod where
  | natural
  | fast
  | deltaT
  | fraction
  | fractionSquared
  | gaussian
  | find
deriving DecidableEq

/-- one of them on an iterator -/
def ItMethod.run (a : AbsFn) (c : Corr F) (it : CorrIt F) : ItMethod → Out (CorrIt F) Unit
  | natural => c.naturalOn a it
  | fast => c.fastOn a it
  | deltaT => c.deltaOn a it
  | fraction => .ok () (c.getFractionWeights it)
  | fractionSquared => .ok () (c.getFractionSquaredWeights it)
  | gaussian => .ok () (c.getGaussianWeights it)
  | find => c.correlateOn it

/-- A Python object given where an iterator is expected: one of the iterators created so far, by number; `None`; or something else. -/
inductive ItArg where
  | it (i : Nat)
  | none
  | other
deriving DecidableEq

/-- a `Correlator` and the iterators created so far -/
structure Work (F : Type) where
  corr : Corr F
  its : List (CorrIt F)
deriving DecidableEq

/-- The iterator an argument denotes.  pybind11 passes `None` as a null pointer, which every method dereferences, and raises `TypeError`
for anything else (also for a number of no iterator, which stands for such an object). -/
def Work.get (w : Work F) : ItArg → Res (Nat × CorrIt F)
  | .it i =>
    match w.its[i]? with
    | some it => .ok (i, it)
    | Option.none => .exn .typeError
  | .none => .ub
  | .other => .exn .typeError

/-- calls on a correlator and its iterators, with arbitrary arguments (`correlator_bindings.cpp:11-44`) -/
inductive WCall (F : Type) where
  /-- a call on the correlator -/
  | corr (x : SCall F)
  /-- `CorrelationIterator(k, n)` -/
  | new (k n : PyVal F)
  /-- `it.k = x` -/
  | setK (i : ItArg) (x : PyVal F)
  /-- `corr.method(it)` -/
  | call (m : ItMethod) (i : ItArg)
  /-- `corr.addCorrelationData(it, step)` -/
  | add (i : ItArg) (step : Option Int)

/-- `CorrelationIterator(k, n)`, `correlator_bindings.cpp:12`: two numbers, `None` is none. -/
def newItOn (k n : PyVal F) : Res (CorrIt F) :=
  match k.asNum true, n.asNum true with
  | some k, some n => CorrIt.newF k n
  | _, _ => .exn .typeError

/-- put the outcome on one iterator back among the others -/
def Work.put (w : Work F) (i : Nat) : Out (CorrIt F) Unit → Out (Work F) Unit
  | .ok _ it => .ok () { w with its := w.its.set i it }
  | .exn e it => .exn e { w with its := w.its.set i it }
  | .ub => .ub
  | .diverge => .diverge

/-- put the outcome on the correlator back -/
def Work.putCorr (w : Work F) : Out (Corr F) Unit → Out (Work F) Unit
  | .ok _ c => .ok () { w with corr := c }
  | .exn e c => .exn e { w with corr := c }
  | .ub => .ub
  | .diverge => .diverge

/-- One call.  The attribute of `None` does not exist (`AttributeError`, rendered as `TypeError`). -/
def WCall.run (a : AbsFn) (w : Work F) : WCall F → Out (Work F) Unit
  | corr x => w.putCorr (x.run a w.corr)
  | new k n => Out.step w ((newItOn k n).bind fun it => .ok { w with its := w.its ++ [it] })
  | setK .none _ => .exn .typeError w
  | setK i x =>
    Out.step w ((w.get i).bind fun p =>
      match x.asNum true with
      | some k => .ok { w with its := w.its.set p.1 { p.2 with k := k } }
      | Option.none => .exn .typeError)
  | call m i => (Out.lift w (w.get i)).bind fun p w => w.put p.1 (m.run a w.corr p.2)
  | add i step =>
    -- the arguments are converted from left to right, the null pointer is used after that
    match i with
    | .none => Out.step w ((loadInt step).bind fun _ => .ub)
    | i => (Out.lift w (w.get i)).bind fun p w => w.putCorr ((SCall.add p.2 step).run a w.corr)

/-- a sequence of calls whose exceptions the caller catches -/
def Work.runAll (a : AbsFn) : Work F → List (WCall F) → Res (Work F × List (Option Exc))
  | w, [] => .ok (w, [])
  | w, x :: xs =>
    match x.run a w with
    | .ok _ w => (Work.runAll a w xs).bind fun p => .ok (p.1, Option.none :: p.2)
    | .exn e w => (Work.runAll a w xs).bind fun p => .ok (p.1, some e :: p.2)
    | .ub => .ub
    | .diverge => .diverge

end Sacf
