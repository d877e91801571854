import Verif.Model.Session

/-!
# Threads

`sacf.py` run by several Python threads.  None of the bindings releases the interpreter lock (`correlator_bindings.cpp`,
`datastructure_bindings.cpp`: no `gil_scoped_release`, no `call_guard`), so a call of a C++ function is one step; between two
such calls of the Python code any other thread may run.

A `DataStructure` has no setters and `self.data` is assigned in `__init__` only, so a thread reads the same data throughout.

Simplifications: a thread performs one call of the package; a thread that performs several, one after the other, is a schedule
in which the next one is not started before the previous one has ended.  Python code that touches nothing but the local variables of
its function is joined with a neighbouring step.  Identities of objects are never reused.
-/

namespace Sacf

open Arith

variable {F : Type} [Arith F]

/-! ## `find_correlation`, step by step -/

/-- The frame of `lag_generator`, `sacf.py:70-80`, suspended at a `yield`, and the counter of `enumerate`, `sacf.py:82`. -/
structure Gen (F : Type) where
  maxLag : F
  lagRes : F
  k : F
  isPos : Bool
  /-- suspended at `yield 0` (line 78), not at `yield k` (line 79) -/
  atZero : Bool
  i : Nat

/-- the lag that has been yielded -/
def Gen.lag (g : Gen F) : F := if g.atZero then zero else g.k

/-- Where `find_correlation` is, `sacf.py:82-92`: the next action and the local variables. -/
inductive FindPc (F : Type) where
  /-- `corr.min_lag`, line 83 -/
  | readMin
  /-- `corr.max_lag`, line 83 -/
  | readMax (lo : F)
  /-- `corr.lag_resolution`, line 83 -/
  | readRes (lo hi : F)
  /-- the test of the `while`, line 73 -/
  | test (maxLag lagRes k : F) (isPos : Bool) (i : Nat)
  /-- `CorrelationIterator(k, corr.N_datasets)`, line 85 -/
  | create (g : Gen F)
  /-- line 86 -/
  | select (g : Gen F) (it : CorrIt F)
  /-- line 87 -/
  | delta (g : Gen F) (it : CorrIt F)
  /-- line 88 -/
  | weigh (g : Gen F) (it : CorrIt F)
  /-- line 89 -/
  | sum (g : Gen F) (it : CorrIt F)
  /-- line 90 -/
  | put (g : Gen F) (it : CorrIt F)
  /-- line 92; `n` is `i + 1` -/
  | clean (n : Nat)
  /-- after line 92 -/
  | finished

/-- a step that computes a value and leaves the object alone -/
def Out.pure {σ α : Type} (s : σ) : Res α → Out σ α
  | .ok x => .ok x s
  | .exn e => .exn e s
  | .ub => .ub
  | .diverge => .diverge

/-- One step of `find_correlation(corr, sel, wt)`, `sacf.py:57-92`, on the present contents of `corr`.  (`corr.N_datasets` never changes;
its reading and the construction of the iterator are one step.) -/
def FindPc.step (a : AbsFn) (sel wt : PyName) (c : Corr F) : FindPc F → Out (Corr F) (FindPc F)
  | readMin => .ok (readMax c.minLag) c
  | readMax lo => .ok (readRes lo c.maxLag) c
  | readRes lo hi => .ok (test hi c.lagRes lo false 0) c
  | test maxLag lagRes k isPos i =>
    if le k maxLag then
      let isPos := if eq k zero then true else isPos
      if lt zero k && !isPos then .ok (create ⟨maxLag, lagRes, k, true, true, i⟩) c
      else .ok (create ⟨maxLag, lagRes, k, isPos, false, i⟩) c
    else if i = 0 then .exn .unboundLocal c
    else .ok (clean i) c
  | create g => .ok (select g (CorrIt.new g.lag c.ds.N)) c
  | select g it => Out.pure c ((sel.lookup (selectionFunction a)).bind fun f => (f c it).bind fun it => .ok (delta g it))
  | delta g it => Out.pure c ((Corr.deltaT a c it).bind fun it => .ok (weigh g it))
  | weigh g it => Out.pure c ((wt.lookup weightFunction).bind fun w => .ok (sum g (w c it)))
  | sum g it => Out.pure c ((Corr.findCorrelation c it).bind fun it => .ok (put g it))
  | put g it =>
    (Out.step c (Corr.addCorrelationData c it g.i)).bind fun _ c =>
    .ok (if g.atZero then create { g with atZero := false, i := g.i + 1 }
      else test g.maxLag g.lagRes (add g.k g.lagRes) g.isPos (g.i + 1)) c
  | clean n => (Out.step c (c.cleanCorrelationData n)).bind fun _ c => .ok finished c
  | finished => .ok finished c

/-! ## The tasks of threads -/

/-- a call of `SACF.autocorrelation`, `sacf.py:94-103`; `ds` is `self.data` -/
structure Job (F : Type) where
  ds : DS F
  minLag : PyVal F := .none
  maxLag : PyVal F := .none
  lagRes : PyVal F := .none
  alpha : PyVal F := .none
  sel : PyName := .str "natural"
  wt : PyName := .str "fractional"
  ret : PyVal F := .none

/-- What a thread does: a call of `autocorrelation`, or a call that changes a `Correlator` it has been given. -/
inductive Task (F : Type) where
  | ac (j : Job F)
  | on (m : SCall F)

/-- Where a thread is. -/
inductive Pc (F : Type) where
  /-- `Correlator(self.data)`, `sacf.py:122`; of a call on a given `Correlator`: its only step, or the call of `find_correlation` -/
  | start
  /-- `sacf.py:48-49` -/
  | setMax
  /-- `sacf.py:50-51` -/
  | setMin
  /-- `sacf.py:52-53` -/
  | setRes
  /-- `sacf.py:54-55` -/
  | setAlpha
  /-- `sacf.py:125-130` -/
  | branch
  /-- in `find_correlation` -/
  | find (f : FindPc F)
  /-- `corr.lag_timeseries()`, `sacf.py:134, 142` -/
  | readLags
  /-- `len(corr.correlations()) > 1.0`, `sacf.py:136, 144` -/
  | readLen (lags : List F)
  /-- `corr.correlations()` (`big`) or `corr.correlations()[0]`, `sacf.py:135, 137, 143, 145` -/
  | readCorr (lags : List F) (big : Bool)
  /-- `autocorrelation` has returned -/
  | returned (lags : List F) (out : CorrOut F)
  /-- another call has returned -/
  | finished
  /-- ended by an exception -/
  | raised (e : Exc)

/-- The next state of a thread and its correlator; an exception ends the thread. -/
def Out.next {α : Type} (k : α → Pc F) : Out (Corr F) α → Res (Pc F × Option (Corr F))
  | .ok x c => .ok (k x, some c)
  | .exn e c => .ok (.raised e, some c)
  | .ub => .ub
  | .diverge => .diverge

/-- One step of a thread.  `c` is the `Correlator` it works on: the one it has been given or, in `autocorrelation`, the one it has
created; `none` if there is none yet. -/
def Task.step (a : AbsFn) (task : Task F) (pc : Pc F) (c : Option (Corr F)) : Res (Pc F × Option (Corr F)) :=
  match task, pc, c with
  | .ac j, .start, Option.none =>
    match Corr.new j.ds with
    | .ok c => .ok (.setMax, some c)
    | .exn e => .ok (.raised e, Option.none)
    | .ub => .ub
    | .diverge => .diverge
  | .ac j, .setMax, some c => (Out.step c (setArg Corr.setMaxLag j.maxLag c)).next fun _ => .setMin
  | .ac j, .setMin, some c => (Out.step c (setArg Corr.setMinLag j.minLag c)).next fun _ => .setRes
  | .ac j, .setRes, some c => (Out.step c (setArg Corr.setLagResolution j.lagRes c)).next fun _ => .setAlpha
  | .ac j, .setAlpha, some c => (Out.step c (setArg Corr.setAlpha j.alpha c)).next fun _ => .branch
  | .ac j, .branch, some c =>
    if j.sel.is "natural" && j.wt.is "fractional" then (calculateOn a c).next fun _ => .readLags
    else .ok (.find .readMin, some c)
  | .ac _, .find .finished, some c => .ok (.readLags, some c)
  | .ac j, .find f, some c => (f.step a j.sel j.wt c).next .find
  | .ac _, .readLags, some c => .ok (.readLen c.lagTimeseries, some c)
  | .ac _, .readLen lags, some c =>
    (Out.pure c c.correlations).next fun rows => .readCorr lags (decide (rows.length > 1))
  | .ac _, .readCorr lags big, some c =>
    (Out.pure c (c.correlations.bind fun rows =>
      if big then .ok (.table rows)
      else match rows with
        | row :: _ => .ok (CorrOut.flat row)
        | [] => .exn .indexError)).next (.returned lags)
  | .on (.find _ _), .start, some c => .ok (.find .readMin, some c)
  | .on (.find _ _), .find .finished, some c => .ok (.finished, some c)
  | .on (.find sel wt), .find f, some c => (f.step a sel wt c).next .find
  | .on m, .start, some c => (m.run a c).next fun _ => .finished
  | _, pc, c => .ok (pc, c)

/-! ## The world -/

/-- A thread: its task, where it is, and the identity of the `Correlator` it works on. -/
structure Thread (F : Type) where
  task : Task F
  pc : Pc F := .start
  obj : Option Nat := Option.none

/-- All `Correlator`s and all threads. -/
structure World (F : Type) where
  heap : List (Corr F)
  threads : List (Thread F)

/-- the `Correlator` a thread works on -/
def World.look (w : World F) (th : Thread F) : Option (Corr F) := th.obj.bind fun x => w.heap[x]?

/-- thread `t` has made a step -/
def World.store (w : World F) (t : Nat) (th : Thread F) (pc : Pc F) (c : Option (Corr F)) : World F :=
  match c with
  | Option.none => { w with threads := w.threads.set t { th with pc := pc } }
  | some c =>
    match th.obj with
    | some x => ⟨w.heap.set x c, w.threads.set t { th with pc := pc }⟩
    | Option.none => ⟨w.heap ++ [c], w.threads.set t { th with pc := pc, obj := some w.heap.length }⟩

/-- The interpreter runs thread `t` up to its next switching point; undefined behaviour in one thread is undefined behaviour of the
process.  Nothing happens if there is no such thread or if it has ended. -/
def World.step (a : AbsFn) (w : World F) (t : Nat) : Res (World F) :=
  match w.threads[t]? with
  | Option.none => .ok w
  | some th => (th.task.step a th.pc (w.look th)).bind fun p => .ok (w.store t th p.1 p.2)

/-- A schedule: the threads in the order in which the interpreter runs them. -/
def World.run (a : AbsFn) (w : World F) (sched : List Nat) : Res (World F) := Res.foldL (World.step a) w sched

/-- the threads before they have done anything; a call on a `Correlator` comes with the identity of it -/
def World.init (heap : List (Corr F)) (tasks : List (Task F × Option Nat)) : World F :=
  ⟨heap, tasks.map fun p => ⟨p.1, .start, p.2⟩⟩

/-- What thread `t` has returned or raised, if it has ended: for `autocorrelation`, as the caller sees it now. -/
def World.outcome (w : World F) (t : Nat) : Option (Res (PyResult F)) :=
  match w.threads[t]? with
  | some ⟨.ac j, .returned lags out, x⟩ =>
    if j.ret.truthy then (x.bind fun x => w.heap[x]?).map fun c => .ok (.triple lags out c)
    else some (.ok (.pair lags out))
  | some ⟨.ac _, .raised e, _⟩ => some (.exn e)
  | _ => Option.none

/-- What thread `t`, a call on a `Correlator`, has come to, if it has ended, together with the present contents of the `Correlator`. -/
def World.result (w : World F) (t : Nat) : Option (Out (Corr F) Unit) :=
  match w.threads[t]? with
  | some ⟨.on _, .finished, x⟩ => (x.bind fun x => w.heap[x]?).map fun c => .ok () c
  | some ⟨.on _, .raised e, x⟩ => (x.bind fun x => w.heap[x]?).map fun c => .exn e c
  | _ => Option.none

end Sacf
