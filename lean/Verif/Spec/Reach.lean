import Verif.Model.Python

/-! Which objects and states a user can reach. -/

namespace Sacf

open Arith

variable {F : Type} [Arith F]

/-- A `DataStructure` returned by one of the five constructors. -/
inductive Constructed : DS F → Prop
  | flat {t v : List F} {d : DS F} : mkFlat t v = .ok d → Constructed d
  | flatErr {t v e : List F} {d : DS F} : mkFlatErr t v e = .ok d → Constructed d
  | table {t : List F} {rows : List (List F)} {d : DS F} : mkTable t rows = .ok d → Constructed d
  | tableErr {t : List F} {rows errs : List (List F)} {d : DS F} :
      mkTableErr t rows errs = .ok d → Constructed d
  | file {s : Option (List Char)} {d : DS F} : mkFile s = .ok d → Constructed d

/-- `data()[j]` is `row` -/
def DS.HasRow (d : DS F) (j : Nat) (row : List F) : Prop :=
  ∃ rows, d.data2d = .ok rows ∧ rows[j]? = some row

/-- Calls a user can make on a `Correlator` that change it (`correlator_bindings.cpp:23-44`).  The
iterator handed to `addCorrelationData` may have any contents. -/
inductive CorrCall (F : Type) where
  | setMaxLag (x : F)
  | setMinLag (x : F)
  | setLagResolution (x : F)
  | setAlpha (x : F)
  | calculate
  | findCorrelation (sel wt : String)
  | addData (it : CorrIt F) (step : Nat)
  | clean (i : Nat)
  | clear

/-- effect of one call -/
def CorrCall.run (a : AbsFn) (c : Corr F) : CorrCall F → Res (Corr F)
  | setMaxLag x => .ok (c.setMaxLag x)
  | setMinLag x => .ok (c.setMinLag x)
  | setLagResolution x => .ok (c.setLagResolution x)
  | setAlpha x => .ok (c.setAlpha x)
  | calculate => c.calculateStandardCorrelation a
  | findCorrelation sel wt => pyFindCorrelation a c sel wt
  | addData it step => c.addCorrelationData it step
  | clean i => c.cleanCorrelationData i
  | clear => .ok c.clearCorrelation

/-- effect of a sequence of calls, none of which raises -/
def runCalls (a : AbsFn) (c : Corr F) (h : List (CorrCall F)) : Res (Corr F) :=
  Res.foldL (CorrCall.run a) c h

/-! ### the lag grid, without reference to the loop -/

/-- `lo`, `lo + res`, `(lo + res) + res`, ... with the additions of the arithmetic at hand -/
def gridPt (lo res : F) : Nat → F
  | 0 => lo
  | m + 1 => gridPt (add lo res) res m

/-- `m` is the number of grid points up to the first one that is not `<= hi` -/
def GridCount (lo hi res : F) (m : Nat) : Prop :=
  (∀ i < m, le (gridPt lo res i) hi = true) ∧ le (gridPt lo res m) hi = false

/-- among the first `m` grid points one is positive and no grid point up to it is zero -/
def SkipsZero (lo res : F) (m : Nat) : Prop :=
  ∃ i < m, lt zero (gridPt lo res i) = true ∧ ∀ i' ≤ i, eq (gridPt lo res i') zero = false

/-- the list of lags for `m` grid points: zero is put before the first positive grid point unless a grid point
before it is zero -/
def IsLagList (lo res : F) (m : Nat) (l : List F) : Prop :=
  (¬ SkipsZero lo res m ∧ l = (List.range m).map (gridPt lo res)) ∨
  (∃ i < m, lt zero (gridPt lo res i) = true ∧ (∀ i' ≤ i, eq (gridPt lo res i') zero = false) ∧
    (∀ i' < i, lt zero (gridPt lo res i') = false) ∧
    l = (List.range i).map (gridPt lo res) ++ zero :: (List.range (m - i)).map fun n => gridPt lo res (i + n))

open Classical in
/-- number of lags due when `m` grid points are due: one more if zero has to be inserted -/
noncomputable def lagTotal (lo res : F) (m : Nat) : Nat := m + if SkipsZero lo res m then 1 else 0

/-- the weight names of `sacf.py:9-13` -/
def KnownWeight (wt : String) : Prop := wt = "gaussian" ∨ wt = "fractional" ∨ wt = "fractional_squared"

/-- rows of a result as a table in both shapes -/
def CorrOut.rows : CorrOut F → List (List F)
  | .flat row => [row]
  | .table rows => rows

/-- lag number `n` of the result is `k`, and entry `n` of row `j` is `v` -/
def AcResult.At (r : AcResult F) (j n : Nat) (k v : F) : Prop :=
  r.lags[n]? = some k ∧ ∃ row, r.corrs.rows[j]? = some row ∧ row[n]? = some v

/-- what `autocorrelation(...)` returns to the caller (lags, correlations), or how it fails -/
def acOut (a : AbsFn) (d : DS F) (g : LagArgs F) (sel wt : String) : Res (List F × CorrOut F) :=
  (autocorrelation a d g sel wt).bind fun r => .ok (r.lags, r.corrs)

/-- apply a function to every given lag parameter -/
def LagArgs.map (f : F → F) (g : LagArgs F) : LagArgs F :=
  { minLag := g.minLag.map f, maxLag := g.maxLag.map f, lagRes := g.lagRes.map f, alpha := g.alpha.map f }

end Sacf
