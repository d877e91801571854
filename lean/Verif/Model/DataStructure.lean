import Verif.Model.Res
import Verif.Model.Arith

/-!
# `sacf/datastructure/DataStructure.cpp`

Function-by-function model.  `std::vector<double>` is `List F`; `long`/`size_t` counters are `Nat`
(simplification: no wrap-around beyond 2^31 elements).
-/

namespace Sacf

open Arith

variable {F : Type} [Arith F]

/-- The object state, `sacf/include/DataStructure.h:28-36,57-58`
(`t_length` is never used by the code and is left out). -/
structure DS (F : Type) where
  t : List F
  data : List F
  err : List F
  dataMean : List F
  tMedian : F
  tMax : F
  normT : List F
  normData : List F
  N : Nat
  M : Nat
deriving DecidableEq

/-- `getVectorIndex(i, j)`, `DataStructure.cpp:44-46`. -/
def vecIdx (M i j : Nat) : Nat := i + j * M

/-- Mean of the non-NaN entries of one row: `remove_copy_if(isnan)`, `accumulate(.., 0.0)` divided by
the number of copied elements, `DataStructure.cpp:144-147`. -/
def meanOf (row : List F) : F :=
  let kept := row.filter (fun d => !isNaN d)
  div (kept.foldl add zero) (ofInt kept.length)

/-- `setDataMean`, `DataStructure.cpp:140-149`: one mean per dataset, each over the iterator range
`[getVectorIndex(0,j), getVectorIndex(M,j))`. -/
def setDataMean (data : List F) (N M : Nat) : Res (List F) :=
  Res.mapL (fun j => (slice data (vecIdx M 0 j) (vecIdx M M j)).bind fun row => .ok (meanOf row))
    (List.range N)

/-- `calcNormt`, `DataStructure.cpp:153-155`: subtract `t[0]` from every time. -/
def calcNormt (t : List F) : Res (List F) :=
  (rawGet t 0).bind fun t0 => .ok (t.map fun x => sub x t0)

/-- `calcNormData`, `DataStructure.cpp:157-163`: start from zeros, then overwrite the row of every
dataset by the row minus its mean. -/
def calcNormData (data mean : List F) (N M : Nat) : Res (List F) :=
  Res.foldL
    (fun out j =>
      (slice data (vecIdx M 0 j) (vecIdx M M j)).bind fun row =>
      (rawGet mean j).bind fun m =>
      writeAt out (vecIdx M 0 j) (row.map fun x => sub x m))
    (List.replicate data.length zero) (List.range N)

/-- `settMedian`, `DataStructure.cpp:165-169` (positions in the normalised time list). -/
def settMedian (normT : List F) : Res F :=
  let size := normT.length
  if size % 2 = 0 then
    (rawGet normT (size / 2 - 1)).bind fun a =>
    (rawGet normT (size / 2)).bind fun b => .ok (div (add a b) two)
  else rawGet normT (size / 2)

/-- `settMax`, `DataStructure.cpp:151`: `t.back()`. -/
def settMax (t : List F) : Res F := rawGet t (t.length - 1)

/-- `setUp`, `DataStructure.cpp:33-42`, for given `t`, `_data`, `err`, `N_datasets`, `M_datapoints`. -/
def setUp (t data err : List F) (N M : Nat) : Res (DS F) :=
  if data.isEmpty || t.isEmpty then .exn .emptyDataStructure
  else if data.length % t.length ≠ 0 then .exn .badDataInput
  else
    (setDataMean data N M).bind fun mean =>
    (settMax t).bind fun tMax =>
    (calcNormt t).bind fun normT =>
    (calcNormData data mean N M).bind fun normData =>
    (settMedian normT).bind fun tMedian =>
    .ok { t := t, data := data, err := err, dataMean := mean, tMedian := tMedian, tMax := tMax,
          normT := normT, normData := normData, N := N, M := M }

/-- `DataStructure(t, data)` with a flat value list, `DataStructure.cpp:76-81`. -/
def mkFlat (t data : List F) : Res (DS F) := setUp t data [] 1 t.length

/-- `DataStructure(t, data, err)` with flat lists, `DataStructure.cpp:83-88`. -/
def mkFlatErr (t data err : List F) : Res (DS F) := setUp t data err 1 t.length

/-- `DataStructure(t, rows)`, `DataStructure.cpp:48-57`: rows are concatenated. -/
def mkTable (t : List F) (rows : List (List F)) : Res (DS F) :=
  setUp t rows.flatten [] rows.length t.length

/-- `DataStructure(t, rows, errRows)`, `DataStructure.cpp:59-74`. -/
def mkTableErr (t : List F) (rows errs : List (List F)) : Res (DS F) :=
  setUp t rows.flatten errs.flatten rows.length t.length

/-- The common loop of `data_2d`, `err_2d`, `normalised_data_2d`
(`DataStructure.cpp:189-197, 204-212, 216-224`): `out[j][i] = v[getVectorIndex(i, j)]`. -/
def unflatten (v : List F) (N M : Nat) : Res (List (List F)) :=
  Res.mapL (fun j => Res.mapL (fun i => rawGet v (vecIdx M i j)) (List.range M)) (List.range N)

namespace DS

/-- `data()` of the Python class = `data_2d`, `DataStructure.cpp:188-198`, `datastructure_bindings.cpp:14`. -/
def data2d (d : DS F) : Res (List (List F)) := unflatten d.data d.N d.M

/-- `errors()` of the Python class = `err_2d`, `DataStructure.cpp:200-213`. -/
def err2d (d : DS F) : Res (List (List F)) :=
  if d.err.isEmpty then .ok [] else unflatten d.err d.N d.M

/-- `normalised_data()` of the Python class, `DataStructure.cpp:215-225`. -/
def normData2d (d : DS F) : Res (List (List F)) := unflatten d.normData d.N d.M

/-- `timeseries()`, `DataStructure.cpp:179`. -/
def timeseries (d : DS F) : List F := d.t
/-- `normalised_timeseries()`, `DataStructure.cpp:180`. -/
def normalisedTimeseries (d : DS F) : List F := d.normT
/-- `mean_data`, `DataStructure.cpp:184`. -/
def meanData (d : DS F) : List F := d.dataMean
/-- `median_time`, `DataStructure.cpp:185`. -/
def medianTime (d : DS F) : F := d.tMedian
/-- `max_time`, `DataStructure.cpp:186`. -/
def maxTime (d : DS F) : F := d.tMax

end DS

end Sacf
