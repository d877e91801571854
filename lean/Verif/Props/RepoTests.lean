import Verif.Props.Binary
import Verif.Props.PyArgs
import Verif.Model.Session

/-!
# The test suite of the repository, run on the model

`/repo/tests/sacf_test.py` in binary64, evaluated by the kernel: construction from lists, tables and the data files of the test
directory, the attributes, and the results of `autocorrelation`.  These are tests of the model, not proofs of properties.
-/

namespace Sacf.RepoTests

open Sacf Arith

/-- a list of `int`s as Python argument -/
def ints (l : List ℤ) : PyVal B := .list (l.map fun n => .int (some (ofInt n)))
/-- a list of `float`s, or a numpy array -/
def floats (l : List ℚ) : PyVal B := .list ((b l).map .float)
/-- the array `[0., 1., 2., 3., 4., nan]` -/
def withNan : PyVal B := .list ((b [0, 1, 2, 3, 4] ++ [(XF.nan : B)]).map .float)
/-- `[0, 1, 2, 3, 4, 4]` as a numpy array of integers -/
def ints4 : PyVal B := ints [0, 1, 2, 3, 4, 4]

/-- the object, reduced to what a test looks at -/
def look {α : Type} (r : Res (DS B)) (f : DS B → α) : Res α := r.bind fun d => .ok (f d)

/-! ## `TestDataStructure`, `sacf_test.py:22-306` -/

/-- `test_import_integer_lists` -/
example : look (pyDS2 (ints [0, 1, 2, 3, 4]) (ints [0, 1, 2, 3, 4])) (fun _ => ())
    = .ok () := by decide +kernel
/-- `test_import_float_lists` -/
example : look (pyDS2 (floats [0, 1, 2, 3, 4]) (floats [0, 1, 2, 3, 4])) (fun _ => ())
    = .ok () := by decide +kernel
/-- `test_import_empty_list` -/
example : look (pyDS2 (ints []) (ints [])) (fun _ => ())
    = .exn .emptyDataStructure := by decide +kernel
/-- `test_import_numpy_float_array_with_nan` -/
example : look (pyDS2 withNan withNan) (fun _ => ())
    = .ok () := by decide +kernel
/-- `test_uneven_lists` -/
example : look (pyDS2 (ints [0, 1, 2]) (ints [0, 1, 2, 3, 4])) (fun _ => ())
    = .exn .badDataInput := by decide +kernel
/-- `test_uneven_lists2` -/
example : look (pyDS2 (ints [0, 1, 2, 3, 4]) (ints [0, 1, 2])) (fun _ => ())
    = .exn .badDataInput := by decide +kernel
/-- `test_import_integer_lists_with_err` -/
example : look (pyDS3 (ints [0, 1, 2, 3, 4]) (ints [0, 1, 2, 3, 4]) (ints [0, 1, 2, 3, 4])) (fun _ => ())
    = .ok () := by decide +kernel
/-- `test_import_float_lists_with_err` -/
example : look (pyDS3 (floats [0, 1, 2, 3, 4]) (floats [0, 1, 2, 3, 4]) (floats [0, 1, 2, 3, 4])) (fun _ => ())
    = .ok () := by decide +kernel
/-- `test_import_numpy_float_array_with_nan_with_err` -/
example : look (pyDS3 withNan withNan withNan) (fun _ => ())
    = .ok () := by decide +kernel
/-- `test_import_empty_list_with_err` -/
example : look (pyDS3 (ints []) (ints []) (ints [])) (fun _ => ())
    = .exn .emptyDataStructure := by decide +kernel
/-- `test_data` -/
example : (pyDS2 (ints [0, 1, 2, 3, 4]) (ints [10, 11, 12, 13, 14])).bind DS.data2d
    = .ok [b [10, 11, 12, 13, 14]] := by decide +kernel
/-- `test_data_2d` -/
example : (pyDS2 (ints [0, 1, 2, 3, 4]) (.list [ints [10, 11, 12, 13, 14], ints [0, 1, 2, 3, 4]])).bind DS.data2d
    = .ok [b [10, 11, 12, 13, 14], b [0, 1, 2, 3, 4]] := by decide +kernel
/-- `test_timeseries` -/
example : look (pyDS2 (ints [10, 11, 12, 13, 14]) (ints [0, 1, 2, 3, 4])) DS.timeseries
    = .ok (b [10, 11, 12, 13, 14]) := by decide +kernel
/-- `test_errors_empty` -/
example : (pyDS2 (ints [10, 11, 12, 13, 14]) (ints [0, 1, 2, 3, 4])).bind DS.err2d
    = .ok [] := by decide +kernel
/-- `test_errors` -/
example : (pyDS3 (ints [0, 1, 2, 3, 4]) (ints [0, 1, 2, 3, 4]) (ints [10, 11, 12, 13, 14])).bind DS.err2d
    = .ok [b [10, 11, 12, 13, 14]] := by decide +kernel
/-- `test_normalised_data` -/
example : (pyDS2 (ints [0, 1, 2, 3, 4]) (ints [10, 11, 12, 13, 14])).bind DS.normData2d
    = .ok [b [-2, -1, 0, 1, 2]] := by decide +kernel
/-- `test_normalised_timeseries` -/
example : look (pyDS2 (ints [10, 11, 12, 13, 14]) (ints [0, 1, 2, 3, 4])) DS.normalisedTimeseries
    = .ok (b [0, 1, 2, 3, 4]) := by decide +kernel
/-- `test_mean_data` -/
example : look (pyDS2 (ints [0, 1, 2, 3, 4]) (ints [10, 11, 12, 13, 14])) DS.meanData
    = .ok (b [12]) := by decide +kernel
/-- `test_mean_data_nan` -/
example : look (pyDS2 ints4 withNan) DS.meanData
    = .ok (b [2]) := by decide +kernel
/-- `test_median_time` -/
example : look (pyDS2 (floats [0, 1, 2, 3, 4]) (ints [0, 1, 2, 3, 4])) (fun d => [d.medianTime])
    = .ok (b [2]) := by decide +kernel
/-- `test_median_time_nan` -/
example : look (pyDS2 withNan ints4) (fun d => [d.medianTime])
    = .ok (b [5/2]) := by decide +kernel
/-- `test_max_time` -/
example : look (pyDS2 (floats [0, 1, 2, 3, 4]) (ints [0, 1, 2, 3, 4])) (fun d => [d.maxTime])
    = .ok (b [4]) := by decide +kernel

/-! ### the data files of `/repo/tests` -/

/-- the contents of `tests/csv_no_titles.csv` -/
def csvNoTitles : List Char := "0,0\n1,1\n2,2\n3,3\n4,4".toList
/-- `csv_no_titles.csv` -/
example : look (mkFile (some csvNoTitles)) (fun d => (d.timeseries, d.data2d, d.err2d))
    = .ok (b [0, 1, 2, 3, 4], .ok [b [0, 1, 2, 3, 4]], .ok []) := by decide +kernel
/-- the contents of `tests/csv_no_titles_with_err.csv` -/
def csvNoTitlesWithErr : List Char := "0,0,0\n1,1,1\n2,2,2\n3,3,3\n4,4,4".toList
/-- `csv_no_titles_with_err.csv` -/
example : look (mkFile (some csvNoTitlesWithErr)) (fun d => (d.timeseries, d.data2d, d.err2d))
    = .ok (b [0, 1, 2, 3, 4], .ok [b [0, 1, 2, 3, 4]], .ok [b [0, 1, 2, 3, 4]]) := by decide +kernel
/-- the contents of `tests/csv_with_titles.csv` -/
def csvWithTitles : List Char := "time,value\n0   ,0\n1   ,1\n2   ,2\n3   ,3\n4   ,4".toList
/-- `csv_with_titles.csv` -/
example : look (mkFile (some csvWithTitles)) (fun d => (d.timeseries, d.data2d, d.err2d))
    = .ok (b [0, 1, 2, 3, 4], .ok [b [0, 1, 2, 3, 4]], .ok []) := by decide +kernel
/-- the contents of `tests/csv_with_titles_commented.csv` -/
def csvWithTitlesCommented : List Char := "#time,value\n0    ,0\n1    ,1\n2    ,2\n3    ,3\n4    ,4".toList
/-- `csv_with_titles_commented.csv` -/
example : look (mkFile (some csvWithTitlesCommented)) (fun d => (d.timeseries, d.data2d, d.err2d))
    = .ok (b [0, 1, 2, 3, 4], .ok [b [0, 1, 2, 3, 4]], .ok []) := by decide +kernel
/-- the contents of `tests/csv_with_titles_with_err.csv` -/
def csvWithTitlesWithErr : List Char := "time,value,err\n0   ,0    ,0\n1   ,1    ,1\n2   ,2    ,2\n3   ,3    ,3\n4   ,4    ,4".toList
/-- `csv_with_titles_with_err.csv` -/
example : look (mkFile (some csvWithTitlesWithErr)) (fun d => (d.timeseries, d.data2d, d.err2d))
    = .ok (b [0, 1, 2, 3, 4], .ok [b [0, 1, 2, 3, 4]], .ok [b [0, 1, 2, 3, 4]]) := by decide +kernel
/-- the contents of `tests/tab_delim_no_titles.txt` -/
def tabDelimNoTitles : List Char := "0\t0\n1\t1\n2\t2\n3\t3\n4\t4\n\n".toList
/-- `tab_delim_no_titles.txt` -/
example : look (mkFile (some tabDelimNoTitles)) (fun d => (d.timeseries, d.data2d, d.err2d))
    = .ok (b [0, 1, 2, 3, 4], .ok [b [0, 1, 2, 3, 4]], .ok []) := by decide +kernel
/-- the contents of `tests/tab_delim_no_titles_with_err.txt` -/
def tabDelimNoTitlesWithErr : List Char := "0\t0   0\n1\t1   1\n2\t2   2\n3\t3   3\n4\t4   4\n\n".toList
/-- `tab_delim_no_titles_with_err.txt` -/
example : look (mkFile (some tabDelimNoTitlesWithErr)) (fun d => (d.timeseries, d.data2d, d.err2d))
    = .ok (b [0, 1, 2, 3, 4], .ok [b [0, 1, 2, 3, 4]], .ok [b [0, 1, 2, 3, 4]]) := by decide +kernel
/-- the contents of `tests/tab_delim_with_titles.txt` -/
def tabDelimWithTitles : List Char := "time\tvalue\n0\t0\n1\t1\n2\t2\n3\t3\n4\t4\n\n".toList
/-- `tab_delim_with_titles.txt` -/
example : look (mkFile (some tabDelimWithTitles)) (fun d => (d.timeseries, d.data2d, d.err2d))
    = .ok (b [0, 1, 2, 3, 4], .ok [b [0, 1, 2, 3, 4]], .ok []) := by decide +kernel
/-- the contents of `tests/tab_delim_with_titles_commented.txt` -/
def tabDelimWithTitlesCommented : List Char := "#\ttime\tvalue\n0\t0\n1\t1\n2\t2\n3\t3\n4\t4\n\n".toList
/-- `tab_delim_with_titles_commented.txt` -/
example : look (mkFile (some tabDelimWithTitlesCommented)) (fun d => (d.timeseries, d.data2d, d.err2d))
    = .ok (b [0, 1, 2, 3, 4], .ok [b [0, 1, 2, 3, 4]], .ok []) := by decide +kernel
/-- the contents of `tests/tab_delim_with_titles_with_err.txt` -/
def tabDelimWithTitlesWithErr : List Char := "time\tvalue   err\n0\t0   0\n1\t1   1\n2\t2   2\n3\t3   3\n4\t4   NaN\n\n".toList
/-- The last line of this file ends in `NaN`, which `>>` does not read: there are four errors for five values, and `errors()`, which
the test does not call, reads beyond them (C09, C14). -/
example : look (mkFile (some tabDelimWithTitlesWithErr)) (fun d => (d.timeseries, d.data2d, d.err2d))
    = .ok (b [0, 1, 2, 3, 4], .ok [b [0, 1, 2, 3, 4]], .ub) := by decide +kernel

/-! ## `TestCorrelator`, `sacf_test.py:309-397` -/

/-- `ds1` -/
def ds1 : Res (DS B) := pyDS2 (ints [0, 1, 2, 3, 4]) (ints [0, 1, 0, -1, 0])

/-- `test_setup_correlator`, `test_default_max_lag`, `test_default_lag_resolution`, `test_default_alpha` -/
example : (ds1.bind Corr.new).bind (fun c => .ok [c.getMaxLag, c.getLagResolution, c.getAlpha])
    = .ok (b [4, 1, 2]) := by decide +kernel
/-- `ds2`, with a NaN in the second dataset -/
example : ((pyDS2 (ints [0, 1, 2, 3, 4]) (.list [ints [0, 1, 0, -1, 0], .list ((b [0, 1, 2, 1] ++ [(XF.nan : B)]).map .float)])).bind Corr.new).bind
      (fun c => .ok [c.nDatasets, c.mDatapoints]) = .ok (b [2, 5]) := by decide +kernel
/-- `test_alter_max_lag`, `test_alter_min_lag`, `test_alter_lag_resolution`, `test_alter_alpha` -/
example : (ds1.bind Corr.new).bind (fun c =>
      (runSession .fabs c [.setMaxLag (.int (some (ofInt 100))), .setMinLag (.int (some (ofInt (-100)))),
        .setLagResolution (.int (some (ofInt 100))), .setAlpha (.int (some (ofInt 100)))]).bind fun p =>
      .ok [p.1.getMaxLag, p.1.getMinLag, p.1.getLagResolution, p.1.getAlpha])
    = .ok (b [100, -100, 100, 100]) := by decide +kernel

/-! ## `TestSACF`, `sacf_test.py:400-525` -/

/-- `SACF(t, v).autocorrelation(...)` -/
def ac (t v : PyVal B) (minLag lagRes : PyVal B := .none) (sel wt : String) (ret : PyVal B := .none) :
    Res (List B × CorrOut B) :=
  (pyInit (fun _ => none) t v .none .none).bind fun d =>
  (anyAutocorrelation .fabs d minLag .none lagRes .none (.str sel) (.str wt) ret).bind fun r =>
  .ok (match r with | .pair l c => (l, c) | .triple l c _ => (l, c))

/-- `test_SACF_correlation` -/
example : ac (ints [0, 1, 2, 3, 4]) (ints [0, 1, 0, -1, 0]) (sel := "natural") (wt := "fractional")
    = .ok (b [-4, -3, -2, -1, 0, 1, 2, 3, 4], .flat (b [0, 0, -1/2, 0, 1, 0, -1/2, 0, 0])) := by decide +kernel
/-- `test_SACF_correlation_return_corr` -/
example : ac (ints [0, 1, 2, 3, 4]) (ints [0, 1, 0, -1, 0]) (sel := "natural") (wt := "fractional") (ret := .int (some (ofInt 1)))
    = .ok (b [-4, -3, -2, -1, 0, 1, 2, 3, 4], .flat (b [0, 0, -1/2, 0, 1, 0, -1/2, 0, 0])) := by decide +kernel
/-- `test_simple_correlation` -/
example : ac (ints [0, 1, 2, 3, 4]) (ints [0, 1, 0, -1, 0]) (minLag := .int (some (ofInt 0))) (sel := "natural") (wt := "fractional")
    = .ok (b [0, 1, 2, 3, 4], .flat (b [1, 0, -1/2, 0, 0])) := by decide +kernel
/-- `test_two_correlation` -/
example : ac (ints [0, 1, 2, 3, 4]) (.list [ints [0, 1, 0, -1, 0], ints [0, 1, 0, -1, 0]]) (minLag := .int (some (ofInt 0))) (sel := "natural")
      (wt := "fractional")
    = .ok (b [0, 1, 2, 3, 4], .table [b [1, 0, -1/2, 0, 0], b [1, 0, -1/2, 0, 0]]) := by decide +kernel
/-- `test_add_zero_lag` -/
example : (ac (ints [0, 1, 2, 3, 4]) (ints [0, 1, 0, -1, 0]) (lagRes := .float (.fin (3/2))) (sel := "natural") (wt := "fractional")).bind (fun r => .ok r.1)
    = .ok (b [-4, -5/2, -1, 0, 1/2, 2, 7/2]) := by decide +kernel
/-- `test_specified_function_autocorrelation_gaussian` -/
example : ac (ints [0, 1, 2, 3, 4]) (ints [0, 1, 0, -1, 0]) (sel := "natural") (wt := "gaussian")
    = .ok (b [-4, -3, -2, -1, 0, 1, 2, 3, 4], .flat (b [0, 0, -1/2, 0, 1, 0, -1/2, 0, 0])) := by decide +kernel
/-- `test_specified_function_autocorrelation_fractional_squared` -/
example : ac (ints [0, 1, 2, 3, 4]) (ints [0, 1, 0, -1, 0]) (sel := "natural") (wt := "fractional_squared")
    = .ok (b [-4, -3, -2, -1, 0, 1, 2, 3, 4], .flat (b [0, 0, -1/2, 0, 1, 0, -1/2, 0, 0])) := by decide +kernel
/-- `test_specified_function_autocorrelation_fast`: the lags are those, the correlations are not -/
example : (ac (ints [0, 1, 2, 3, 4]) (ints [0, 1, 0, -1, 0]) (sel := "fast") (wt := "fractional")).bind
      (fun r => .ok (r.1, decide (r.2 = .flat (b [0, 0, -1/2, 0, 1, 0, -1/2, 0, 0])))) = .ok (b [-4, -3, -2, -1, 0, 1, 2, 3, 4], false) := by decide +kernel

end Sacf.RepoTests
