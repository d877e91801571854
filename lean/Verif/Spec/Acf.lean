import Mathlib.Algebra.BigOperators.Group.Finset.Basic
import Mathlib.Algebra.BigOperators.Group.Finset.Piecewise
import Verif.Spec.Reach

/-!
# Specification of the statistics and of the selective autocorrelation

Written with finite sums over the samples of functions `ℕ → K`; nothing here refers to the model's helpers.
-/

namespace Sacf

open Finset

variable {K : Type} [Field K] [LinearOrder K] [IsStrictOrderedRing K]

/-- exact arithmetic (with NaN and infinities) over `K`; the value of `DBL_MAX`, the narrowing to `float` and
the exponential function are parameters -/
abbrev Exact (dm : K) (f32 ex : K → K) : Type := XF (Rnd.exact dm f32 ex)

/-- `x` is a value that rounding leaves alone (every value a program can hold is) -/
def XF.IsDouble {R : Rnd K} : XF R → Prop
  | .fin x => (XF.round x : XF R) = .fin x
  | _ => True

/-- the list of doubles `f 0, …, f (M-1)` -/
def samples {R : Rnd K} (M : ℕ) (f : ℕ → K) : List (XF R) := (List.range M).map fun i => .fin (f i)

/-- a table with one row of samples per dataset -/
def table {R : Rnd K} (N M : ℕ) (x : ℕ → ℕ → K) : List (List (XF R)) :=
  (List.range N).map fun j => samples M (x j)

/-- strictly increasing times -/
def Increasing (M : ℕ) (t : ℕ → K) : Prop := ∀ i j, i < j → j < M → t i < t j

/-- times in order, equal ones allowed -/
def InOrder (M : ℕ) (t : ℕ → K) : Prop := ∀ i j, i ≤ j → j < M → t i ≤ t j

/-- `δ` is the smallest distance between two of the times -/
def IsMinGap (M : ℕ) (t : ℕ → K) (δ : K) : Prop :=
  (∃ i j, i < j ∧ j < M ∧ t j - t i = δ) ∧ ∀ i j, i < j → j < M → δ ≤ t j - t i

/-- multiply a number by a constant; NaN and the infinities stay (meant for positive constants) -/
def XF.scale {R : Rnd K} (c : K) : XF R → XF R
  | .fin x => .fin (c * x)
  | x => x

/-- a row of values some of which are missing (NaN) -/
def obs {R : Rnd K} (M : ℕ) (x : ℕ → Option K) : List (XF R) :=
  (List.range M).map fun i => match x i with | some v => .fin v | none => .nan

/-- a table of values some of which are missing -/
def obsTable {R : Rnd K} (N M : ℕ) (x : ℕ → ℕ → Option K) : List (List (XF R)) :=
  (List.range N).map fun j => obs M (x j)

/-- arithmetic mean -/
def mean (M : ℕ) (x : ℕ → K) : K := (∑ i ∈ range M, x i) / M

/-- deviation of sample `i` from the mean -/
def dev (M : ℕ) (x : ℕ → K) (i : ℕ) : K := x i - mean M x

/-- sum of squared deviations -/
def sumSq (M : ℕ) (x : ℕ → K) : K := ∑ i ∈ range M, dev M x i ^ 2

/-- sample `j` is nearest to time `s`, the latest one if several are -/
def IsNearest (M : ℕ) (t : ℕ → K) (s : K) (j : ℕ) : Prop :=
  j < M ∧ ∀ i < M, |t j - s| < |t i - s| ∨ (|t j - s| = |t i - s| ∧ i ≤ j)

/-- the weight functions by name; `e` is the exponential function -/
def weight (e : K → K) (name : String) (α δ : K) : K :=
  if name = "gaussian" then e (-(δ ^ 2 / (2 * α ^ 2)))
  else if name = "fractional_squared" then 1 / (1 + (δ / α) ^ 2)
  else 1 / (1 + δ / α)

/-- The selective autocorrelation at lag `k`, given the selected index `s i` for every sample `i`:
the weighted sum of products of deviations over the samples whose shifted time is not beyond the last time,
divided by the normaliser `nrm`. -/
def sacf (M : ℕ) (t x : ℕ → K) (w : K → K) (s : ℕ → ℕ) (nrm k : K) : K :=
  (∑ i ∈ range M with t i + k ≤ t (M - 1),
    w |t (s i) - (t i + k)| * dev M x i * dev M x (s i)) / nrm

/-- `s i` is the nearest sample to the shifted time `t i + k`, for the samples that count -/
def Selects (M : ℕ) (t : ℕ → K) (k : K) (s : ℕ → ℕ) : Prop :=
  ∀ i < M, t i + k ≤ t (M - 1) → IsNearest M t (t i + k) (s i)

/-- `r` is what `autocorrelation` returned with natural selection and weight function `wt` for a data structure
with strictly increasing times `t` whose row `j` is `x`; the `alpha` in force is `α > 0`. -/
structure NaturalRun [FloorRing K] {dm : K} {f32 ex : K → K} (d : DS (Exact dm f32 ex)) (g : LagArgs (Exact dm f32 ex))
    (wt : String) (r : AcResult (Exact dm f32 ex)) (M : ℕ) (t : ℕ → K) (j : ℕ) (x : ℕ → K) (α : K) : Prop where
  built : Constructed d
  times : d.timeseries = samples M t
  inc : Increasing M t
  row : d.HasRow j (samples M x)
  run : autocorrelation .fabs d g "natural" wt = .ok r
  wt_known : KnownWeight wt
  alpha : r.corr.alpha = .fin α
  alpha_pos : 0 < α

/-- the same for fast selection -/
structure FastRun [FloorRing K] {dm : K} {f32 ex : K → K} (d : DS (Exact dm f32 ex)) (g : LagArgs (Exact dm f32 ex))
    (wt : String) (r : AcResult (Exact dm f32 ex)) (M : ℕ) (t : ℕ → K) (j : ℕ) (x : ℕ → K) (α : K) : Prop where
  built : Constructed d
  times : d.timeseries = samples M t
  inc : Increasing M t
  row : d.HasRow j (samples M x)
  run : autocorrelation .fabs d g "fast" wt = .ok r
  wt_known : KnownWeight wt
  alpha : r.corr.alpha = .fin α
  alpha_pos : 0 < α

/-- `b` is the first sample at or after the shifted first time -/
def FirstFrom (M : ℕ) (t : ℕ → K) (k : K) (b : ℕ) : Prop :=
  b < M ∧ t 0 + k ≤ t b ∧ ∀ j < b, t j < t 0 + k

/-- `n` samples are strictly before the last time after the shift (they are the first `n`) -/
def ShiftedCount (M : ℕ) (t : ℕ → K) (k : K) (n : ℕ) : Prop :=
  n ≤ M ∧ ∀ i < M, (i < n ↔ t i + k < t (M - 1))

/-- what fast selection computes when the first shifted time is matched with sample `b` and `n` samples count: sample
`i` is matched with `b + i`, but with sample 0 if `b + i` is not below `n` -/
def fastAcf (M : ℕ) (t x : ℕ → K) (w : K → K) (b n : ℕ) (nrm k : K) : K :=
  (∑ i ∈ range n, w |t (if b + i < n then b + i else 0) - (t i + k)| * dev M x i
    * dev M x (if b + i < n then b + i else 0)) / nrm

end Sacf
