import Verif.Spec.Acf

/-!
# What the code computes when `abs` is the integer function

With `int abs(int)` a distance is truncated to its whole part before it is compared or weighted.
-/

namespace Sacf

open Finset

variable {K : Type} [Field K] [LinearOrder K] [IsStrictOrderedRing K] [FloorRing K]

/-- sample `r` is the first one at or after time `s` -/
def FirstAfter (M : ℕ) (t : ℕ → K) (s : K) (r : ℕ) : Prop := r < M ∧ s ≤ t r ∧ ∀ i < r, t i < s

/-- sample `j` is chosen for time `s`: the first sample at or after `s`, unless the sample before it is closer by
whole units -/
def IsNearestWhole (M : ℕ) (t : ℕ → K) (s : K) (j : ℕ) : Prop :=
  ∃ r, FirstAfter M t s r ∧
    ((0 < r ∧ ⌊|s - t (r - 1)|⌋ < ⌊|s - t r|⌋ ∧ j = r - 1) ∨
     ((r = 0 ∨ ⌊|s - t r|⌋ ≤ ⌊|s - t (r - 1)|⌋) ∧ j = r))

/-- `s i` is chosen for the shifted time `t i + k`, for the samples that count -/
def SelectsWhole (M : ℕ) (t : ℕ → K) (k : K) (s : ℕ → ℕ) : Prop :=
  ∀ i < M, t i + k ≤ t (M - 1) → IsNearestWhole M t (t i + k) (s i)

/-- the correlation with distances truncated to whole units -/
def sacfWhole (M : ℕ) (t x : ℕ → K) (w : K → K) (s : ℕ → ℕ) (nrm k : K) : K :=
  (∑ i ∈ range M with t i + k ≤ t (M - 1),
    w (⌊|t (s i) - (t i + k)|⌋ : ℤ) * dev M x i * dev M x (s i)) / nrm

/-- as `NaturalRun`, for `int abs(int)` -/
structure IntAbsRun {dm : K} {f32 ex : K → K} (d : DS (Exact dm f32 ex)) (g : LagArgs (Exact dm f32 ex))
    (wt : String) (r : AcResult (Exact dm f32 ex)) (M : ℕ) (t : ℕ → K) (j : ℕ) (x : ℕ → K) (α : K) : Prop where
  built : Constructed d
  times : d.timeseries = samples M t
  inc : Increasing M t
  row : d.HasRow j (samples M x)
  run : autocorrelation .intAbs d g "natural" wt = .ok r
  wt_known : KnownWeight wt
  alpha : r.corr.alpha = .fin α
  alpha_pos : 0 < α

end Sacf
