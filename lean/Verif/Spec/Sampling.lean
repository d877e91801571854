import Verif.Spec.Gauss64

/-!
# Sampling: missing samples, nearly regular times, and the correlation with real weights
-/

namespace Sacf

open Finset

section
variable {K : Type} [Field K] [LinearOrder K] [IsStrictOrderedRing K]

/-- an upper bound of what the weight functions take off at distances up to `D` -/
def weightLoss (wt : String) (α D : K) : K :=
  if wt = "gaussian" then D ^ 2 / (2 * α ^ 2) else if wt = "fractional_squared" then (D / α) ^ 2 else D / α

/-- an upper bound of the weights at distances of `D` and more -/
def weightRest (wt : String) (α D : K) : K :=
  if wt = "gaussian" then 2 * α ^ 2 / D ^ 2 else if wt = "fractional_squared" then (α / D) ^ 2 else α / D

/-- products of deviations summed over the pairs of samples that are `m` grid steps apart; `z i` is the grid point of sample `i` -/
def pairSum (M : ℕ) (z : ℕ → ℤ) (x : ℕ → K) (m : ℤ) : K :=
  ∑ i ∈ range M, ∑ i' ∈ range M, if z i' = z i + m then dev M x i * dev M x i' else 0

/-- times that are within `η` of the regular grid `t0, t0 + δ, …` -/
def NearlyRegular (M : ℕ) (t : ℕ → K) (t0 δ η : K) : Prop := ∀ i < M, |t i - (t0 + i * δ)| ≤ η

end

variable {ex : ℚ → ℚ} {fu : Bool}

/-- `r` is what `autocorrelation` returned in binary64 with natural selection and one of the weights; for the Gaussian weight the library's `exp` is accurate -/
def Run64 (d : DS (XF (Rnd.binary64 ex fu))) (ga : LagArgs (XF (Rnd.binary64 ex fu))) (wt : String) (r : AcResult (XF (Rnd.binary64 ex fu))) (α : ℚ) (e : ℤ) : Prop :=
  (autocorrelation .fabs d ga "natural" wt = .ok r ∧ r.corr.alpha = .fin α ∧ pow2 (e - 400) ≤ α ∧ (wt = "fractional" ∨ wt = "fractional_squared")) ∨
  (wt = "gaussian" ∧ GaussRun64 d ga r α e)

/-- the correlation over the reals, at times `τ i 2^e` and the lag `k 2^e` -/
noncomputable def realAcf (M : ℕ) (τ : ℕ → ℤ) (e : ℤ) (x : ℕ → ℚ) (wt : String) (α : ℚ) (s : ℕ → ℕ) (k : ℤ) : ℝ :=
  sacf M (fun i => ((τ i * pow2 e : ℚ) : ℝ)) (fun i => (x i : ℝ)) (weight Real.exp wt (α : ℝ)) s (sumSq M fun i => (x i : ℝ)) ((k * pow2 e : ℚ) : ℝ)

end Sacf
