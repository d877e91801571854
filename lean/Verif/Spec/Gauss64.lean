import Verif.Spec.Error64
import Verif.Model.Python
import Mathlib.Analysis.Complex.Exponential
import Mathlib.Data.Rat.Cast.CharZero

/-!
# Calls with the Gaussian weight in binary64
-/

namespace Sacf

variable {ex : ℚ → ℚ} {fu : Bool}

/-- `r` is what `autocorrelation` returned with natural selection and the Gaussian weight; the time scale is `α`, between `2^-500` and `2^500` and not below
`2^(e - 400)`; the library's `exp` errs by at most `2^-53` on negative arguments -/
structure GaussRun64 (d : DS (XF (Rnd.binary64 ex fu))) (ga : LagArgs (XF (Rnd.binary64 ex fu))) (r : AcResult (XF (Rnd.binary64 ex fu))) (α : ℚ) (e : ℤ) : Prop where
  run : autocorrelation .fabs d ga "natural" "gaussian" = .ok r
  alpha : r.corr.alpha = .fin α
  scale : pow2 (e - 400) ≤ α
  lower : pow2 (-500) ≤ α
  upper : α ≤ pow2 500
  emax : e ≤ 458
  lib : ∀ x : ℚ, x ≤ 0 → |(ex x : ℝ) - Real.exp x| ≤ (pow2 (-53) : ℚ)

/-- the correlation with the real exponential, at times `τ i 2^e` and the lag `k 2^e` -/
noncomputable def gaussAcf (M : ℕ) (τ : ℕ → ℤ) (e : ℤ) (x : ℕ → ℚ) (α : ℚ) (s : ℕ → ℕ) (k : ℤ) : ℝ :=
  sacf M (fun i => ((τ i * pow2 e : ℚ) : ℝ)) (fun i => (x i : ℝ)) (weight Real.exp "gaussian" (α : ℝ)) s (sumSq M fun i => (x i : ℝ)) ((k * pow2 e : ℚ) : ℝ)

end Sacf
