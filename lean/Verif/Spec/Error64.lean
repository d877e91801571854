import Verif.Spec.Error
import Verif.Spec.Reach
import Verif.Model.Binary64

/-!
# Inputs for which the binary64 error bound holds
-/

namespace Sacf

variable {ex : ℚ → ℚ} {fu : Bool}

/-- the `M ≤ 2^29` time stamps are the increasing multiples `τ i · 2^e` of a power of two -/
structure Times64 (d : DS (XF (Rnd.binary64 ex fu))) (M : ℕ) (τ : ℕ → ℤ) (e : ℤ) : Prop where
  built : Constructed d
  times : d.timeseries = samples M fun i => (τ i : ℚ) * pow2 e
  inc : IncreasingZ M τ
  one_le : 1 ≤ M
  le : M ≤ 2 ^ 29
  emin : -1074 ≤ e
  emax : e ≤ 970

/-- row `j` is `x`, the values are at most `A`, between `FLT_MIN` and `2^127`, in size, and the error unit `V` is at least `M 2^-53`,
and at least `2^-24` unless all values are `float`s; the values are not too close to a constant -/
structure Values64 (d : DS (XF (Rnd.binary64 ex fu))) (M j : ℕ) (x : ℕ → ℚ) (A V : ℚ) : Prop where
  row : d.HasRow j (samples M x)
  bound : ∀ i < M, |x i| ≤ A
  amin : pow2 (-126) ≤ A
  amax : A ≤ pow2 127
  unit : M * pow2 (-53) ≤ V
  small : 100 * V ≤ 1
  float : pow2 (-24) ≤ V ∨ ∀ i < M, roundTo 24 (-149) (x i) = x i
  spread : 122 * V * (M * A ^ 2) ≤ sumSq M x

/-- regular times: `M` multiples of `2^e`, `p` apart, from `a` on, and at most `2^51 2^e` long -/
structure Regular64 (d : DS (XF (Rnd.binary64 ex fu))) (M : ℕ) (a p e : ℤ) : Prop where
  built : Constructed d
  times : d.timeseries = samples M fun i => ((a + i * p : ℤ) : ℚ) * pow2 e
  step : 0 < p
  emin : -1073 ≤ e
  emax : e ≤ 970
  two_le : 2 ≤ M
  le : M ≤ 2 ^ 29
  span : M * p ≤ 2 ^ 51

end Sacf
