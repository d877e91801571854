import Verif.Spec.Units

/-!
# Accuracy of a floating-point format
-/

namespace Sacf

variable {K : Type} [Field K] [LinearOrder K] [IsStrictOrderedRing K] [FloorRing K]

/-- the standard model of rounding: up to `big` in absolute value the result is finite, with relative error at most `u`
and an extra absolute error `η` (from underflow).  In binary64: `u = 2^-53`, `η = 2^-1075`. -/
structure Accurate (R : Rnd K) (u η big : K) : Prop where
  u_nonneg : 0 ≤ u
  η_nonneg : 0 ≤ η
  round : ∀ x : K, |x| ≤ big → ∃ y : K, (XF.round x : XF R) = .fin y ∧ |y - x| ≤ u * |x| + η

/-- the computed number `z` is finite and within `e` of `x` -/
def Near {R : Rnd K} (z : XF R) (x e : K) : Prop := ∃ y : K, z = .fin y ∧ |y - x| ≤ e

/-- `M` values of size at most `A`, in a format of accuracy `u` and `η`: nothing overflows, no underflow that matters, and
`M` is small compared with `1/u`.  `V` bounds both the accumulated error `u M` and the narrowing to `float`. -/
structure Moderate (R : Rnd K) (u η big V A : K) (M : ℕ) : Prop where
  acc : Accurate R u η big
  one_le : 1 ≤ M
  count : (XF.round (M : K) : XF R) = .fin M
  pos : 0 < A
  uM : u * M ≤ V
  V_le : 100 * V ≤ 1
  under1 : η ≤ u
  underA : η ≤ u * A
  underAA : η ≤ u * A ^ 2
  underM : η * (M * A ^ 2) ≤ u
  overA : 4 * M * A ≤ big
  overAA : 12 * M * A ^ 2 ≤ big

/-- what the error bound needs to know about the exponential function on negative arguments: values between 0 and 1, changing by at most
the absolute, and by at most the relative, change of the argument, up to `σ`.  (`exp` has these properties with `σ = 0`, and so has every
function whose values are between 0 and 1 and within `σ / 2` of `exp`.) -/
structure ExpLike (e : K → K) (σ : K) : Prop where
  range : ∀ x ≤ 0, 0 ≤ e x ∧ e x ≤ 1
  lip : ∀ x ≤ 0, ∀ y ≤ 0, |e y - e x| ≤ |y - x| + σ
  rel : ∀ x ≤ 0, ∀ y ≤ 0, ∀ ε : K, 0 ≤ ε → 2 * ε ≤ 1 → |y - x| ≤ ε * |x| → |e y - e x| ≤ ε + σ

end Sacf
