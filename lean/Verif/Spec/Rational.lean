import Verif.Model.Python

/-! Rational arithmetic, used for concrete (kernel-evaluated) instances and counterexamples. -/

namespace Sacf

/-- exact arithmetic over ℚ; `float` narrowing is the identity, `exp` is replaced by a rational function
(no concrete instance below uses the Gaussian weight) -/
abbrev RQ : Rnd ℚ := Rnd.exact (10 ^ 100) id (fun x => 1 / (1 - x))

/-- rational numbers with NaN and infinities -/
abbrev Q := XF RQ

/-- a list of rationals as a list of doubles -/
def q (l : List ℚ) : List Q := l.map .fin

end Sacf
