import Verif.Spec.Acf

/-!
# Times that are multiples of a unit, and sums as a floating-point unit computes them
-/

namespace Sacf

variable {K : Type} [Field K] [LinearOrder K] [IsStrictOrderedRing K] [FloorRing K]

/-- all multiples `n g` of the unit `g` with `|n| ≤ B` are doubles, and `B g` is at most `DBL_MAX`.
In binary64: `g` a power of two and `B = 2^53`. -/
structure ExactUnit (R : Rnd K) (g : K) (B : ℤ) : Prop where
  pos : 0 < g
  exact : ∀ n : ℤ, |n| ≤ B → (XF.round (n * g) : XF R) = .fin (n * g)
  le_max : B * g ≤ R.dblMax

/-- integer time stamps in increasing order -/
def IncreasingZ (M : ℕ) (τ : ℕ → ℤ) : Prop := ∀ i j, i < j → j < M → τ i < τ j

/-- `δ` is the smallest distance of two time stamps -/
def IsMinGapZ (M : ℕ) (τ : ℕ → ℤ) (δ : ℤ) : Prop :=
  (∃ i j, i < j ∧ j < M ∧ τ j - τ i = δ) ∧ ∀ i j, i < j → j < M → δ ≤ τ j - τ i

section lawfree
variable {F : Type} [Arith F]

/-- `((0 + f 0) + f 1) + … + f (n-1)`, every operation rounded -/
def seqSum (f : ℕ → F) : ℕ → F
  | 0 => Arith.zero
  | n + 1 => Arith.add (seqSum f n) (f n)

/-- `((0 + f 0 * g 0) + f 1 * g 1) + …`, every operation rounded (products perhaps fused with the addition) -/
def seqDot (f g : ℕ → F) : ℕ → F
  | 0 => Arith.zero
  | n + 1 => Arith.addMul (seqDot f g n) (f n) (g n)

/-- the mean as computed from left to right (no missing values) -/
def seqMean (M : ℕ) (x : ℕ → F) : F := Arith.div (seqSum x M) (Arith.ofInt M)

/-- the computed deviation from the mean -/
def seqDev (M : ℕ) (x : ℕ → F) (i : ℕ) : F := Arith.sub (x i) (seqMean M x)

/-- the computed normaliser; the values are narrowed to `float` first -/
def seqNorm (M : ℕ) (x : ℕ → F) : F :=
  seqDot (fun i => Arith.sub (Arith.toFloat (x i)) (seqMean M x))
    (fun i => Arith.sub (Arith.toFloat (x i)) (seqMean M x)) M

/-- the three weight formulas evaluated in the arithmetic at hand -/
def fweight (name : String) (α δ : F) : F :=
  if name = "gaussian" then
    Arith.exp (Arith.div (Arith.neg (Arith.mul δ δ)) (Arith.mul (Arith.mul Arith.two α) α))
  else if name = "fractional_squared" then
    Arith.div Arith.one (Arith.addMul Arith.one (Arith.div δ α) (Arith.div δ α))
  else Arith.div Arith.one (Arith.add Arith.one (Arith.div δ α))

end lawfree

end Sacf
