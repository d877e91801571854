import Verif.Model.Arith

/-!
# Arithmetic with two zeros

`XF R` has one zero.  `SZ R` adds the sign of zero and follows the sign rules of IEEE 754 section 6.3: a product or
quotient is negative when exactly one operand is, a sum of zeros is `-0` only if both are, `x - x = +0`, `fabs` clears the
sign, `floor` and the narrowing to `float` keep it, a division by `-0` gives the infinity of the opposite sign, and
comparisons do not see it.  `Props/SignedZero.lean` proves that the modelled code never turns a difference in the sign
of a zero into anything else, which justifies the use of `XF R` everywhere else.
-/

namespace Sacf

variable {K : Type} [Field K] [LinearOrder K] [IsStrictOrderedRing K] [FloorRing K]

/-- An extended number, with a flag that marks `-0`. -/
structure SZ (R : Rnd K) where
  val : XF R
  /-- true exactly for `-0` (see `SZ.mk'`) -/
  nz : Bool
deriving DecidableEq

namespace SZ
variable {R : Rnd K}

/-- the value `v`, with sign bit `z` in case it is a zero -/
def mk' (v : XF R) (z : Bool) : SZ R := ⟨v, z && decide (v = .fin 0)⟩

/-- the sign bit (`false` for NaN) -/
def sgn (a : SZ R) : Bool :=
  match a.val with
  | .nan => false
  | .ninf => true
  | .pinf => false
  | .fin x => if x = 0 then a.nz else decide (x < 0)

def neg (a : SZ R) : SZ R := mk' (XF.neg a.val) (!a.sgn)
def add (a b : SZ R) : SZ R := mk' (XF.add a.val b.val) (a.sgn && b.sgn)
def sub (a b : SZ R) : SZ R := add a (neg b)
def mul (a b : SZ R) : SZ R := mk' (XF.mul a.val b.val) (a.sgn != b.sgn)

/-- sign bit of `c + a * b` in case the result is a zero: a fused sum that underflows keeps the sign of its exact value -/
def addMulSgn (c a b : SZ R) : Bool :=
  match c.val, a.val, b.val with
  | .fin z, .fin x, .fin y =>
    if R.fused = true ∧ z + x * y ≠ 0 then decide (z + x * y < 0) else c.sgn && (a.sgn != b.sgn)
  | _, _, _ => c.sgn && (a.sgn != b.sgn)

def addMul (c a b : SZ R) : SZ R := mk' (XF.addMul c.val a.val b.val) (addMulSgn c a b)

/-- is it `-0`? -/
def isNegZero (a : SZ R) : Bool := a.nz && decide (a.val = .fin 0)

def div (a b : SZ R) : SZ R :=
  mk' (if b.isNegZero then XF.neg (XF.div a.val (.fin 0)) else XF.div a.val b.val) (a.sgn != b.sgn)

instance : Arith (SZ R) where
  zero := mk' (.fin 0) false
  one := mk' (.fin 1) false
  two := mk' (.fin 2) false
  dblMax := mk' (.fin R.dblMax) false
  add := add
  sub := sub
  mul := mul
  addMul := addMul
  div := div
  neg := neg
  fabs a := mk' (XF.fabs a.val) false
  lt a b := XF.lt a.val b.val
  le a b := XF.le a.val b.val
  eq a b := XF.eq a.val b.val
  isNaN a := XF.isNaN a.val
  floor a := mk' (XF.floor a.val) a.sgn
  exp a := mk' (XF.exp a.val) false
  toInt a := XF.toInt a.val
  ofInt n := mk' (XF.round (n : K)) false
  toFloat a := mk' (XF.toFloat a.val) a.sgn
  ofDec s m e := (XF.ofDec s m e).map fun v => mk' v s

end SZ

end Sacf
