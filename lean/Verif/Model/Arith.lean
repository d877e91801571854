import Mathlib.Algebra.Order.Field.Basic
import Mathlib.Algebra.Order.Floor.Ring
import Mathlib.Data.Rat.Floor

/-!
# Arithmetic

`Arith F` lists the raw operations on `double` that the code uses, without any law.
A theorem about an arbitrary `Arith F` holds for the actual binary64 arithmetic.

`XF R` is the concrete family of arithmetics used for all other theorems: NaN, the two infinities
and the elements of an ordered field `K`; each operation is the exact field operation followed by
the rounding `R.rnd` and overflow to an infinity beyond `R.maxFin`.

* `R = Rnd.exact ..` : exact (rational / real) arithmetic with NaN and infinities;
* `R = Rnd.binary64` (file `Verif/Model/Binary64.lean`): IEEE double precision.

Simplification: `XF R` has one zero (no `-0.0`).  `Verif/Model/SignedZero.lean` has the arithmetic with two zeros, and
`Verif/Props/SignedZero.lean` proves that in the modelled code the sign of a zero influences nothing but signs of zeros.
-/

namespace Sacf

/-- The operations on `double` used by `DataStructure.cpp` and `Correlator.cpp`. -/
class Arith (F : Type) where
  zero : F
  one : F
  two : F
  /-- `DBL_MAX`, `sacf/correlator/Correlator.cpp:12` -/
  dblMax : F
  add : F → F → F
  sub : F → F → F
  mul : F → F → F
  /-- `c + a * b` as one expression (arguments in the order `c a b`).  A compiler may contract it to a fused
  multiply-add (`-ffp-contract`), which rounds once. -/
  addMul : F → F → F → F
  div : F → F → F
  neg : F → F
  /-- `std::fabs` -/
  fabs : F → F
  /-- `a < b` (also used for `b > a`) -/
  lt : F → F → Bool
  /-- `a <= b` (also used for `b >= a`) -/
  le : F → F → Bool
  /-- `a == b` -/
  eq : F → F → Bool
  /-- `std::isnan` -/
  isNaN : F → Bool
  /-- `std::floor` -/
  floor : F → F
  /-- `exp` -/
  exp : F → F
  /-- conversion to an integer type: truncation towards zero; `none` for NaN and infinities -/
  toInt : F → Option Int
  /-- conversion from an integer type -/
  ofInt : Int → F
  /-- `(double)(float) x`, `sacf/correlator/Correlator.cpp:42` -/
  toFloat : F → F
  /-- decimal numeral `± m · 10^e` as converted by `strtod`; `none` on overflow (stream failure) -/
  ofDec : Bool → Nat → Int → Option F

/-- A rounding mode for arithmetic over the ordered field `K`. -/
structure Rnd (K : Type) [Field K] [LinearOrder K] [IsStrictOrderedRing K] where
  /-- rounding with unbounded exponent -/
  rnd : K → K
  /-- the largest finite value, `none` if unbounded -/
  maxFin : Option K
  /-- the value of `DBL_MAX` -/
  dblMax : K
  /-- rounding to `float` with unbounded exponent -/
  f32 : K → K
  /-- the largest finite `float`, `none` if unbounded -/
  maxF32 : Option K
  /-- the mathematical function computed by `exp` before rounding -/
  expK : K → K
  /-- is `c + a * b` contracted to a fused multiply-add? -/
  fused : Bool
  rnd_mono : ∀ x y, x ≤ y → rnd x ≤ rnd y
  rnd_zero : rnd 0 = 0
  rnd_one : rnd 1 = 1
  rnd_neg : ∀ x, rnd (-x) = -rnd x
  rnd_rnd : ∀ x, rnd (rnd x) = rnd x
  maxFin_ge_one : ∀ b ∈ maxFin, 1 ≤ b

/-- Extended numbers over `K` for the rounding mode `R`. -/
inductive XF {K : Type} [Field K] [LinearOrder K] [IsStrictOrderedRing K] (R : Rnd K) where
  | nan
  | ninf
  | pinf
  | fin (x : K)
deriving DecidableEq

namespace XF

variable {K : Type} [Field K] [LinearOrder K] [IsStrictOrderedRing K] [FloorRing K] {R : Rnd K}

/-- Cut a value at the largest finite number `b`. -/
def clip (b : Option K) (x : K) : XF R :=
  match b with
  | none => fin x
  | some b => if b < x then pinf else if x < -b then ninf else fin x

/-- IEEE: round, then overflow. -/
def round (x : K) : XF R := clip R.maxFin (R.rnd x)

def neg : XF R → XF R
  | nan => nan
  | ninf => pinf
  | pinf => ninf
  | fin x => fin (-x)

def add : XF R → XF R → XF R
  | fin x, fin y => round (x + y)
  | nan, _ => nan
  | _, nan => nan
  | pinf, ninf => nan
  | ninf, pinf => nan
  | pinf, _ => pinf
  | _, pinf => pinf
  | ninf, _ => ninf
  | _, ninf => ninf

def sub (a b : XF R) : XF R := add a (neg b)

/-- infinity with the sign of `x`, NaN for zero -/
def infSign (x : K) : XF R := if 0 < x then pinf else if x < 0 then ninf else nan

def mul : XF R → XF R → XF R
  | fin x, fin y => round (x * y)
  | nan, _ => nan
  | _, nan => nan
  | pinf, fin y => infSign y
  | ninf, fin y => infSign (-y)
  | fin x, pinf => infSign x
  | fin x, ninf => infSign (-x)
  | pinf, pinf => pinf
  | ninf, ninf => pinf
  | pinf, ninf => ninf
  | ninf, pinf => ninf

/-- fused multiply-add `c + a * b`: the product of finite numbers is not rounded (and cannot overflow) -/
def fma : XF R → XF R → XF R → XF R
  | fin z, fin x, fin y => round (z + x * y)
  | c, fin _, fin _ => c
  | c, a, b => add c (mul a b)

/-- `c + a * b`, contracted or not -/
def addMul (c a b : XF R) : XF R := bif R.fused then fma c a b else add c (mul a b)

/-- division; a zero divisor counts as `+0` -/
def div : XF R → XF R → XF R
  | fin x, fin y => if y = 0 then infSign x else round (x / y)
  | nan, _ => nan
  | _, nan => nan
  | pinf, fin y => if y < 0 then ninf else pinf
  | ninf, fin y => if y < 0 then pinf else ninf
  | fin _, pinf => fin 0
  | fin _, ninf => fin 0
  | pinf, pinf => nan
  | pinf, ninf => nan
  | ninf, pinf => nan
  | ninf, ninf => nan

def lt : XF R → XF R → Bool
  | fin x, fin y => decide (x < y)
  | ninf, fin _ => true
  | ninf, pinf => true
  | fin _, pinf => true
  | _, _ => false

def le : XF R → XF R → Bool
  | fin x, fin y => decide (x ≤ y)
  | ninf, ninf => true
  | ninf, fin _ => true
  | ninf, pinf => true
  | fin _, pinf => true
  | pinf, pinf => true
  | _, _ => false

def eq : XF R → XF R → Bool
  | fin x, fin y => decide (x = y)
  | ninf, ninf => true
  | pinf, pinf => true
  | _, _ => false

def isNaN : XF R → Bool
  | nan => true
  | _ => false

def fabs : XF R → XF R
  | fin x => fin |x|
  | nan => nan
  | ninf => pinf
  | pinf => pinf

def floor : XF R → XF R
  | fin x => fin (⌊x⌋ : Int)
  | x => x

/-- truncation towards zero -/
def toInt : XF R → Option Int
  | fin x => some (if 0 ≤ x then ⌊x⌋ else ⌈x⌉)
  | _ => none

def exp : XF R → XF R
  | fin x => round (R.expK x)
  | nan => nan
  | ninf => fin 0
  | pinf => pinf

def toFloat : XF R → XF R
  | fin x => clip R.maxF32 (R.f32 x)
  | x => x

def ofDec (neg : Bool) (m : Nat) (e : Int) : Option (XF R) :=
  match (round ((if neg then -1 else 1) * (m : K) * (10 : K) ^ e) : XF R) with
  | fin x => some (fin x)
  | _ => none

instance : Arith (XF R) where
  zero := fin 0
  one := fin 1
  two := fin 2
  dblMax := fin R.dblMax
  add := add
  sub := sub
  mul := mul
  addMul := addMul
  div := div
  neg := neg
  fabs := fabs
  lt := lt
  le := le
  eq := eq
  isNaN := isNaN
  floor := floor
  exp := exp
  toInt := toInt
  ofInt n := round (n : K)
  toFloat := toFloat
  ofDec := ofDec

end XF

/-- Exact arithmetic: no rounding, no overflow (so that contraction makes no difference).  `DBL_MAX`, the narrowing to `float` and `exp` stay
parameters, so that theorems can say what they need of them. -/
def Rnd.exact {K : Type} [Field K] [LinearOrder K] [IsStrictOrderedRing K]
    (dblMax : K) (f32 : K → K) (expK : K → K) : Rnd K where
  rnd x := x
  maxFin := none
  dblMax := dblMax
  f32 := f32
  maxF32 := none
  expK := expK
  fused := false
  rnd_mono := fun _ _ h => h
  rnd_zero := rfl
  rnd_one := rfl
  rnd_neg := fun _ => rfl
  rnd_rnd := fun _ => rfl
  maxFin_ge_one := by simp

end Sacf
