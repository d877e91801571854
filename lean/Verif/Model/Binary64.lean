import Verif.Model.Arith
import Mathlib.Algebra.Order.Floor.Ring
import Mathlib.Data.Rat.Floor
import Mathlib.Tactic.Linarith
import Mathlib.Tactic.Ring
import Mathlib.Tactic.Positivity
import Mathlib.Tactic.FieldSimp
import Mathlib.Tactic.NormNum
import Mathlib.Tactic.Push
import Mathlib.Algebra.Order.Field.Power

/-!
# IEEE 754 rounding

Round to nearest, ties to even, with `p` significant bits and least exponent `emin` (subnormal
numbers included), on rational numbers.  `binary64` is the arithmetic of `double` and `float` on the
platforms the package is built for (the C++ standard leaves the format to the platform).

Simplification: one zero (see `Arith.lean`); `exp` is a parameter (the C library's function is not
specified to be correctly rounded).
-/

namespace Sacf

/-- `2 ^ e` -/
def pow2 : Int → ℚ
  | .ofNat n => ((2 ^ n : Nat) : ℚ)
  | .negSucc n => mkRat 1 (2 ^ (n + 1))

/-- the exponent of the leading bit of `x > 0` -/
def ilog2 (x : ℚ) : Int :=
  let e : Int := (Nat.log2 x.num.natAbs : Int) - Nat.log2 x.den
  if pow2 e ≤ x then e else e - 1

/-- nearest integer, ties to even -/
def roundEven (x : ℚ) : Int :=
  let f := ⌊x⌋
  if x - f < 1 / 2 then f else if 1 / 2 < x - f then f + 1 else if f % 2 = 0 then f else f + 1

/-- exponent of the last place of numbers of the size of `x` -/
def lastPlace (p : Nat) (emin : Int) (x : ℚ) : Int := max (ilog2 |x| - (p - 1 : Int)) emin

/-- rounding to `p` bits, unbounded above -/
def roundTo (p : Nat) (emin : Int) (x : ℚ) : ℚ :=
  if x = 0 then 0 else roundEven (x / pow2 (lastPlace p emin x)) * pow2 (lastPlace p emin x)

theorem pow2_eq (e : Int) : pow2 e = (2 : ℚ) ^ e := by
  cases e with
  | ofNat n => simp [pow2]
  | negSucc n => simp [pow2, Rat.mkRat_eq_div, zpow_negSucc]

theorem pow2_pos (e : Int) : 0 < pow2 e := by rw [pow2_eq]; positivity

theorem pow2_add (a b : Int) : pow2 (a + b) = pow2 a * pow2 b := by
  simp only [pow2_eq]; exact zpow_add₀ (by norm_num) _ _

theorem pow2_mono {a b : Int} (h : a ≤ b) : pow2 a ≤ pow2 b := by
  simp only [pow2_eq]; exact zpow_le_zpow_right₀ (by norm_num) h

theorem pow2_lt_iff {a b : Int} : pow2 a < pow2 b ↔ a < b := by
  simp only [pow2_eq]; exact zpow_lt_zpow_iff_right₀ (by norm_num)

theorem pow2_nat (n : Nat) : pow2 n = ((2 ^ n : Nat) : ℚ) := rfl

theorem pow2_zero : pow2 0 = 1 := by simp [pow2_eq]

theorem pow2_one : pow2 1 = 2 := by simp [pow2_eq]

/-- a power of two is a multiple of every smaller one -/
theorem pow2_sub_int {a b : Int} (h : b ≤ a) : ∃ n : Int, pow2 a = n * pow2 b := by
  refine ⟨2 ^ (a - b).toNat, ?_⟩
  have : a = ((a - b).toNat : Int) + b := by omega
  conv_lhs => rw [this, pow2_add, pow2_nat]
  push_cast; ring

theorem ilog2_spec {x : ℚ} (hx : 0 < x) : pow2 (ilog2 x) ≤ x ∧ x < pow2 (ilog2 x + 1) := by
  have hn : x.num.natAbs ≠ 0 := by
    have := Rat.num_pos.2 hx
    omega
  have hnum : ((x.num.natAbs : Nat) : ℚ) = x.num := by
    have := Rat.num_pos.2 hx
    rw [← Int.cast_natCast]
    congr 1; omega
  have hxd : x = (x.num.natAbs : ℚ) / (x.den : ℚ) := by rw [hnum]; exact (Rat.num_div_den x).symm
  have hd0 : (0 : ℚ) < x.den := by exact_mod_cast x.den_pos
  have a1 : pow2 (Nat.log2 x.num.natAbs) ≤ x.num.natAbs := by
    rw [pow2_nat]; exact_mod_cast Nat.log2_self_le hn
  have a2 : (x.num.natAbs : ℚ) < pow2 (Nat.log2 x.num.natAbs + 1) := by
    have : ((Nat.log2 x.num.natAbs : Int) + 1) = ((Nat.log2 x.num.natAbs + 1 : Nat) : Int) := by push_cast; ring
    rw [this, pow2_nat]; exact_mod_cast Nat.lt_log2_self
  have b1 : pow2 (Nat.log2 x.den) ≤ x.den := by
    rw [pow2_nat]; exact_mod_cast Nat.log2_self_le x.den_nz
  have b2 : (x.den : ℚ) < pow2 (Nat.log2 x.den + 1) := by
    have : ((Nat.log2 x.den : Int) + 1) = ((Nat.log2 x.den + 1 : Nat) : Int) := by push_cast; ring
    rw [this, pow2_nat]; exact_mod_cast Nat.lt_log2_self
  have hx2 : x * x.den = x.num.natAbs := by rw [hnum]; exact Rat.mul_den_eq_num x
  unfold ilog2
  generalize (Nat.log2 x.num.natAbs : Int) = A at *
  generalize (Nat.log2 x.den : Int) = B at *
  rw [← hx2] at a1 a2
  clear hxd hnum hn hx2
  generalize (x.den : ℚ) = D at *
  have e1 : pow2 (A - B) * pow2 B = pow2 A := by rw [← pow2_add]; congr 1; ring
  rw [pow2_add, pow2_one] at a2 b2
  simp only
  split
  · rename_i h
    refine ⟨h, ?_⟩
    rw [pow2_add, pow2_one]
    have : pow2 (A - B) * pow2 B ≤ pow2 (A - B) * D := mul_le_mul_of_nonneg_left b1 (pow2_pos _).le
    have h2 : x * D < (pow2 (A - B) * 2) * D := by nlinarith
    exact lt_of_mul_lt_mul_right h2 hd0.le
  · rename_i h
    have hs : A - B - 1 + 1 = A - B := by ring
    have e2 : pow2 (A - B) = pow2 (A - B - 1) * 2 := by rw [← pow2_one, ← pow2_add, hs]
    refine ⟨?_, by rw [hs]; exact not_le.1 h⟩
    have : pow2 (A - B - 1) * D < pow2 (A - B - 1) * (pow2 B * 2) := mul_lt_mul_of_pos_left b2 (pow2_pos _)
    have h2 : pow2 (A - B - 1) * D < x * D := by
      rw [e2] at e1
      nlinarith
    exact (lt_of_mul_lt_mul_right h2 hd0.le).le

theorem ilog2_unique {x : ℚ} (hx : 0 < x) {e : Int} (h1 : pow2 e ≤ x) (h2 : x < pow2 (e + 1)) : ilog2 x = e := by
  obtain ⟨h3, h4⟩ := ilog2_spec hx
  have a := pow2_lt_iff.1 (lt_of_le_of_lt h3 h2)
  have b := pow2_lt_iff.1 (lt_of_le_of_lt h1 h4)
  omega

theorem ilog2_mono {x y : ℚ} (hx : 0 < x) (h : x ≤ y) : ilog2 x ≤ ilog2 y := by
  have h1 := (ilog2_spec hx).1
  have h2 := (ilog2_spec (lt_of_lt_of_le hx h)).2
  have := pow2_lt_iff.1 (lt_of_le_of_lt (h1.trans h) h2)
  omega

/-! ### nearest integer -/

theorem roundEven_error (x : ℚ) : |(roundEven x : ℚ) - x| ≤ 1 / 2 := by
  have h1 := Int.floor_le x
  have h2 := Int.lt_floor_add_one x
  unfold roundEven
  simp only
  split
  · rw [abs_le]; constructor <;> linarith
  · split
    · rw [abs_le]; push_cast; constructor <;> linarith
    · split
      · rw [abs_le]; constructor <;> linarith
      · rw [abs_le]; push_cast; constructor <;> linarith

theorem roundEven_mono {x y : ℚ} (h : x ≤ y) : roundEven x ≤ roundEven y := by
  have hf := Int.floor_mono h
  rcases lt_or_eq_of_le hf with hlt | heq
  · have a1 : roundEven x ≤ ⌊x⌋ + 1 := by unfold roundEven; simp only; split_ifs <;> omega
    have a2 : ⌊y⌋ ≤ roundEven y := by unfold roundEven; simp only; split_ifs <;> omega
    omega
  · unfold roundEven
    simp only
    rw [← heq]
    generalize ⌊x⌋ = f
    split_ifs <;> first | omega | (exfalso; linarith)

theorem roundEven_int (n : Int) : roundEven n = n := by
  unfold roundEven; simp

theorem roundEven_neg (x : ℚ) : roundEven (-x) = -roundEven x := by
  by_cases hx : (⌊x⌋ : ℚ) = x
  · rw [← hx, ← Int.cast_neg, roundEven_int, roundEven_int]
  · have h1 := Int.floor_le x
    have h2 := Int.lt_floor_add_one x
    have h3 : (⌊x⌋ : ℚ) < x := lt_of_le_of_ne h1 hx
    have hf : ⌊-x⌋ = -⌊x⌋ - 1 := by
      rw [Int.floor_eq_iff]
      push_cast
      constructor <;> linarith
    unfold roundEven
    simp only
    rw [hf]
    push_cast
    generalize ⌊x⌋ = f at *
    split_ifs <;> first | omega | (exfalso; linarith)

/-! ### rounding to `p` bits -/

variable {p : Nat} {emin : Int}

theorem roundTo_neg (x : ℚ) : roundTo p emin (-x) = -roundTo p emin x := by
  unfold roundTo lastPlace
  by_cases h : x = 0
  · simp [h]
  · rw [if_neg (by simpa using h), if_neg h, abs_neg, neg_div, roundEven_neg]
    push_cast; ring

theorem roundTo_zero : roundTo p emin 0 = 0 := by simp [roundTo]

theorem lastPlace_spec {x : ℚ} (hx : x ≠ 0) : |x| < pow2 (p + lastPlace p emin x) := by
  refine lt_of_lt_of_le (ilog2_spec (abs_pos.2 hx)).2 (pow2_mono ?_)
  unfold lastPlace
  omega

theorem lastPlace_ge (x : ℚ) : emin ≤ lastPlace p emin x := le_max_right _ _

/-- half a unit in the last place -/
theorem roundTo_error (x : ℚ) : |roundTo p emin x - x| ≤ pow2 (lastPlace p emin x) / 2 := by
  unfold roundTo
  split
  · rename_i h; subst h; have := pow2_pos (lastPlace p emin 0); simp; linarith
  · have hpos := pow2_pos (lastPlace p emin x)
    generalize pow2 (lastPlace p emin x) = u at *
    have := roundEven_error (x / u)
    have e : (roundEven (x / u) : ℚ) * u - x = ((roundEven (x / u) : ℚ) - x / u) * u := by
      field_simp
    rw [e, abs_mul, abs_of_pos hpos]
    nlinarith

/-- a number with at most `p` bits is not changed -/
theorem roundTo_fixed (hp : 1 ≤ p) {n e : Int} (hn : |n| ≤ 2 ^ p) (he : emin ≤ e) :
    roundTo p emin (n * pow2 e) = n * pow2 e := by
  by_cases h0 : n = 0
  · subst h0; simp [roundTo]
  have hx : ((n : ℚ) * pow2 e) ≠ 0 := mul_ne_zero (by exact_mod_cast h0) (pow2_pos e).ne'
  have habs : |(n : ℚ) * pow2 e| = |(n : ℚ)| * pow2 e := by rw [abs_mul, abs_of_pos (pow2_pos e)]
  have key : ∃ m : Int, (n : ℚ) * pow2 e = m * pow2 (lastPlace p emin (n * pow2 e)) := by
    rcases lt_or_eq_of_le hn with hlt | heq
    · have hle : lastPlace p emin (n * pow2 e) ≤ e := by
        unfold lastPlace
        refine max_le ?_ he
        have h1 := (ilog2_spec (abs_pos.2 hx)).1
        have h2 : |(n : ℚ) * pow2 e| < pow2 (p + e) := by
          rw [habs, pow2_add, pow2_nat]
          refine mul_lt_mul_of_pos_right ?_ (pow2_pos e)
          exact_mod_cast hlt
        have := pow2_lt_iff.1 (lt_of_le_of_lt h1 h2)
        omega
      obtain ⟨m, hm⟩ := pow2_sub_int hle
      exact ⟨n * m, by push_cast; rw [mul_assoc, ← hm]⟩
    · have hnq : |(n : ℚ)| = pow2 p := by rw [pow2_nat]; exact_mod_cast heq
      have hil : ilog2 |(n : ℚ) * pow2 e| = p + e := by
        refine ilog2_unique (abs_pos.2 hx) ?_ ?_
        · rw [habs, hnq, pow2_add]
        · rw [habs, hnq, ← pow2_add]; exact pow2_lt_iff.2 (by omega)
      have hl : lastPlace p emin (n * pow2 e) = e + 1 := by
        unfold lastPlace
        rw [hil]
        rw [max_eq_left] <;> omega
      rw [hl]
      have hp2 : pow2 p = ((2 ^ (p - 1) : Int) : ℚ) * 2 := by
        rw [pow2_nat]
        have : p = (p - 1) + 1 := by omega
        conv_lhs => rw [this, pow_succ]
        push_cast; ring
      rcases abs_choice (n : ℚ) with h | h
      · refine ⟨2 ^ (p - 1), ?_⟩
        rw [← h, hnq, hp2, pow2_add, pow2_one]; ring
      · refine ⟨-2 ^ (p - 1), ?_⟩
        have : (n : ℚ) = -pow2 p := by rw [← hnq, h]; ring
        rw [this, hp2, pow2_add, pow2_one]; push_cast; ring
  obtain ⟨m, hm⟩ := key
  unfold roundTo
  rw [if_neg hx]
  have hu := pow2_pos (lastPlace p emin (n * pow2 e))
  generalize pow2 (lastPlace p emin (n * pow2 e)) = u at *
  rw [hm]
  have : (m : ℚ) * u / u = m := by field_simp
  rw [this, roundEven_int]

/-- every rounded value has at most `p` bits -/
theorem roundTo_form (x : ℚ) : ∃ n e : Int, |n| ≤ 2 ^ p ∧ emin ≤ e ∧ roundTo p emin x = n * pow2 e ∧
    (x ≠ 0 → e = lastPlace p emin x) := by
  by_cases h : x = 0
  · exact ⟨0, emin, by simp, le_rfl, by simp [roundTo, h], by simp [h]⟩
  · refine ⟨roundEven (x / pow2 (lastPlace p emin x)), lastPlace p emin x, ?_, lastPlace_ge x, by unfold roundTo; rw [if_neg h],
      fun _ => rfl⟩
    have hb := lastPlace_spec (p := p) (emin := emin) h
    rw [pow2_add] at hb
    have hu := pow2_pos (lastPlace p emin x)
    generalize pow2 (lastPlace p emin x) = u at *
    rw [abs_lt] at hb
    rw [pow2_nat] at hb
    have h1 : x / u ≤ ((2 ^ p : Int) : ℚ) := by
      rw [div_le_iff₀ hu]; push_cast; push_cast at hb; linarith
    have h2 : ((-2 ^ p : Int) : ℚ) ≤ x / u := by
      rw [le_div_iff₀ hu]; push_cast; push_cast at hb; linarith
    have := roundEven_mono h1
    have := roundEven_mono h2
    rw [roundEven_int] at *
    rw [abs_le]; constructor <;> omega

theorem roundTo_idem (hp : 1 ≤ p) (x : ℚ) : roundTo p emin (roundTo p emin x) = roundTo p emin x := by
  obtain ⟨n, e, h1, h2, h3, _⟩ := roundTo_form (p := p) (emin := emin) x
  rw [h3, roundTo_fixed hp h1 h2]

theorem roundTo_nonneg {x : ℚ} (hx : 0 ≤ x) : 0 ≤ roundTo p emin x := by
  unfold roundTo
  split
  · exact le_rfl
  · have hu := pow2_pos (lastPlace p emin x)
    have : roundEven ((0 : Int) : ℚ) ≤ roundEven (x / pow2 (lastPlace p emin x)) :=
      roundEven_mono (by push_cast; positivity)
    rw [roundEven_int] at this
    have : (0 : ℚ) ≤ roundEven (x / pow2 (lastPlace p emin x)) := by exact_mod_cast this
    positivity

theorem roundTo_mono_pos (hp : 1 ≤ p) {x y : ℚ} (hx : 0 < x) (h : x ≤ y) : roundTo p emin x ≤ roundTo p emin y := by
  have hy := lt_of_lt_of_le hx h
  have hle : lastPlace p emin x ≤ lastPlace p emin y := by
    unfold lastPlace
    have := ilog2_mono (x := |x|) (y := |y|) (by simpa using hx.ne') (by rwa [abs_of_pos hx, abs_of_pos hy])
    omega
  rcases lt_or_eq_of_le hle with hlt | heq
  · have hb := lastPlace_spec (p := p) (emin := emin) hx.ne'
    obtain ⟨n, e, h1, h2, h3, h4⟩ := roundTo_form (p := p) (emin := emin) x
    have h5 := h4 hx.ne'
    have a1 : roundTo p emin x ≤ pow2 (p + lastPlace p emin x) := by
      rw [h3, h5, pow2_add, pow2_nat]
      refine mul_le_mul_of_nonneg_right ?_ (pow2_pos _).le
      have := (abs_le.1 h1).2
      exact_mod_cast this
    have hly : lastPlace p emin y = ilog2 |y| - (p - 1 : Int) := by
      unfold lastPlace at hlt ⊢
      rw [max_eq_left]
      omega
    have a2 : pow2 (p - 1 + lastPlace p emin y) ≤ y := by
      have := (ilog2_spec (abs_pos.2 hy.ne')).1
      rw [abs_of_pos hy] at this hly
      refine le_trans (pow2_mono ?_) this
      rw [hly]
      omega
    have a3 : pow2 (p - 1 + lastPlace p emin y) ≤ roundTo p emin y := by
      have e1 : pow2 (p - 1 + lastPlace p emin y) = ((2 ^ (p - 1) : Int) : ℚ) * pow2 (lastPlace p emin y) := by
        have : ((p : Int) - 1) = ((p - 1 : Nat) : Int) := by omega
        rw [pow2_add, this, pow2_nat]; push_cast; ring
      rw [e1] at a2 ⊢
      unfold roundTo
      rw [if_neg hy.ne']
      refine mul_le_mul_of_nonneg_right ?_ (pow2_pos _).le
      have hu := pow2_pos (lastPlace p emin y)
      have : roundEven ((2 ^ (p - 1) : Int) : ℚ) ≤ roundEven (y / pow2 (lastPlace p emin y)) := by
        apply roundEven_mono
        rw [le_div_iff₀ hu]; exact a2
      rw [roundEven_int] at this
      exact_mod_cast this
    refine a1.trans (le_trans (pow2_mono ?_) a3)
    omega
  · unfold roundTo
    rw [if_neg hx.ne', if_neg hy.ne', ← heq]
    have hu := pow2_pos (lastPlace p emin x)
    generalize pow2 (lastPlace p emin x) = u at *
    refine mul_le_mul_of_nonneg_right ?_ hu.le
    have : x / u ≤ y / u := by gcongr
    exact_mod_cast roundEven_mono this

theorem roundTo_mono (hp : 1 ≤ p) {x y : ℚ} (h : x ≤ y) : roundTo p emin x ≤ roundTo p emin y := by
  rcases lt_trichotomy x 0 with hx | hx | hx
  · rcases lt_trichotomy y 0 with hy | hy | hy
    · have := roundTo_mono_pos (emin := emin) hp (x := -y) (y := -x) (by linarith) (by linarith)
      rw [roundTo_neg, roundTo_neg] at this
      linarith
    · subst hy
      have := roundTo_nonneg (p := p) (emin := emin) (x := -x) (by linarith)
      rw [roundTo_neg] at this
      rw [roundTo_zero]; linarith
    · have h1 := roundTo_nonneg (p := p) (emin := emin) (x := -x) (by linarith)
      rw [roundTo_neg] at h1
      have h2 := roundTo_nonneg (p := p) (emin := emin) hy.le
      linarith
  · subst hx
    rw [roundTo_zero]; exact roundTo_nonneg h
  · exact roundTo_mono_pos hp hx h

theorem roundTo_one (hp : 1 ≤ p) (he : emin ≤ 0) : roundTo p emin 1 = 1 := by
  have := roundTo_fixed (n := 1) (e := 0) hp (by rw [abs_one]; exact_mod_cast Nat.one_le_two_pow) he
  simpa [pow2_zero] using this

/-- IEEE binary64 arithmetic, with narrowing to binary32; `expK` is the function behind `exp`, `fused` says whether the
compiler contracts `c + a * b` to a fused multiply-add -/
def Rnd.binary64 (expK : ℚ → ℚ) (fused : Bool) : Rnd ℚ where
  rnd := roundTo 53 (-1074)
  maxFin := some ((2 ^ 53 - 1) * pow2 971)
  dblMax := (2 ^ 53 - 1) * pow2 971
  f32 := roundTo 24 (-149)
  maxF32 := some ((2 ^ 24 - 1) * pow2 104)
  expK := expK
  fused := fused
  rnd_mono := fun _ _ h => roundTo_mono (by norm_num) h
  rnd_zero := roundTo_zero
  rnd_one := roundTo_one (by norm_num) (by norm_num)
  rnd_neg := roundTo_neg
  rnd_rnd := roundTo_idem (by norm_num)
  maxFin_ge_one := by
    intro b hb
    simp only [Option.mem_def, Option.some.injEq] at hb
    subst hb
    have : (1 : ℚ) ≤ pow2 971 := by rw [← pow2_zero]; exact pow2_mono (by norm_num)
    nlinarith

end Sacf
