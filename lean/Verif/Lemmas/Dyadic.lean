import Verif.Lemmas.Binary

/-! Multiples of a power of two, and rounding of `x * 2 ^ s`. -/

set_option linter.unusedSectionVars false
set_option linter.unusedVariables false

namespace Sacf

open Arith

/-- a multiple of `2 ^ e` -/
def Lat (e : ℤ) (x : ℚ) : Prop := ∃ n : ℤ, x = n * pow2 e

theorem Lat.zero {e : ℤ} : Lat e 0 := ⟨0, by simp⟩

theorem Lat.add {e : ℤ} {x y : ℚ} (hx : Lat e x) (hy : Lat e y) : Lat e (x + y) := by
  obtain ⟨m, rfl⟩ := hx
  obtain ⟨n, rfl⟩ := hy
  exact ⟨m + n, by push_cast; ring⟩

theorem Lat.neg {e : ℤ} {x : ℚ} (hx : Lat e x) : Lat e (-x) := by
  obtain ⟨m, rfl⟩ := hx
  exact ⟨-m, by push_cast; ring⟩

theorem Lat.sub {e : ℤ} {x y : ℚ} (hx : Lat e x) (hy : Lat e y) : Lat e (x - y) := by
  rw [sub_eq_add_neg]; exact hx.add hy.neg

theorem Lat.mul {e f : ℤ} {x y : ℚ} (hx : Lat e x) (hy : Lat f y) : Lat (e + f) (x * y) := by
  obtain ⟨m, rfl⟩ := hx
  obtain ⟨n, rfl⟩ := hy
  exact ⟨m * n, by rw [pow2_add]; push_cast; ring⟩

theorem Lat.mono {e f : ℤ} (h : f ≤ e) {x : ℚ} (hx : Lat e x) : Lat f x := by
  obtain ⟨m, rfl⟩ := hx
  obtain ⟨k, hk⟩ := pow2_sub_int h
  exact ⟨m * k, by rw [hk]; push_cast; ring⟩

theorem Lat.le_abs {e : ℤ} {x : ℚ} (hx : Lat e x) (h0 : x ≠ 0) : pow2 e ≤ |x| := by
  obtain ⟨m, rfl⟩ := hx
  have hm : m ≠ 0 := by rintro rfl; simp at h0
  rw [abs_mul, abs_of_pos (pow2_pos e)]
  have h1 : (1 : ℚ) ≤ |(m : ℚ)| := by exact_mod_cast Int.one_le_abs hm
  nlinarith [pow2_pos e]

variable {p : ℕ} {emin : ℤ}

/-- rounding never leaves a lattice that contains the subnormal spacing -/
theorem Lat.roundTo (hp : 1 ≤ p) {e : ℤ} (he : emin ≤ e) {x : ℚ} (hx : Lat e x) : Lat e (roundTo p emin x) := by
  obtain ⟨n, hn⟩ := hx
  by_cases h0 : x = 0
  · rw [h0, roundTo_zero]; exact Lat.zero
  by_cases hb : |n| ≤ 2 ^ p
  · rw [hn, roundTo_fixed hp hb he]; exact ⟨n, rfl⟩
  · obtain ⟨m, f, _, _, h3, h4⟩ := roundTo_form (p := p) (emin := emin) x
    have hf : e ≤ f := by
      rw [h4 h0]
      have h1 := (ilog2_spec (abs_pos.2 h0)).2
      have h2 : pow2 (p + e) ≤ |x| := by
        rw [hn, abs_mul, abs_of_pos (pow2_pos e), pow2_add, pow2_nat]
        refine mul_le_mul_of_nonneg_right ?_ (pow2_pos e).le
        exact_mod_cast (not_le.1 hb).le
      have := pow2_lt_iff.1 (lt_of_le_of_lt h2 h1)
      unfold lastPlace
      omega
    rw [h3]
    exact Lat.mono hf ⟨m, rfl⟩

theorem ilog2_mul_pow2 {x : ℚ} (hx : 0 < x) (s : ℤ) : ilog2 (x * pow2 s) = ilog2 x + s := by
  obtain ⟨h1, h2⟩ := ilog2_spec hx
  refine ilog2_unique (mul_pos hx (pow2_pos s)) ?_ ?_
  · rw [pow2_add]; exact mul_le_mul_of_nonneg_right h1 (pow2_pos s).le
  · rw [show ilog2 x + s + 1 = (ilog2 x + 1) + s by ring, pow2_add]
    exact mul_lt_mul_of_pos_right h2 (pow2_pos s)

theorem abs_mul_pow2 (x : ℚ) (s : ℤ) : |x * pow2 s| = |x| * pow2 s := by
  rw [abs_mul, abs_of_pos (pow2_pos s)]

/-- away from the subnormal numbers rounding commutes with powers of two -/
theorem roundTo_mul_pow2_normal {x : ℚ} (h0 : x ≠ 0) {s : ℤ} (h1 : emin ≤ ilog2 |x| + 1 - p)
    (h2 : emin ≤ ilog2 |x| + s + 1 - p) : roundTo p emin (x * pow2 s) = roundTo p emin x * pow2 s := by
  have hl : lastPlace p emin (x * pow2 s) = lastPlace p emin x + s := by
    unfold lastPlace
    rw [abs_mul_pow2, ilog2_mul_pow2 (abs_pos.2 h0)]
    omega
  unfold roundTo
  rw [if_neg h0, if_neg (mul_ne_zero h0 (pow2_pos s).ne'), hl, pow2_add]
  have hu := pow2_pos (lastPlace p emin x)
  have hs := pow2_pos s
  generalize pow2 (lastPlace p emin x) = u at *
  generalize pow2 s = v at *
  rw [mul_div_mul_right _ _ hs.ne']
  ring

theorem pow2_mul_neg (s : ℤ) : pow2 s * pow2 (-s) = 1 := by rw [← pow2_add, add_neg_cancel, pow2_zero]

theorem roundTo_small (hp : 1 ≤ p) {x : ℚ} (hx : Lat emin x) (h0 : x ≠ 0) (h : ilog2 |x| + 1 - p < emin) :
    ∃ n : ℤ, |n| ≤ 2 ^ p ∧ x = n * pow2 emin := by
  obtain ⟨n, hn⟩ := hx
  refine ⟨n, ?_, hn⟩
  have h1 := (ilog2_spec (abs_pos.2 h0)).2
  have h2 : |x| < pow2 (p + emin) := lt_of_lt_of_le h1 (pow2_mono (by omega))
  rw [hn, abs_mul_pow2, pow2_add, pow2_nat] at h2
  have := lt_of_mul_lt_mul_right h2 (pow2_pos emin).le
  exact le_of_lt (by exact_mod_cast this)

/-- rounding commutes with a power of two when both numbers are multiples of the subnormal spacing -/
theorem roundTo_mul_pow2 (hp : 1 ≤ p) {x : ℚ} {s : ℤ} (hx : Lat emin x) (hy : Lat emin (x * pow2 s)) :
    roundTo p emin (x * pow2 s) = roundTo p emin x * pow2 s := by
  by_cases h0 : x = 0
  · rw [h0, zero_mul, roundTo_zero, zero_mul]
  have hy0 : x * pow2 s ≠ 0 := mul_ne_zero h0 (pow2_pos s).ne'
  have hly : ilog2 |x * pow2 s| = ilog2 |x| + s := by rw [abs_mul_pow2, ilog2_mul_pow2 (abs_pos.2 h0)]
  by_cases h1 : emin ≤ ilog2 |x| + 1 - p
  · by_cases h2 : emin ≤ ilog2 |x| + s + 1 - p
    · exact roundTo_mul_pow2_normal h0 h1 h2
    · obtain ⟨n, hn, he⟩ := roundTo_small hp hy hy0 (by omega)
      have hxe : x = n * pow2 (emin - s) := by
        have := congrArg (· * pow2 (-s)) he
        simp only [mul_assoc, pow2_mul_neg, mul_one] at this
        rw [this, ← pow2_add, sub_eq_add_neg]
      rw [he, roundTo_fixed hp hn le_rfl]
      conv_rhs => rw [hxe, roundTo_fixed hp hn (by omega), mul_assoc, ← pow2_add, sub_add_cancel]
  · obtain ⟨n, hn, he⟩ := roundTo_small hp hx h0 (by omega)
    have hr : roundTo p emin x = x := by
      conv_lhs => rw [he, roundTo_fixed hp hn le_rfl]
      exact he.symm
    rw [hr]
    by_cases h2 : emin ≤ ilog2 |x| + s + 1 - p
    · have hxe : x * pow2 s = n * pow2 (emin + s) := by rw [he, mul_assoc, pow2_add]
      rw [hxe, roundTo_fixed hp hn (by omega)]
    · obtain ⟨n', hn', he'⟩ := roundTo_small hp hy hy0 (by omega)
      rw [he', roundTo_fixed hp hn' le_rfl]

theorem le_ilog2 {x : ℚ} {m : ℤ} (h : pow2 m ≤ x) : m ≤ ilog2 x := by
  have hx : 0 < x := lt_of_lt_of_le (pow2_pos m) h
  have := pow2_lt_iff.1 (lt_of_le_of_lt h (ilog2_spec hx).2)
  omega

/-- a number of size at least `2 ^ m` is rounded to a multiple of `2 ^ (m + 1 - p)` -/
theorem roundTo_lat {x : ℚ} {m : ℤ} (h : x = 0 ∨ pow2 m ≤ |x|) : Lat (m + 1 - p) (roundTo p emin x) := by
  rcases h with rfl | h
  · rw [roundTo_zero]; exact Lat.zero
  · have h0 : x ≠ 0 := by
      rintro rfl
      rw [abs_zero] at h
      exact absurd h (not_le.2 (pow2_pos m))
    obtain ⟨n, f, _, _, h3, h4⟩ := roundTo_form (p := p) (emin := emin) x
    rw [h3]
    refine Lat.mono ?_ ⟨n, rfl⟩
    rw [h4 h0]
    have := le_ilog2 h
    unfold lastPlace
    omega

theorem roundTo_abs_le (hp : 1 ≤ p) {x C : ℚ} (hC : roundTo p emin C = C) (h : |x| ≤ C) : |roundTo p emin x| ≤ C := by
  rw [abs_le] at h ⊢
  constructor
  · have := roundTo_mono (p := p) (emin := emin) hp h.1
    rwa [roundTo_neg, hC] at this
  · have := roundTo_mono (p := p) (emin := emin) hp h.2
    rwa [hC] at this

end Sacf
