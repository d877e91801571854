import Verif.Props.SumsAnyTimes
import Verif.Cases.GapsGauss
import Verif.Props.MissingRounded

/-!
# Concrete cases for sums of signals at irregular times
-/

namespace Sacf

open Finset

/-- 1, 0, 0 -/
def sY (i : ℕ) : ℚ := [1, 0, 0].getD i 0
/-- 2, 2, 4 -/
def sZ (i : ℕ) : ℚ := [2, 2, 4].getD i 0
/-- 0, 2, 4 -/
def sU (i : ℕ) : ℚ := [0, 2, 4].getD i 0

/-- C94_binary64_irregular and C94_binary64_parallelogram: times 0, 1, 3, values 1, 2, 4 and 1, 0, 0, their sum and their difference, Gaussian weight, default `alpha`, lag 2,
for some library exponential; the sum over the cross terms is `14/9 e^(-1/2) - 4/9` -/
example : ∃ (ex : ℚ → ℚ) (r₁ r₂ r₃ r₄ : AcResult (D64 ex false)) (n₁ n₂ n₃ n₄ : ℕ) (a b c f : ℚ),
    r₁.At 0 n₁ (.fin ((2 : ℤ) * pow2 0)) (.fin a) ∧ r₂.At 0 n₂ (.fin ((2 : ℤ) * pow2 0)) (.fin b) ∧ r₃.At 0 n₃ (.fin ((2 : ℤ) * pow2 0)) (.fin c) ∧
    r₄.At 0 n₄ (.fin ((2 : ℤ) * pow2 0)) (.fin f) ∧
    |((c * (8/3) - (a * (14/3) + b * (2/3)) : ℚ) : ℝ) - (Real.exp (-1/2) * (14/9) - 4/9)| ≤ 1/1000 ∧
    |c * (8/3) + f * 8 - 2 * (a * (14/3) + b * (2/3))| ≤ 1/1000 := by
  obtain ⟨ex, _, hex⟩ := exists_expLike (show 0 < pow2 (-53) from pow2_pos _)
  obtain ⟨d₁, r₁, hc₁, ht₁, hrow₁, hr₁, hα₁, hl₁⟩ := irregular_default (ex := ex) (fu := false) eY (wt := "gaussian") (by unfold KnownWeight; simp)
  obtain ⟨d₂, r₂, hc₂, ht₂, hrow₂, hr₂, hα₂, hl₂⟩ := irregular_default (ex := ex) (fu := false) sY (wt := "gaussian") (by unfold KnownWeight; simp)
  obtain ⟨d₃, r₃, hc₃, ht₃, hrow₃, hr₃, hα₃, hl₃⟩ := irregular_default (ex := ex) (fu := false) sZ (wt := "gaussian") (by unfold KnownWeight; simp)
  obtain ⟨d₄, r₄, hc₄, ht₄, hrow₄, hr₄, hα₄, hl₄⟩ := irregular_default (ex := ex) (fu := false) sU (wt := "gaussian") (by unfold KnownWeight; simp)
  obtain ⟨n₁, l₁⟩ := hl₁ 2 (by norm_num) (by norm_num)
  obtain ⟨n₂, l₂⟩ := hl₂ 2 (by norm_num) (by norm_num)
  obtain ⟨n₃, l₃⟩ := hl₃ 2 (by norm_num) (by norm_num)
  obtain ⟨n₄, l₄⟩ := hl₄ 2 (by norm_num) (by norm_num)
  have T : ∀ {d : DS (D64 ex false)}, Constructed d → d.timeseries = (samples 3 fun i => (eT i : ℚ) * pow2 0) → Times64 d 3 eT 0 := fun h1 h2 =>
    ⟨h1, h2, eT_inc, by norm_num, by norm_num, by norm_num, by norm_num⟩
  have G : ∀ {d : DS (D64 ex false)} {r : AcResult (D64 ex false)}, autocorrelation .fabs d {} "natural" "gaussian" = .ok r → r.corr.alpha = .fin 1 →
      Run64 d {} "gaussian" r 1 0 := fun h1 h2 => .inr ⟨rfl, h1, h2, by decide +kernel, by decide +kernel, by decide +kernel, by norm_num, lib_case hex⟩
  have v₁ : Values64 d₁ 3 0 eY 4 (pow2 (-50)) := ⟨hrow₁, by decide +kernel, by decide +kernel, by decide +kernel, by decide +kernel, by decide +kernel,
    .inr (by decide +kernel), by decide +kernel⟩
  have v₂ : Values64 d₂ 3 0 sY 1 (pow2 (-50)) := ⟨hrow₂, by decide +kernel, by decide +kernel, by decide +kernel, by decide +kernel, by decide +kernel,
    .inr (by decide +kernel), by decide +kernel⟩
  have v₃ : Values64 d₃ 3 0 sZ 4 (pow2 (-50)) := ⟨hrow₃, by decide +kernel, by decide +kernel, by decide +kernel, by decide +kernel, by decide +kernel,
    .inr (by decide +kernel), by decide +kernel⟩
  have v₄ : Values64 d₄ 3 0 sU 4 (pow2 (-50)) := ⟨hrow₄, by decide +kernel, by decide +kernel, by decide +kernel, by decide +kernel, by decide +kernel,
    .inr (by decide +kernel), by decide +kernel⟩
  obtain ⟨a, b, c, a1, b1, c1, h⟩ := C94_binary64_irregular (T hc₁ ht₁) (T hc₂ ht₂) (T hc₃ ht₃) v₁ v₂ v₃ (G hr₁ hα₁) (G hr₂ hα₂) (G hr₃ hα₃) (by decide +kernel) 2
    n₁ n₂ n₃ l₁ l₂ l₃ (by decide +kernel) _ irregular_selects (3/2) (by norm_num) (by decide +kernel)
  obtain ⟨a', b', c', f, a1', b1', c1', f1, h'⟩ := C94_binary64_parallelogram (T hc₁ ht₁) (T hc₂ ht₂) (T hc₃ ht₃) (T hc₄ ht₄) v₁ v₂ v₃ v₄ (G hr₁ hα₁) (G hr₂ hα₂)
    (G hr₃ hα₃) (G hr₄ hα₄) (by decide +kernel) (by decide +kernel) 2 n₁ n₂ n₃ n₄ l₁ l₂ l₃ l₄ (by decide +kernel) _ irregular_selects (3/2) (by norm_num) (by decide +kernel)
  cases At_unique a1 a1'
  cases At_unique b1 b1'
  cases At_unique c1 c1'
  have e1 : sumSq 3 eY = 14/3 := by decide +kernel
  have e2 : sumSq 3 sY = 2/3 := by decide +kernel
  have e3 : sumSq 3 sZ = 8/3 := by decide +kernel
  have e4 : sumSq 3 sU = 8 := by decide +kernel
  rw [e1, e2, e3] at h h'
  rw [e4] at h'
  refine ⟨ex, r₁, r₂, r₃, r₄, n₁, n₂, n₃, n₄, a, b, c, f, a1, b1, c1, f1, ?_, h'.trans (by decide +kernel)⟩
  rw [show (range 3).filter (fun i => (eT i : ℚ) * pow2 0 + (2 : ℤ) * pow2 0 ≤ (eT (3 - 1) : ℚ) * pow2 0) = {0, 1} by decide +kernel, sum_pair (by norm_num),
    show |(eT 2 : ℚ) * pow2 0 - (eT 0 * pow2 0 + (2 : ℤ) * pow2 0)| = 1 by decide +kernel,
    show |(eT 2 : ℚ) * pow2 0 - (eT 1 * pow2 0 + (2 : ℤ) * pow2 0)| = 0 by decide +kernel,
    show dev 3 eY 0 * dev 3 sY 2 + dev 3 sY 0 * dev 3 eY 2 = 14/9 by decide +kernel,
    show dev 3 eY 1 * dev 3 sY 2 + dev 3 sY 1 * dev 3 eY 2 = -4/9 by decide +kernel, Rat.cast_zero, gauss_zero] at h
  have e5 : weight Real.exp "gaussian" ((1 : ℚ) : ℝ) ((1 : ℚ) : ℝ) = Real.exp (-1/2) := by
    show Real.exp _ = _
    norm_num
  rw [e5] at h
  have e6 : (250 * (3 : ℕ) * (pow2 (-50) * 4 ^ 2 + pow2 (-50) * 1 ^ 2 + pow2 (-50) * 4 ^ 2) * (1 + 3/2) : ℚ) ≤ 1/1000 := by decide +kernel
  have := h.trans ((Rat.cast_le (K := ℝ)).2 e6)
  rw [show (((14/9 : ℚ)) : ℝ) = 14/9 by norm_num, show (((-4/9 : ℚ)) : ℝ) = -4/9 by norm_num, show (((1/1000 : ℚ)) : ℝ) = 1/1000 by norm_num] at this
  rw [show Real.exp (-1/2) * (14/9) - 4/9 = Real.exp (-1/2) * (14/9) + 1 * (-4/9) by ring]
  exact this

end Sacf
