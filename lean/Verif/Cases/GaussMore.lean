import Verif.Props.GaussMore
import Verif.Cases.GapsGauss

/-!
# Concrete cases for the Gaussian weight: the narrowed normaliser, missing values and fast selection
-/

namespace Sacf

open Finset

/-- 1 + 2^-30 (not a `float`), 2, 4 -/
def nY (i : ℕ) : ℚ := [1 + pow2 (-30), 2, 4].getD i 0

/-- C26_binary64_gaussian_partial and C26_zero_binary64_gaussian_partial: times 0, 1, 3, values 1 + 2^-30, 2, 4, lags 2 and 0, for some library exponential -/
example : ∃ (ex : ℚ → ℚ) (d : DS (D64 ex false)) (r : AcResult (D64 ex false)) (n n' : ℕ) (v v' : ℚ) (ρ : ℝ),
    autocorrelation .fabs d {} "natural" "gaussian" = .ok r ∧
    narrowedSumSq (roundTo 24 (-149)) 3 nY ≠ sumSq 3 nY ∧ r.At 0 n (.fin ((2 : ℤ) * pow2 0)) (.fin v) ∧
    ρ = gaussAcf 3 eT 0 nY 1 (fun _ => 2) 2 * (sumSq 3 nY / narrowedSumSq (roundTo 24 (-149)) 3 nY : ℚ) ∧
    |(v : ℝ) - ρ| ≤ (pow2 (-38) : ℚ) * (1 + |ρ|) ∧
    r.At 0 n' (.fin 0) (.fin v') ∧ |v' - 1| ≤ 1 / 1000000 := by
  obtain ⟨ex, _, hex⟩ := exists_expLike (show 0 < pow2 (-53) from pow2_pos _)
  obtain ⟨d, r, hc, ht, hrow, hr, hα, hlags⟩ := irregular_default (ex := ex) (fu := false) nY (wt := "gaussian") (by unfold KnownWeight; simp)
  obtain ⟨n, hn⟩ := hlags 2 (by norm_num) (by norm_num)
  obtain ⟨n', hn'⟩ := hlags 0 (by norm_num) (by norm_num)
  have hT : Times64 d 3 eT 0 := ⟨hc, ht, eT_inc, by norm_num, by norm_num, by norm_num, by norm_num⟩
  have hg : GaussRun64 d {} r 1 0 := ⟨hr, hα, by decide +kernel, by decide +kernel, by decide +kernel, by norm_num, lib_case hex⟩
  obtain ⟨v, ρ, a1, a2, a3⟩ := C26_binary64_gaussian_partial hT (by norm_num) hrow (A := 4) (V := pow2 (-50)) (by decide +kernel) (by decide +kernel) (by decide +kernel)
    (by decide +kernel) (by decide +kernel) (by decide +kernel) (by decide +kernel) (by decide +kernel) hg n 2 hn (by decide +kernel) _ irregular_selects
  obtain ⟨v', q, b1, b2, b3⟩ := C26_zero_binary64_gaussian_partial hT (by norm_num) hrow (A := 4) (V := pow2 (-50)) (by decide +kernel) (by decide +kernel) (by decide +kernel)
    (by decide +kernel) (by decide +kernel) (by decide +kernel) (by decide +kernel) (by decide +kernel) (by decide +kernel) hg n' (by rw [hn']; simp)
  refine ⟨ex, d, r, n, n', v, v', ρ, hr, by decide +kernel, a1, a2, a3.trans ?_, b1, ?_⟩
  · refine mul_le_mul_of_nonneg_right (Rat.cast_le.2 (by decide +kernel)) (by positivity)
  · have h1 : |q - 1| ≤ 1 / 2000000 := by rw [b2]; decide +kernel
    have h2 : 250 * pow2 (-50) * ((3 : ℕ) * 4 ^ 2 / narrowedSumSq (roundTo 24 (-149)) 3 nY) * (1 + q) ≤ 1 / 2000000 := by rw [b2]; decide +kernel
    have := abs_add_le (v' - q) (q - 1)
    rw [show v' - q + (q - 1) = v' - 1 by ring] at this
    have := b3.trans h2
    linarith

/-- 1, missing, 4 -/
def mY (i : ℕ) : Option ℚ := [some 1, none, some 4].getD i none

/-- C35_binary64_gaussian_partial: times 0, 1, 3, values 1, missing, 4: at lag 3 the value is -1/2 within the bound, at lag 2 it is NaN -/
example : ∃ (ex : ℚ → ℚ) (d : DS (D64 ex false)) (r : AcResult (D64 ex false)) (n n' : ℕ) (v : ℚ),
    autocorrelation .fabs d {} "natural" "gaussian" = .ok r ∧ r.At 0 n (.fin ((3 : ℤ) * pow2 0)) (.fin v) ∧
    |(v : ℝ) + 1/2| ≤ 1/1000 ∧ r.At 0 n' (.fin ((2 : ℤ) * pow2 0)) .nan := by
  obtain ⟨ex, _, hex⟩ := exists_expLike (show 0 < pow2 (-53) from pow2_pos _)
  obtain ⟨d, r, hc, ht, hrow, hr, hα, hlags⟩ := irregular_row (ex := ex) (fu := false) (obs 3 mY) (obs_length 3 mY) (wt := "gaussian") (by unfold KnownWeight; simp)
  obtain ⟨n, hn⟩ := hlags 3 (by norm_num) (by norm_num)
  obtain ⟨n', hn'⟩ := hlags 2 (by norm_num) (by norm_num)
  have hT : Times64 d 3 eT 0 := ⟨hc, ht, eT_inc, by norm_num, by norm_num, by norm_num, by norm_num⟩
  have hV : ObsValues64 d 3 0 mY 4 (pow2 (-50)) := ⟨hrow, by
      intro i hi v hv
      interval_cases i <;> simp [mY] at hv <;> subst hv <;> decide +kernel, by decide +kernel, by decide +kernel, by decide +kernel, by decide +kernel, .inr (by
      intro i hi v hv
      interval_cases i <;> simp [mY] at hv <;> subst hv <;> decide +kernel), by decide +kernel⟩
  have hg : GaussRun64 d {} r 1 0 := ⟨hr, hα, by decide +kernel, by decide +kernel, by decide +kernel, by norm_num, lib_case hex⟩
  obtain ⟨_, h2⟩ := C35_binary64_gaussian_partial hT hV hg n 3 hn (by decide +kernel) (fun _ => 2) (by unfold Selects IsNearest; decide +kernel)
  obtain ⟨v, ρ, h3, h4, h5⟩ := h2 (by unfold Unaffected; decide +kernel)
  obtain ⟨h6, _⟩ := C35_binary64_gaussian_partial hT hV hg n' 2 hn' (by decide +kernel) _ irregular_selects
  refine ⟨ex, d, r, n, n', v, hr, h3, ?_, h6.2 (by unfold Unaffected; decide +kernel)⟩
  have e1 : ρ = -1/2 := by
    rw [h4, obsAcf_sum, show (range 3).filter (fun i => (eT i : ℚ) * pow2 0 + (3 : ℤ) * pow2 0 ≤ (eT (3 - 1) : ℚ) * pow2 0) = {0} by decide +kernel, sum_singleton,
      show |(eT 2 : ℚ) * pow2 0 - (eT 0 * pow2 0 + (3 : ℤ) * pow2 0)| = 0 by decide +kernel,
      show obsDev 3 mY 0 * obsDev 3 mY 2 / obsSumSq 3 mY = -1/2 by decide +kernel, Rat.cast_zero, gauss_zero]
    norm_num
  rw [e1, show (v : ℝ) - -1/2 = v + 1/2 by ring] at h5
  have e2 : (250 * pow2 (-50) * ((3 : ℕ) * 4 ^ 2 / obsSumSq 3 mY) : ℚ) ≤ 1 / 2000 := by decide +kernel
  refine h5.trans ((mul_le_mul_of_nonneg_right (Rat.cast_le.2 e2) (by positivity)).trans ?_)
  norm_num [abs_of_neg]

/-- times 0, 1, 2 -/
def rT (i : ℕ) : ℤ := i

/-- C36_binary64_gaussian_partial, C36_binary64_negative_gaussian_partial and C36_binary64_zero_gaussian_partial: times 0, 1, 2, values 1, 2, 4, `alpha = 1`, default lags,
for some library exponential: at lag -1 the value is `e^(-1/2)` and at lag 0 it is 17/42, within the bound -/
example : ∃ (ex : ℚ → ℚ) (d : DS (D64 ex false)) (r : AcResult (D64 ex false)) (n n' n'' : ℕ) (v v' v'' : ℚ),
    autocorrelation .fabs d { alpha := some (.fin 1) } "fast" "gaussian" = .ok r ∧ r.At 0 n (.fin ((-1 : ℤ) * pow2 0)) (.fin v) ∧
    |(v : ℝ) - Real.exp (-1/2)| ≤ 1/1000 ∧ r.At 0 n' (.fin 0) (.fin v') ∧ |v' - 17/42| ≤ 1/1000 ∧
    r.At 0 n'' (.fin ((2 : ℤ) * pow2 0)) (.fin v'') ∧ v'' = 0 := by
  obtain ⟨ex, _, hex⟩ := exists_expLike (show 0 < pow2 (-53) from pow2_pos _)
  obtain ⟨d, hd, ht, hrow, _⟩ := C03_round_trip (F := D64 ex false) (samples 3 fun i => (rT i : ℚ) * pow2 0) [samples 3 eY]
    (by simp [samples]) (by simp) (by simp [Rect, samples])
  rw [← (C03_flat_is_one_row _ _ []).1] at hd
  have hT : Times64 d 3 rT 0 := ⟨.flat hd, ht, fun i j h _ => by unfold rT; omega, by norm_num, by norm_num, by norm_num, by norm_num⟩
  have hV : Values64 d 3 0 eY 4 (pow2 (-50)) := ⟨⟨_, hrow, rfl⟩, by decide +kernel, by decide +kernel, by decide +kernel, by decide +kernel, by decide +kernel,
    .inr (by decide +kernel), by decide +kernel⟩
  obtain ⟨r, hr, ks, hl, _, hmem⟩ := (C36_binary64_default_partial hT (by norm_num) 1 ⟨⟨0, 1, by decide⟩, fun i j hij hj => by unfold rT; omega⟩ (by decide) (by decide)
    (some (.fin 1)) "gaussian" (by unfold KnownWeight; simp)).2 ⟨by decide, by decide⟩
  have hα : r.corr.alpha = .fin 1 := (result_params hT.built.wf hr).2.2.2
  have hlags : ∀ k : ℤ, -2 ≤ k → k ≤ 2 → ∃ n : ℕ, r.lags[n]? = some (.fin (k * pow2 0)) := by
    intro k h1 h2
    have e1 : rT (3 - 1) - rT 0 = 2 := by decide
    have hk : (k : ℚ) * pow2 0 ∈ ks := by
      refine (hmem _).2 (.inl ⟨(k + 2).toNat, ?_, ?_⟩)
      · rw [e1]; omega
      · have : (-(rT (3 - 1) - rT 0) + ((k + 2).toNat : ℤ) * 1 : ℤ) = k := by rw [e1]; omega
        rw [this]
    have h3 : (.fin ((k : ℚ) * pow2 0) : D64 ex false) ∈ r.lags := by
      rw [hl]; exact List.mem_map_of_mem hk
    exact List.mem_iff_getElem?.1 h3
  obtain ⟨n, hn⟩ := hlags (-1) (by norm_num) (by norm_num)
  obtain ⟨n', hn'⟩ := hlags 0 (by norm_num) (by norm_num)
  obtain ⟨n'', hn''⟩ := hlags 2 (by norm_num) (by norm_num)
  have hs : pow2 ((0 : ℤ) - 400) ≤ 1 ∧ pow2 (-500) ≤ 1 ∧ (1 : ℚ) ≤ pow2 500 := ⟨by decide +kernel, by decide +kernel, by decide +kernel⟩
  obtain ⟨v, a1, a2⟩ := C36_binary64_negative_gaussian_partial hT hV hr hα hs.1 hs.2.1 hs.2.2 (by norm_num) (lib_case hex) n (-1) hn (by decide +kernel) (by norm_num)
  obtain ⟨v', b1, b2⟩ := C36_binary64_zero_gaussian_partial hT hV (by norm_num) hr hα hs.1 hs.2.1 hs.2.2 (by norm_num) (lib_case hex) n' (by rw [hn']; simp) (by decide +kernel)
  obtain ⟨b, c, c1, _, v'', _, c2, c3, _⟩ := C36_binary64_gaussian_partial hT hV hr hα hs.1 hs.2.1 hs.2.2 (by norm_num) (lib_case hex) n'' 2 hn'' (by decide +kernel)
  refine ⟨ex, d, r, n, n', n'', v, v', v'', hr, a1, ?_, b1, ?_, c2, c3 ?_⟩
  · have e1 : (-(((-1 : ℤ) * pow2 0 : ℚ) : ℝ) ^ 2 / (2 * ((1 : ℚ) : ℝ) ^ 2)) = -1/2 := by rw [pow2_zero]; norm_num
    rw [e1] at a2
    have e2 : (500 * pow2 (-50) * ((3 : ℕ) * 4 ^ 2 / sumSq 3 eY) : ℚ) ≤ 1 / 1000 := by decide +kernel
    exact a2.trans (((Rat.cast_le (K := ℝ)).2 e2).trans (by norm_num))
  · rw [show 1 - dev 3 eY (3 - 1) ^ 2 / sumSq 3 eY = 17/42 by decide +kernel] at b2
    exact b2.trans (by decide +kernel)
  · by_contra hne
    have := (c1.2 0 (by norm_num)).1 (by omega)
    norm_num [rT, pow2_zero] at this

end Sacf
