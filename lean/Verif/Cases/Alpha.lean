import Verif.Props.Alpha
import Verif.Cases.Base

/-! Cases for `Props/Alpha.lean`. -/

set_option linter.unusedSectionVars false

namespace Sacf

theorem quotient_shape : ExpShape (fun x : ℚ => 1 / (1 - x)) where
  mono x y h hy := one_div_le_one_div_of_le (by linarith) (by linarith)
  nonneg x hx := by have : 0 < 1 - x := by linarith
                    positivity
  zero := by norm_num

/-- C99_weights_partial with rounding: `alpha` 3/2, `2 * alpha * alpha` is 9/2; the distance 2^600, whose square overflows, has a number as weight -/
example : ∃ w w' : ℚ, Corr.gaussianWeight (.fin (3/2) : B) (.fin (2 ^ 600)) = .fin w ∧ Corr.gaussianWeight (.fin (3/2) : B) (.fin 1) = .fin w' ∧
    0 ≤ w ∧ w ≤ w' ∧ w' ≤ 1 := by
  obtain ⟨w, h1, h2, _, h4⟩ := C99_weights_partial (R := Rnd.binary64 _ false) quotient_shape (3/2) (9/2) (by decide +kernel) (by norm_num)
  exact ⟨w (2 ^ 600), w 1, h1 _ (by positivity), h1 _ one_pos.le, (h2 _ (by positivity)).1, h4 _ _ one_pos.le (by decide +kernel), (h2 _ one_pos.le).2⟩

/-- C99_binary64_weights_partial at the smallest power of two that is allowed -/
example : ∃ w w' : ℚ, Corr.gaussianWeight (.fin (pow2 (-537)) : BF) (.fin (1/10)) = .fin w ∧ Corr.gaussianWeight (.fin (pow2 (-537)) : BF) (.fin 0) = .fin w' ∧
    0 ≤ w ∧ w ≤ w' ∧ w' = 1 := by
  obtain ⟨w, h1, h2, h3, h4⟩ := C99_binary64_weights_partial (fu := true) quotient_shape (pow2 (-537)) (pow2_pos _) (by decide +kernel) (by decide +kernel)
    (by decide +kernel)
  exact ⟨w (1/10), w 0, h1 _ (by norm_num), h1 _ le_rfl, (h2 _ (by norm_num)).1, h4 _ _ le_rfl (by norm_num), h3⟩

/-- the times 0.1, 0.5, 1.7 as stored -/
def aT : ℕ → ℚ := fun i => match i with | 0 => b64 (1/10) | 1 => b64 (1/2) | _ => b64 (17/10)

theorem aT_order : InOrder 3 aT := by
  intro i j hij hj
  interval_cases j <;> interval_cases i <;> decide +kernel

/-- C99_nan_partial, C99_zero_lag_partial and C99_binary64_nan_partial: times 0.1, 0.5, 1.7, two datasets, `alpha` 10^-170; the lag is the
difference of the first two times as computed -/
example : ∃ (d : DS B) (r : AcResult B), d.timeseries = b [1/10, 1/2, 17/10] ∧ r.At 0 0 (.fin 0) .nan ∧ r.At 1 0 (.fin 0) .nan ∧
    r.At 1 1 (.fin (b64 (aT 1 - aT 0))) .nan := by
  obtain ⟨d, r, hd, hr, h1, h2, h3, h4, h5, h6⟩ := callOf_ok .fabs (b [1/10, 1/2, 17/10]) [b [1, 2, 6], b [1/3, 1/7, 5]]
    ⟨some (.fin 0), some (.fin (b64 (aT 1 - aT 0))), some (.fin (b64 (aT 1 - aT 0))), some (.fin (b64 (1 / 10 ^ 170)))⟩ "natural" "gaussian"
    (fun d r => d.timeseries = samples 3 aT ∧ d.data2d = .ok [b [1, 2, 6], b [1/3, 1/7, 5]] ∧ r.corr.alpha = .fin (b64 (1 / 10 ^ 170)) ∧
      r.lags[0]? = some (.fin 0) ∧ r.lags[1]? = some (.fin (b64 (aT 1 - aT 0))) ∧ d.timeseries = b [1/10, 1/2, 17/10]) (by decide +kernel)
  refine ⟨d, r, h6, ?_, ?_, ?_⟩
  · exact C99_binary64_nan_partial d (.table hd) _ r hr h1 aT_order (by decide +kernel) _ h3 (by decide +kernel) (by decide +kernel) (by decide +kernel)
      0 _ ⟨_, h2, rfl⟩ 0 h4
  · exact C99_zero_lag_partial d (.table hd) _ _ r hr known_gaussian h1 aT_order (b64 (aT 2 - aT 0)) (by decide +kernel) _ h3 (.inr ⟨rfl, by decide +kernel⟩)
      1 _ ⟨_, h2, rfl⟩ 0 h4
  · exact C99_nan_partial d (.table hd) _ _ r hr known_gaussian h1 aT_order (b64 (aT 2 - aT 0)) (by decide +kernel) _ h3 (.inr ⟨rfl, by decide +kernel⟩)
      1 _ ⟨_, h2, rfl⟩ 1 _ h5 0 1 (by norm_num) (by norm_num) (by decide +kernel)

/-- C99_zero_lag_partial for `alpha` 0 and the default functions -/
example : ∃ (d : DS B) (r : AcResult B), d.timeseries = b [1/10, 1/2, 17/10] ∧ autocorrelation .fabs d { minLag := some (.fin 0), alpha := some (.fin 0) } = .ok r ∧
    r.At 0 0 (.fin 0) .nan := by
  obtain ⟨d, r, hd, hr, h1, h2, h3, h4, h6⟩ := callOf_ok .fabs (b [1/10, 1/2, 17/10]) [b [1, 2, 6]]
    { minLag := some (.fin 0), alpha := some (.fin 0) } "natural" "fractional"
    (fun d r => d.timeseries = samples 3 aT ∧ d.data2d = .ok [b [1, 2, 6]] ∧ r.corr.alpha = .fin 0 ∧
      r.lags[0]? = some (.fin 0) ∧ d.timeseries = b [1/10, 1/2, 17/10]) (by decide +kernel)
  exact ⟨d, r, h6, hr, C99_zero_lag_partial d (.table hd) _ _ r hr (by unfold KnownWeight; decide) h1 aT_order (b64 (aT 2 - aT 0)) (by decide +kernel) _ h3 (.inl rfl)
      0 _ ⟨_, h2, rfl⟩ 0 h4⟩

end Sacf
