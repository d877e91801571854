import Verif.Props.MoreRounded
import Verif.Cases.Base

/-!
# Cases of the theorems in `Props/MoreRounded`
-/

namespace Sacf

/-- C37_unknown_weight_fast: times 0, 1, 3 and the lag 0 only (`KeyError`), and times 0, 4, -1, 5, out of order (`IndexError`) -/
example : (∃ d : DS Q, d.timeseries = q [0, 1, 3] ∧ autocorrelation .fabs d ⟨some (.fin 0), some (.fin 0), none, none⟩ "fast" "gauss" = .exn (.keyError "gauss")) ∧
    ∃ d : DS Q, d.timeseries = q [0, 4, -1, 5] ∧ autocorrelation .fabs d ⟨some (.fin 0), some (.fin 0), none, none⟩ "fast" "gauss" = .exn .indexError ∧
      autocorrelation .fabs d ⟨some (.fin 0), some (.fin 0), none, none⟩ "fast" "gaussian" = .exn .indexError := by
  constructor
  · obtain ⟨d, c, hd, hc, h1, h2, h3⟩ := newOf_ok (q [0, 1, 3]) [q [1, 2, 6]]
      (fun d c => d.timeseries = q [0, 1, 3] ∧ Arith.le ((some (.fin 0) : Option Q).getD c.minLag) ((some (.fin 0) : Option Q).getD c.maxLag) = true ∧
        okThen (fun _ => true) (autocorrelation .fabs d ⟨some (.fin 0), some (.fin 0), none, none⟩ "fast" "gaussian") = true) (by decide +kernel)
    refine ⟨d, h1, ?_⟩
    rcases C37_unknown_weight_fast d (.table hd) ⟨some (.fin 0), some (.fin 0), none, none⟩ "gauss" (by unfold KnownWeight; decide) c hc h2 with h | ⟨_, h⟩
    · exact h
    · rw [h _ known_gaussian] at h3
      simp [okThen] at h3
  · obtain ⟨d, c, hd, hc, h1, h2, h3⟩ := newOf_ok (q [0, 4, -1, 5]) [q [1, 2, 6, 3]]
      (fun d c => d.timeseries = q [0, 4, -1, 5] ∧ Arith.le ((some (.fin 0) : Option Q).getD c.minLag) ((some (.fin 0) : Option Q).getD c.maxLag) = true ∧
        acOut .fabs d ⟨some (.fin 0), some (.fin 0), none, none⟩ "fast" "gauss" = .exn .indexError) (by decide +kernel)
    refine ⟨d, h1, ?_⟩
    rcases C37_unknown_weight_fast d (.table hd) ⟨some (.fin 0), some (.fin 0), none, none⟩ "gauss" (by unfold KnownWeight; decide) c hc h2 with h | ⟨h, h'⟩
    · rw [acOut, h] at h3
      cases h3
    · exact ⟨h, h' _ known_gaussian⟩

/-- C55_fast_rounded: binary64, `alpha` 0 -/
example : ∃ r : AcResult B, r.At 0 0 (.fin 0) .nan := by
  obtain ⟨d, r, hd, hr, h1, h2, h3, h4⟩ := callOf_ok .fabs (samples 3 wT : List B) [b [1/10, 2/10, 7/10]] ⟨some (.fin 0), some (.fin 0), none, some (.fin 0)⟩ "fast" "fractional"
    (fun d r => d.timeseries = samples 3 wT ∧ d.data2d = .ok [b [1/10, 2/10, 7/10]] ∧ r.corr.alpha = .fin 0 ∧ r.lags[0]? = some (.fin 0)) (by decide +kernel)
  have hT : (XF.round (wT (3 - 1) - wT 0) : B) = .fin 3 := by decide +kernel
  exact ⟨r, C55_fast_rounded d (.table hd) _ _ r hr known_fractional h1 (fun i j hij hj => by interval_cases j <;> interval_cases i <;> decide +kernel)
    3 hT (by norm_num) 0 h3 (.inl rfl) 0 _ ⟨_, h2, rfl⟩ 0 h4⟩

/-- C56_rounded: binary64, times 3/10, 2/10, 1/10 -/
example : ∃ (d : DS B) (r : AcResult B), d.timeseries = b [3/10, 2/10, 1/10] ∧ autocorrelation .fabs d {} "natural" "fractional" = .ok r ∧ r.lags = [] ∧
    autocorrelation .fabs d {} "fast" "fractional" = .exn .unboundLocal := by
  obtain ⟨d, c, hd, hc, h1, h2, _⟩ := newOf_ok (b [3/10, 2/10, 1/10]) [b [1, 2, 6]]
    (fun d c => d.timeseries = b [3/10, 2/10, 1/10] ∧ d.timeseries = samples 3 (fun i => b64 ([3/10, 2/10, 1/10].getD i 0)) ∧ True) (by decide +kernel)
  have hlast : Arith.lt (XF.round (b64 ([3/10, 2/10, 1/10].getD (3 - 1) 0) - b64 ([3/10, 2/10, 1/10].getD 0 0))) (.fin 0 : B) = true := by decide +kernel
  obtain ⟨r, h3, h4, _⟩ := (C56_rounded .fabs d (.table hd) 3 _ h2 c hc hlast "natural" "fractional").1 ⟨rfl, rfl⟩
  exact ⟨d, r, h1, h3, h4, (C56_rounded .fabs d (.table hd) 3 _ h2 c hc hlast "fast" "fractional").2 (by decide)⟩

end Sacf
