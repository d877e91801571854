import Verif.Props.SameLags
import Verif.Cases.Base

/-!
# Cases for Props/SameLags.lean
-/

namespace Sacf

/-- the times 0, 1/2, 3 and 5, 7, 15/2, 8 and 0, 3/2, 3 -/
def sameT (i : ℕ) : ℚ := ([0, 1/2, 3] : List ℚ).getD i 0
def sameU (i : ℕ) : ℚ := ([5, 7, 15/2, 8] : List ℚ).getD i 0
def sameV (i : ℕ) : ℚ := ([0, 3/2, 3] : List ℚ).getD i 0

theorem sameT_inc : Increasing 3 sameT := increasing_of_succ fun i hi => by
  have : i < 2 := by omega
  interval_cases i <;> decide +kernel
theorem sameU_inc : Increasing 4 sameU := increasing_of_succ fun i hi => by
  have : i < 3 := by omega
  interval_cases i <;> decide +kernel
theorem sameV_inc : Increasing 3 sameV := increasing_of_succ fun i hi => by
  have : i < 2 := by omega
  interval_cases i <;> decide +kernel
theorem sameT_gap : IsMinGap 3 sameT (1/2) := by
  refine ⟨⟨0, 1, by norm_num, by norm_num, by decide +kernel⟩, fun i j hij hj => ?_⟩
  have : i < 2 := by omega
  interval_cases j <;> interval_cases i <;> first | omega | decide +kernel
theorem sameU_gap : IsMinGap 4 sameU (1/2) := by
  refine ⟨⟨1, 2, by norm_num, by norm_num, by decide +kernel⟩, fun i j hij hj => ?_⟩
  have : i < 3 := by omega
  interval_cases j <;> interval_cases i <;> first | omega | decide +kernel
theorem sameV_gap : IsMinGap 3 sameV (3/2) := by
  refine ⟨⟨0, 1, by norm_num, by norm_num, by decide +kernel⟩, fun i j hij hj => ?_⟩
  have : i < 2 := by omega
  interval_cases j <;> interval_cases i <;> first | omega | decide +kernel

/-- C123_iff in both directions: three samples and two rows of four samples with the same span 3 and the same smallest gap 1/2 share the 13 lags; with the smallest gap 3/2
the lags are others. -/
example : ∃ (d d' d'' : DS Q) (r r' r'' : AcResult Q), autocorrelation .fabs d = .ok r ∧ autocorrelation .fabs d' {} "natural" "gaussian" = .ok r' ∧
    autocorrelation .fabs d'' = .ok r'' ∧ r.lags = r'.lags ∧ r.lags.length = 13 ∧ r.lags ≠ r''.lags := by
  obtain ⟨d, r, hd, hr, h⟩ := callOf_ok .fabs (samples 3 sameT : List Q) [q [1, 2, 6]] {} "natural" "fractional"
    (fun d r => d.timeseries = samples 3 sameT ∧ r.lags.length = 13) (by decide +kernel)
  obtain ⟨d', r', hd', hr', h'⟩ := callOf_ok .fabs (samples 4 sameU : List Q) [q [1, 2, 6, 3], q [0, 1, 5, 2]] {} "natural" "gaussian"
    (fun d _ => d.timeseries = samples 4 sameU) (by decide +kernel)
  obtain ⟨d'', r'', hd'', hr'', h''⟩ := callOf_ok .fabs (samples 3 sameV : List Q) [q [1, 2, 6]] {} "natural" "fractional"
    (fun d _ => d.timeseries = samples 3 sameV) (by decide +kernel)
  refine ⟨d, d', d'', r, r', r'', hr, hr', hr'', ?_, h.2, ?_⟩
  · exact (C123_iff .fabs .fabs d d' (.table hd) (.table hd') 3 4 sameT sameU h.1 h' (by norm_num) (by norm_num) sameT_inc sameU_inc (by decide +kernel) (by decide +kernel)
      _ _ sameT_gap sameU_gap none none _ _ _ _ r r' hr hr').2 ⟨by decide +kernel, rfl⟩
  · intro e
    have := ((C123_iff .fabs .fabs d d'' (.table hd) (.table hd'') 3 3 sameT sameV h.1 h'' (by norm_num) (by norm_num) sameT_inc sameV_inc (by decide +kernel) (by decide +kernel)
      _ _ sameT_gap sameV_gap none none _ _ _ _ r r'' hr hr'').1 e).2
    norm_num at this

/-- C123_same in binary64: the same two objects with a range of their own. -/
example : ∃ (d d' : DS B) (r r' : AcResult B), autocorrelation .fabs d ⟨none, some (.fin 1), none, none⟩ "natural" "fractional" = .ok r ∧
    autocorrelation .fabs d' ⟨none, some (.fin 1), none, some (.fin 2)⟩ "natural" "gaussian" = .ok r' ∧ r.lags = r'.lags ∧ r.lags.length = 9 := by
  obtain ⟨d, r, hd, hr, h⟩ := callOf_ok .fabs (b [0, 1/2, 3]) [b [1, 2, 6]] ⟨none, some (.fin 1), none, none⟩ "natural" "fractional"
    (fun d r => r.lags.length = 9 ∧ okThen (fun c => decide (c.maxLag = .fin 3 ∧ c.lagRes = .fin (1/2))) (Corr.new d) = true) (by decide +kernel)
  obtain ⟨d', r', hd', hr', h'⟩ := callOf_ok .fabs (b [5, 7, 15/2, 8]) [b [1, 2, 6, 3], b [0, 1, 5, 2]] ⟨none, some (.fin 1), none, some (.fin 2)⟩ "natural" "gaussian"
    (fun d _ => okThen (fun c => decide (c.maxLag = .fin 3 ∧ c.lagRes = .fin (1/2))) (Corr.new d) = true) (by decide +kernel)
  obtain ⟨c, hc, hc2⟩ := okThen_ok h.2
  obtain ⟨c', hc', hc2'⟩ := okThen_ok h'
  have hc2 := of_decide_eq_true hc2
  have hc2' := of_decide_eq_true hc2'
  exact ⟨d, d', r, r', hr, hr', C123_same .fabs .fabs d d' (.table hd) (.table hd') c c' hc hc' (hc2.1.trans hc2'.1.symm) (hc2.2.trans hc2'.2.symm) ⟨none, some (.fin 1), none, none⟩
    ⟨none, some (.fin 1), none, some (.fin 2)⟩ rfl rfl rfl
    _ _ _ _ r r' hr hr', h.1⟩

end Sacf
