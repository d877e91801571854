import Verif.Cases.Base
import Verif.Props.LagGrid

/-! Cases for `Props/LagGrid.lean`: times 0, 1, 3 and values 1, 2, 6, default lags -3, …, 3, and the range from -2 to 5/2 in steps of 3/2. -/

namespace Sacf

/-- the lags -2, -1/2, 0, 1, 5/2 -/
theorem call_steps : ∃ (d : DS Q) (r : AcResult Q), Constructed d ∧
    autocorrelation .fabs d ⟨some (.fin (-2)), some (.fin (5/2)), some (.fin (3/2)), none⟩ "natural" "fractional" = .ok r ∧
    r.corr.minLag = .fin (-2) ∧ r.corr.maxLag = .fin (5/2) ∧ r.corr.lagRes = .fin (3/2) := by
  obtain ⟨d, r, hd, hr, h⟩ := callOf_ok .fabs (samples 3 wT : List Q) [samples 3 wX] ⟨some (.fin (-2)), some (.fin (5/2)), some (.fin (3/2)), none⟩
    "natural" "fractional" (fun _ r => r.corr.minLag = .fin (-2) ∧ r.corr.maxLag = .fin (5/2) ∧ r.corr.lagRes = .fin (3/2)) (by decide +kernel)
  exact ⟨d, r, .table hd, hr, h⟩

/-- C17_lag_list -/
example : ∃ (r : AcResult Q) (m : ℕ), GridCount (.fin (-2) : Q) (.fin (5/2)) (.fin (3/2)) m ∧ IsLagList (.fin (-2) : Q) (.fin (3/2)) m r.lags := by
  obtain ⟨d, r, hd, hr, h1, h2, h3⟩ := call_steps
  have h := C17_lag_list .fabs d hd _ _ _ r hr
  rw [h1, h2, h3] at h
  exact ⟨r, h⟩

/-- C17_grid: 5/2 is a lag (the third step), and so is 0 (the second step is 1) -/
example : ∃ (r : AcResult Q) (ks : List ℚ), r.lags = ks.map .fin ∧ ks.Pairwise (· < ·) ∧ (5/2 : ℚ) ∈ ks ∧ (0 : ℚ) ∈ ks := by
  obtain ⟨d, r, hd, hr, h1, h2, h3⟩ := call_steps
  obtain ⟨ks, h4, h5, h6⟩ := C17_grid .fabs d hd _ _ _ r hr _ _ _ h1 h2 h3 (by norm_num)
  exact ⟨r, ks, h4, h5, (h6 _).2 (.inl ⟨3, by norm_num, le_rfl⟩), (h6 _).2 (.inr ⟨rfl, 2, by norm_num, by norm_num⟩)⟩

/-- C18_zero_once_partial and C18_at_most_once_partial -/
example : ∃ r : AcResult Q, r.lags.count (.fin 0) = 1 ∧ (∀ x ∈ r.lags, ∃ k, x = .fin k ∧ -2 ≤ k ∧ k ≤ 5/2) ∧ r.lags.count (.fin 1) ≤ 1 := by
  obtain ⟨d, r, hd, hr, h1, h2, h3⟩ := call_steps
  obtain ⟨h4, h5⟩ := C18_zero_once_partial .fabs d hd _ _ _ r hr _ _ _ h1 h2 h3 (by norm_num) (by norm_num) ⟨2, by norm_num, by norm_num⟩
  exact ⟨r, h4, h5, C18_at_most_once_partial .fabs d hd _ _ _ r hr _ _ _ h1 h2 h3 (by norm_num) _⟩

/-- C18_default_partial -/
example : ∃ r : AcResult Q, r.lags.count (.fin 0) = 1 ∧ ∀ x ∈ r.lags, ∃ k, x = .fin k ∧ -3 ≤ k ∧ k ≤ 3 := by
  obtain ⟨d, r, h, _⟩ := naturalRun_witness
  obtain ⟨h1, h2⟩ := C18_default_partial .fabs d h.built 3 wT h.times (by norm_num) wT_inc (by decide +kernel) none _ _ r h.run
  have e : wT (3 - 1) - wT 0 = 3 := by decide +kernel
  rw [e] at h2
  exact ⟨r, h1, h2⟩

/-- C21_default_range_partial -/
example : ∃ (d : DS Q) (r : AcResult Q), d.timeseries = samples 3 wT ∧
    autocorrelation .fabs d ⟨some (.fin (-5/2)), some (.fin 2), some (.fin 1), none⟩ "natural" "fractional" = .ok r := by
  obtain ⟨d, hd, ht, _⟩ := object (samples 3 wT : List Q) (samples 3 wX) (by simp [samples]) (by simp [samples])
  have e : wT (3 - 1) - wT 0 = 3 := by decide +kernel
  rcases C21_default_range_partial d (.flat hd) 3 wT ht (by norm_num) wT_inc (by decide +kernel) 1 wT_gap (by decide +kernel)
    ⟨some (.fin (-5/2)), some (.fin 2), some (.fin 1), none⟩ "fractional" (by unfold KnownWeight; simp) (by rw [e]; norm_num) (by rw [e]; norm_num) (by norm_num)
    with ⟨r, hr⟩ | ⟨h, _⟩
  · exact ⟨d, r, ht, hr⟩
  · exact absurd rfl h

/-- C45_never_returns and C45_overflow: a resolution of zero -/
example : ∃ d : DS Q, d.timeseries = samples 3 wT ∧ (∀ r, autocorrelation .fabs d { lagRes := some (.fin 0) } "fast" "gaussian" ≠ .ok r) ∧
    autocorrelation .fabs d { lagRes := some (.fin 0) } "natural" "gaussian" = .ub := by
  obtain ⟨d, c, hd, hc, h1, h2, h3⟩ := newOf_ok (samples 3 wT : List Q) [samples 3 wX] (fun d c => d.timeseries = samples 3 wT ∧ c.minLag = .fin (-3) ∧ c.maxLag = .fin 3)
    (by decide +kernel)
  have hres : Arith.le (Option.getD (some (.fin 0 : Q)) c.lagRes) (.fin 0) = true := by rw [Option.getD_some]; decide +kernel
  have hlo : (Option.getD (none : Option Q) c.minLag).IsDouble := by rw [h2]; rfl
  have hlo' : Option.getD (none : Option Q) c.minLag ≠ .pinf := by rw [h2]; simp
  have hle : Arith.le (Option.getD (none : Option Q) c.minLag) (Option.getD (none : Option Q) c.maxLag) = true := by rw [h2, h3]; decide +kernel
  exact ⟨d, h1, fun r => C45_never_returns .fabs d (.table hd) { lagRes := some (.fin 0) } _ _ c hc hlo hlo' hres hle r,
    C45_overflow d (.table hd) { lagRes := some (.fin 0) } "gaussian" (by unfold KnownWeight; simp) c hc hlo hlo' hres hle⟩

end Sacf
