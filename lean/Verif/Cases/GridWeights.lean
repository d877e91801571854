import Verif.Props.GridWeights

/-!
# Concrete cases for coinciding samples
-/

set_option exponentiation.threshold 3000

namespace Sacf

/-- times 0, 1, 2, 5, 6, 7 -/
def coT (i : ℕ) : ℤ := [0, 1, 2, 5, 6, 7].getD i 0

/-- C103_coinciding: irregular times 0, 1, 2, 5, 6, 7 and the lag 5; fractional weight with `alpha = 1` and Gaussian weight with `alpha = 1/4`; the values contain NaN -/
example : ∃ (d : DS Sacf.B) (r r' : AcResult Sacf.B) (v : Sacf.B), Constructed d ∧ d.HasRow 0 [.fin 1, .fin 3, .nan, .fin 2, .fin (1/3), .fin 5] ∧
    autocorrelation .fabs d ⟨some (.fin 5), some (.fin 5), none, some (.fin 1)⟩ "natural" "fractional" = .ok r ∧
    autocorrelation .fabs d ⟨some (.fin 5), some (.fin 5), none, some (.fin (1/4))⟩ "natural" "gaussian" = .ok r' ∧
    r.At 0 1 (.fin 5) v ∧ r'.At 0 1 (.fin 5) v := by
  obtain ⟨d, r, hd, hr, ht, hrow, ha, hl⟩ := callOf_ok .fabs (b [0, 1, 2, 5, 6, 7]) [[.fin 1, .fin 3, .nan, .fin 2, .fin (1/3), .fin 5]]
    ⟨some (.fin 5), some (.fin 5), none, some (.fin 1)⟩ "natural" "fractional"
    (fun d r => d.timeseries = samples 6 (fun i => (coT i : ℚ) * pow2 0) ∧ d.data2d = .ok [[.fin 1, .fin 3, .nan, .fin 2, .fin (1/3), .fin 5]] ∧
      r.corr.alpha = .fin 1 ∧ r.lags[1]? = some (.fin ((5 : ℤ) * pow2 0))) (by decide +kernel)
  obtain ⟨d', r', hd', hr', ha', hl'⟩ := callOf_ok .fabs (b [0, 1, 2, 5, 6, 7]) [[.fin 1, .fin 3, .nan, .fin 2, .fin (1/3), .fin 5]]
    ⟨some (.fin 5), some (.fin 5), none, some (.fin (1/4))⟩ "natural" "gaussian"
    (fun _ r => r.corr.alpha = .fin (1/4) ∧ r.lags[1]? = some (.fin ((5 : ℤ) * pow2 0))) (by decide +kernel)
  obtain rfl := Res.ok.inj (hd.symm.trans hd')
  have hα : PlainAlpha "fractional" r.corr.alpha := by
    rw [ha]
    exact plain64 (by unfold KnownWeight; simp) (by norm_num) (fun h => absurd h (by decide))
  have hα' : PlainAlpha "gaussian" r'.corr.alpha := by
    rw [ha']
    exact plain64 (by unfold KnownWeight; simp) (by norm_num) (fun _ => ⟨by norm_num, by decide +kernel, by decide +kernel, by decide +kernel⟩)
  obtain ⟨v, h1, h2⟩ := C103_coinciding (exactUnit64 0 (by norm_num) (by norm_num)) (.table hd) ht (fun i j hij hj => by
      interval_cases j <;> interval_cases i <;> decide) hr hr' hα hα' 1 1 5 hl hl' (by decide) (by decide) 0 _ ⟨_, hrow, rfl⟩
  have e : (((5 : ℤ) : ℚ) * pow2 0) = 5 := by rw [pow2_zero]; norm_num
  rw [e] at h1 h2
  exact ⟨d, r, r', v, .table hd, ⟨_, hrow, rfl⟩, hr, hr', h1, h2⟩

/-- C103_binary64: times 10, 10.25, 10.5, Gaussian weight, `alpha = 1/4`, lag 0.25 -/
example : ∃ (d : DS Sacf.B) (r r' : AcResult Sacf.B) (v : Sacf.B), d.HasRow 0 (b [1, 1/3, 7]) ∧
    autocorrelation .fabs d {} "natural" "fractional" = .ok r ∧ autocorrelation .fabs d { alpha := some (.fin (1/4)) } "natural" "gaussian" = .ok r' ∧
    r'.lags = r.lags ∧ r.At 0 3 (.fin ((1 * 1 : ℤ) * pow2 (-2))) v ∧ r'.At 0 3 (.fin ((1 * 1 : ℤ) * pow2 (-2))) v := by
  obtain ⟨d, r0, hd, hr0, ht, hrow⟩ := callOf_ok .fabs (b [10, 41/4, 21/2]) [b [1, 1/3, 7]] {} "natural" "fractional"
    (fun d _ => d.timeseries = samples 3 (fun i => ((40 + i * 1 : ℤ) : ℚ) * pow2 (-2)) ∧ d.data2d = .ok [b [1, 1/3, 7]]) (by decide +kernel)
  obtain ⟨r, r', hr, hr', hl, h⟩ := C103_binary64 (a := 40) (p := 1) (e := -2)
    ⟨.table hd, ht, by norm_num, by norm_num, by norm_num, by norm_num, by norm_num, by norm_num⟩ (wt := "gaussian") (by unfold KnownWeight; simp) (α := 1/4) (by norm_num)
    (fun _ => ⟨by norm_num, by decide +kernel, by decide +kernel, by decide +kernel⟩)
  obtain ⟨v, h1, h2⟩ := h 0 _ ⟨_, hrow, rfl⟩ 1 (by norm_num)
  exact ⟨d, r, r', v, ⟨_, hrow, rfl⟩, hr, hr', hl, h1, h2⟩

/-- C103_negative_lags: at lag -1 two `alpha` give different values -/
example : ∃ (d : DS Sacf.B) (r r' : AcResult Sacf.B), Regular64 d 2 0 1 0 ∧ r.At 0 0 (.fin (-1)) (.fin (-1/4)) ∧ r'.At 0 0 (.fin (-1)) (.fin 0) :=
  let ⟨d, h, r, r', _, _, h1, h2⟩ := C103_negative_lags
  ⟨d, r, r', h, h1, h2⟩

end Sacf
