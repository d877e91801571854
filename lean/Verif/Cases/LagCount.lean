import Verif.Props.LagCount
import Verif.Cases.Base

/-!
# Cases for Props/LagCount.lean
-/

namespace Sacf

/-- the times 0, 1, 3.5 -/
def lcT (i : ℕ) : ℚ := ([0, 1, 7/2] : List ℚ).getD i 0

theorem lcT_inc : Increasing 3 lcT := by
  have h : ∀ j < 3, ∀ i < 3, i < j → lcT i < lcT j := by decide +kernel
  exact fun i j hij hj => h j hj i (by omega) hij

theorem lcT_gap : IsMinGap 3 lcT 1 := by
  refine ⟨⟨0, 1, by omega, by omega, by decide +kernel⟩, ?_⟩
  have h : ∀ j < 3, ∀ i < 3, i < j → 1 ≤ lcT j - lcT i := by decide +kernel
  exact fun i j hij hj => h j hj i (by omega) hij

/-- C117_count and C117_regular: the times 0, 1, 3.5 give the lags -3.5, …, 3.5 and 0: nine, more than five. -/
example : ∃ (d : DS Q) (r : AcResult Q), autocorrelation .fabs d = .ok r ∧ r.lags.length = 9 ∧
    ¬ (∃ δ : ℚ, ∀ i < 3, lcT i = lcT 0 + i * δ) := by
  classical
  obtain ⟨d, c, hd, hc, h⟩ := newOf_ok (samples 3 lcT : List Q) [q [1, 2, 6]] (fun d _ => d.timeseries = samples 3 lcT ∧
    okThen (fun r => decide (r.lags.length = 9)) (autocorrelation .fabs d) = true) (by decide +kernel)
  obtain ⟨r, hr, _⟩ := okThen_ok h.2
  have h1 := C117_count .fabs d (.table hd) 3 lcT h.1 (by norm_num) lcT_inc (by decide +kernel) 1 lcT_gap none _ _ r hr
  have h2 := C117_regular .fabs d (.table hd) 3 lcT h.1 (by norm_num) lcT_inc (by decide +kernel) none _ _ r hr
  have e1 : ⌊2 * (lcT (3 - 1) - lcT 0) / 1⌋ = 7 := by decide +kernel
  have e2 : ¬ ∃ n : ℕ, lcT (3 - 1) - lcT 0 = n * 1 := by
    rintro ⟨n, hn⟩
    have e3 : lcT (3 - 1) - lcT 0 = 7 / 2 := by decide +kernel
    rw [e3, mul_one, div_eq_iff (by norm_num)] at hn
    have : (7 : ℤ) = n * 2 := by exact_mod_cast hn
    omega
  rw [e1, if_neg e2] at h1
  have h3 : r.lags.length = 9 := by omega
  refine ⟨d, r, hr, h3, fun hreg => ?_⟩
  have := h2.2.2 hreg
  omega

/-- C117_unbounded: three samples, a million and one lags. -/
example : ∃ (d : DS Q) (r : AcResult Q), mkFlat (q [0, 1, 500000]) (q [1, 2, 6]) = .ok d ∧ autocorrelation .fabs d = .ok r ∧ r.lags.length = 1000001 ∧
    ∃ m, autocorrelationT .fabs d {} = .ok (r, m) ∧ 1000001 ≤ m :=
  C117_unbounded 500000 (by norm_num) (by norm_num) (by decide +kernel) _ rfl

/-- C117_ticks and C117_binary64: the times 0, 1/4, 7/8 as doubles: 2T/δ = 7, and 0. -/
example : ∃ (d : DS B) (r r' : AcResult B), autocorrelation .fabs d {} "natural" "fractional" = .ok r ∧ r.lags.length = 9 ∧
    autocorrelation .fabs d {} "natural" "fractional_squared" = .ok r' ∧ r'.lags.length = 9 := by
  obtain ⟨d, c, hd, hc, h⟩ := newOf_ok (samples 3 (fun i => ((([0, 2, 7] : List ℤ).getD i 0 : ℤ) : ℚ) * pow2 (-3)) : List B) [b [1, 2, 6]]
    (fun d _ => d.timeseries = samples 3 (fun i => ((([0, 2, 7] : List ℤ).getD i 0 : ℤ) : ℚ) * pow2 (-3))) (by decide +kernel)
  have hinc : IncreasingZ 3 fun i => ([0, 2, 7] : List ℤ).getD i 0 := by
    have h : ∀ j < 3, ∀ i < 3, i < j → ([0, 2, 7] : List ℤ).getD i 0 < ([0, 2, 7] : List ℤ).getD j 0 := by decide +kernel
    exact fun i j hij hj => h j hj i (by omega) hij
  have hgap : IsMinGapZ 3 (fun i => ([0, 2, 7] : List ℤ).getD i 0) 2 := by
    refine ⟨⟨0, 1, by omega, by omega, by decide +kernel⟩, ?_⟩
    have h : ∀ j < 3, ∀ i < 3, i < j → 2 ≤ ([0, 2, 7] : List ℤ).getD j 0 - ([0, 2, 7] : List ℤ).getD i 0 := by decide +kernel
    exact fun i j hij hj => h j hj i (by omega) hij
  obtain ⟨r, hr, hl⟩ := C117_binary64 (e := -3) ⟨.table hd, h, hinc, by norm_num, by norm_num, by norm_num, by norm_num⟩ (by norm_num) 2 hgap
    (by decide +kernel) (by decide +kernel) none "fractional" (by simp [KnownWeight])
  obtain ⟨r', hr', hl'⟩ := C117_ticks (exactUnit64 (-3) (by norm_num) (by norm_num)) d (.table hd) 3 _ h (by norm_num) hinc 2 hgap (by decide +kernel)
    7 (by decide +kernel) (by norm_num) (by
      intro n hn
      have := (exactUnit64 (ex := fun x => 1 / (1 - x)) (fu := false) 0 (by norm_num) (by norm_num)).exact n (hn.trans (by norm_num))
      rwa [pow2_zero, mul_one] at this) none "fractional_squared" (by simp [KnownWeight])
  refine ⟨d, r, r', hr, ?_, hr', ?_⟩
  · have : (r.lags.length : ℤ) = 9 := hl.trans (by decide +kernel)
    exact_mod_cast this
  · have : (r'.lags.length : ℤ) = 9 := hl'.trans (by decide +kernel)
    exact_mod_cast this

end Sacf
