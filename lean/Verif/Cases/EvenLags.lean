import Verif.Props.EvenLags
import Verif.Cases.MostLags
import Verif.Cases.SameLags

/-!
# Cases for Props/EvenLags.lean
-/

namespace Sacf

/-- C124_even: the times 0, 1/2, 3 give 13 evenly spaced lags, though the times are not. -/
example : ∃ (d : DS Q) (r : AcResult Q), autocorrelation .fabs d = .ok r ∧ r.lags.length = 13 ∧ EvenlySpaced r.lags := by
  obtain ⟨d, r, hd, hr, h⟩ := callOf_ok .fabs (samples 3 sameT : List Q) [q [1, 2, 6]] {} "natural" "fractional"
    (fun d r => d.timeseries = samples 3 sameT ∧ r.lags.length = 13) (by decide +kernel)
  exact ⟨d, r, hr, h.2, (C124_even .fabs d (.table hd) 3 sameT h.1 (by norm_num) sameT_inc (by decide +kernel) _ sameT_gap none _ _ r hr).2 ⟨6, by decide +kernel⟩⟩

theorem mostT_no_multiple : ¬ ∃ n : ℕ, mostT (3 - 1) - mostT 0 = n * 1 := by
  rintro ⟨n, hn⟩
  have h7 : (7 : ℚ) / 2 = n := by rw [← mul_one (n : ℚ), ← hn]; decide +kernel
  have : (7 : ℚ) = ((2 * n : ℕ) : ℚ) := by push_cast; linarith
  have : 7 = 2 * n := by exact_mod_cast this
  omega

/-- C124_even and C124_split: the times 0, 1, 7/2 have smallest gap 1 and span 7/2; the lags are not evenly spaced. -/
example : ∃ (d : DS Q) (r : AcResult Q), autocorrelation .fabs d = .ok r ∧ r.lags = q [-7/2, -5/2, -3/2, -1/2, 0, 1/2, 3/2, 5/2, 7/2] ∧ ¬ EvenlySpaced r.lags ∧
    ∃ i j : ℕ, ∃ u v : ℚ, u < 0 ∧ 0 < v ∧ v - u = 1 ∧
      r.lags = (List.range (i + 1)).map (fun n : ℕ => .fin (u - ((i - n : ℕ) : ℚ) * 1)) ++ .fin 0 :: (List.range (j + 1)).map (fun n : ℕ => .fin (v + n * 1)) := by
  obtain ⟨d, r, hd, hr, h⟩ := callOf_ok .fabs (samples 3 mostT : List Q) [q [1, 2, 6]] {} "natural" "fractional"
    (fun d r => d.timeseries = samples 3 mostT ∧ r.lags = q [-7/2, -5/2, -3/2, -1/2, 0, 1/2, 3/2, 5/2, 7/2]) (by decide +kernel)
  exact ⟨d, r, hr, h.2, fun he => mostT_no_multiple
    ((C124_even .fabs d (.table hd) 3 mostT h.1 (by norm_num) mostT_inc (by decide +kernel) _ mostT_gap none _ _ r hr).1 he),
    C124_split .fabs d (.table hd) 3 mostT h.1 (by norm_num) mostT_inc (by decide +kernel) _ mostT_gap none _ _ r hr mostT_no_multiple⟩

/-- C124_binary64: the times 0, 1, 7/2 as doubles. -/
example : ∃ (d : DS B) (r : AcResult B), autocorrelation .fabs d {} "natural" "gaussian" = .ok r ∧ r.lags.length = 9 ∧ ¬ EvenlySpaced r.lags := by
  obtain ⟨d, r, hd, hr, h⟩ := callOf_ok .fabs (samples 3 (fun i => ((([0, 2, 7] : List ℤ).getD i 0 : ℤ) : ℚ) * pow2 (-1)) : List B) [b [1, 2, 6]] {} "natural" "gaussian"
    (fun d r => d.timeseries = samples 3 (fun i => ((([0, 2, 7] : List ℤ).getD i 0 : ℤ) : ℚ) * pow2 (-1)) ∧ r.lags.length = 9) (by decide +kernel)
  have hinc : IncreasingZ 3 fun i => ([0, 2, 7] : List ℤ).getD i 0 := by
    have h : ∀ j < 3, ∀ i < 3, i < j → ([0, 2, 7] : List ℤ).getD i 0 < ([0, 2, 7] : List ℤ).getD j 0 := by decide +kernel
    exact fun i j hij hj => h j hj i (by omega) hij
  have hgap : IsMinGapZ 3 (fun i => ([0, 2, 7] : List ℤ).getD i 0) 2 := by
    refine ⟨⟨0, 1, by omega, by omega, by decide +kernel⟩, ?_⟩
    have h : ∀ j < 3, ∀ i < 3, i < j → 2 ≤ ([0, 2, 7] : List ℤ).getD j 0 - ([0, 2, 7] : List ℤ).getD i 0 := by decide +kernel
    exact fun i j hij hj => h j hj i (by omega) hij
  obtain ⟨r', hr', h0⟩ := C124_binary64 (e := -1) ⟨.table hd, h.1, hinc, by norm_num, by norm_num, by norm_num, by norm_num⟩ (by norm_num) 2 hgap
    (by decide +kernel) (by decide +kernel) none "gaussian" known_gaussian
  rw [hr] at hr'
  cases hr'
  exact ⟨d, r, hr, h.2, fun he => absurd (h0.1 he) (by decide +kernel)⟩

end Sacf
