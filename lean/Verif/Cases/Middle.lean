import Verif.Props.Middle
import Verif.Cases.MostLags

/-!
# Cases for Props/Middle.lean
-/

namespace Sacf

/-- C122_middle_partial and C122_symmetric: the times 0, 1, 7/2 give nine lags, the fifth is 0, and they are symmetric. -/
example : ∃ (d : DS Q) (r : AcResult Q), autocorrelation .fabs d = .ok r ∧ r.lags.length = 9 ∧ r.lags[4]? = some (.fin 0) ∧
    ∀ k, .fin k ∈ r.lags → .fin (-k) ∈ r.lags := by
  obtain ⟨d, r, hd, hr, h⟩ := callOf_ok .fabs (samples 3 mostT : List Q) [q [1, 2, 6]] {} "natural" "fractional"
    (fun d r => d.timeseries = samples 3 mostT ∧ r.lags.length = 9) (by decide +kernel)
  have h0 := (C122_middle_partial .fabs d (.table hd) 3 mostT h.1 (by norm_num) mostT_inc (by decide +kernel) none _ _ r hr).1
  rw [h.2] at h0
  exact ⟨d, r, hr, h.2, h0, (C122_symmetric .fabs d (.table hd) 3 mostT h.1 (by norm_num) mostT_inc (by decide +kernel) 1 mostT_gap none _ _ r hr).2
    ⟨7, by decide +kernel⟩⟩

/-- C122_middle_partial and C122_symmetric: the times 0, 3, 7 give six lags, -7, -4, -1, 0, 2, 5; the one at position 3 is 0, and they are not symmetric. -/
example : ∃ (d : DS Q) (r : AcResult Q), autocorrelation .fabs d = .ok r ∧ r.lags = q [-7, -4, -1, 0, 2, 5] ∧ r.lags[3]? = some (.fin 0) ∧
    ¬ ∀ k, .fin k ∈ r.lags → .fin (-k) ∈ r.lags := by
  obtain ⟨d, r, hd, hr, h⟩ := callOf_ok .fabs (samples 3 fun i => ([0, 3, 7] : List ℚ).getD i 0 : List Q) [q [1, 2, 6]] {} "natural" "fractional"
    (fun d r => d.timeseries = samples 3 (fun i => ([0, 3, 7] : List ℚ).getD i 0) ∧ r.lags = q [-7, -4, -1, 0, 2, 5]) (by decide +kernel)
  have hinc : Increasing 3 fun i => ([0, 3, 7] : List ℚ).getD i 0 := increasing_of_succ fun i hi => by
    have : i < 2 := by omega
    interval_cases i <;> decide +kernel
  have hgap : IsMinGap 3 (fun i => ([0, 3, 7] : List ℚ).getD i 0) 3 := by
    refine ⟨⟨0, 1, by norm_num, by norm_num, by decide +kernel⟩, fun i j hij hj => ?_⟩
    have : i < 2 := by omega
    interval_cases j <;> interval_cases i <;> first | omega | decide +kernel
  have h0 := (C122_middle_partial .fabs d (.table hd) 3 _ h.1 (by norm_num) hinc (by decide +kernel) none _ _ r hr).1
  have hl : r.lags.length / 2 = 3 := by rw [h.2]; decide +kernel
  rw [hl] at h0
  refine ⟨d, r, hr, h.2, h0, ?_⟩
  rw [C122_symmetric .fabs d (.table hd) 3 _ h.1 (by norm_num) hinc (by decide +kernel) 3 hgap none _ _ r hr]
  rintro ⟨n, hn⟩
  have h14 : (14 : ℚ) = n * 3 := by rw [← hn]; decide +kernel
  have : 14 = n * 3 := by exact_mod_cast h14
  omega

/-- C122_binary64_partial: the times 0, 1, 7/2 as doubles. -/
example : ∃ (d : DS B) (r : AcResult B), autocorrelation .fabs d {} "natural" "gaussian" = .ok r ∧ r.lags[r.lags.length / 2]? = some (.fin 0) ∧ r.lags.length = 9 := by
  obtain ⟨d, r, hd, hr, h⟩ := callOf_ok .fabs (samples 3 (fun i => ((([0, 2, 7] : List ℤ).getD i 0 : ℤ) : ℚ) * pow2 (-1)) : List B) [b [1, 2, 6]] {} "natural" "gaussian"
    (fun d r => d.timeseries = samples 3 (fun i => ((([0, 2, 7] : List ℤ).getD i 0 : ℤ) : ℚ) * pow2 (-1)) ∧ r.lags.length = 9) (by decide +kernel)
  have hinc : IncreasingZ 3 fun i => ([0, 2, 7] : List ℤ).getD i 0 := by
    have h : ∀ j < 3, ∀ i < 3, i < j → ([0, 2, 7] : List ℤ).getD i 0 < ([0, 2, 7] : List ℤ).getD j 0 := by decide +kernel
    exact fun i j hij hj => h j hj i (by omega) hij
  have hgap : IsMinGapZ 3 (fun i => ([0, 2, 7] : List ℤ).getD i 0) 2 := by
    refine ⟨⟨0, 1, by omega, by omega, by decide +kernel⟩, ?_⟩
    have h : ∀ j < 3, ∀ i < 3, i < j → 2 ≤ ([0, 2, 7] : List ℤ).getD j 0 - ([0, 2, 7] : List ℤ).getD i 0 := by decide +kernel
    exact fun i j hij hj => h j hj i (by omega) hij
  obtain ⟨r', hr', h0, _⟩ := C122_binary64_partial (e := -1) ⟨.table hd, h.1, hinc, by norm_num, by norm_num, by norm_num, by norm_num⟩ (by norm_num) 2 hgap
    (by decide +kernel) (by decide +kernel) none "gaussian" known_gaussian
  rw [hr] at hr'
  cases hr'
  exact ⟨d, r, hr, h0, h.2⟩

/-- the doubles 0.3, 0.6, 2.4 -/
def midT (i : ℕ) : ℚ := ([5404319552844595/18014398509481984, 5404319552844595/9007199254740992, 5404319552844595/2251799813685248] : List ℚ).getD i 0

/-- C122_near_partial: the times of C122_false; zero is one place before the middle. -/
example : ∃ (d : DS B) (r : AcResult B), autocorrelation .fabs d = .ok r ∧ r.lags.length = 16 ∧ r.lags[8]? ≠ some (.fin 0) ∧
    ∃ p, r.lags[p]? = some (.fin 0) ∧ p ≤ 9 ∧ 8 ≤ p + 1 := by
  obtain ⟨d, r, hd, hr, h⟩ := callOf_ok .fabs (samples 3 midT : List B) [b [1, 2, 6]] {} "natural" "fractional"
    (fun d r => d.timeseries = samples 3 midT ∧ r.lags.length = 16 ∧ r.lags[8]? ≠ some (.fin 0)) (by decide +kernel)
  have hinc : Increasing 3 midT := increasing_of_succ fun i hi => by
    have : i < 2 := by omega
    interval_cases i <;> decide +kernel
  have hgap : IsMinGap 3 midT (midT 1 - midT 0) := by
    refine ⟨⟨0, 1, by norm_num, by norm_num, rfl⟩, fun i j hij hj => ?_⟩
    have : i < 2 := by omega
    interval_cases j <;> interval_cases i <;> first | omega | decide +kernel
  have h' := C122_near_partial .fabs d (.table hd) 3 midT h.1 (by norm_num) hinc _ hgap (by decide +kernel) (by decide +kernel) (by decide +kernel) none _ _ r hr
  rw [h.2.1] at h'
  exact ⟨d, r, hr, h.2.1, h.2.2, h'⟩

end Sacf
