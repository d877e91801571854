import Verif.Props.MostLags
import Verif.Cases.Base

/-!
# Cases for Props/MostLags.lean
-/

namespace Sacf

/-- the times 0, 1, 7/2 -/
def mostT (i : ℕ) : ℚ := ([0, 1, 7/2] : List ℚ).getD i 0

theorem mostT_inc : Increasing 3 mostT := increasing_of_succ fun i hi => by
  have : i < 2 := by omega
  interval_cases i <;> decide +kernel

theorem mostT_gap : IsMinGap 3 mostT 1 := by
  refine ⟨⟨0, 1, by norm_num, by norm_num, by decide +kernel⟩, fun i j hij hj => ?_⟩
  have : i < 2 := by omega
  interval_cases j <;> interval_cases i <;> first | omega | decide +kernel

/-- C121_attained and C121_bound: span 7/2 and gap 1 give 9 lags by default; resolution 14/17 gives the 10 that are possible, 14/19 is undefined. -/
example : ∃ (d : DS Q) (r : AcResult Q), autocorrelation .fabs d ⟨none, none, some (.fin (14/17)), none⟩ "natural" "fractional" = .ok r ∧ r.lags.length = 10 ∧
    (r.lags.length : ℤ) ≤ 10 ∧ autocorrelation .fabs d ⟨none, none, some (.fin (14/19)), none⟩ "natural" "fractional" = .ub := by
  obtain ⟨d, _, h1, _⟩ := id (object (F := Q) (samples 3 mostT) (q [1, 2, 6]) (by decide +kernel) (by decide +kernel))
  have hf : ⌊2 * (mostT (3 - 1) - mostT 0) / 1⌋ = ((7 : ℕ) : ℤ) := by decide +kernel
  have h := C121_attained d (.flat ‹_›) 3 mostT h1 (by norm_num) mostT_inc (by decide +kernel) 1 mostT_gap 7 hf (by norm_num) none _ known_fractional
  have e1 : 2 * (mostT (3 - 1) - mostT 0) / ((7 : ℕ) + 3 / 2) = 14/17 := by decide +kernel
  have e2 : 2 * (mostT (3 - 1) - mostT 0) / ((7 : ℕ) + 5 / 2) = 14/19 := by decide +kernel
  rw [e1, e2] at h
  obtain ⟨⟨r, hr, hl⟩, hu⟩ := h
  have hb := C121_bound .fabs d (.flat ‹_›) 3 mostT h1 (by norm_num) mostT_inc (by decide +kernel) 1 mostT_gap _ _ _ r hr
  rw [hf] at hb
  exact ⟨d, r, hr, hl, hb, hu⟩

/-- C121_binary64: the times 0, 1, 7/2 as doubles and the resolution 13/16: ten lags, as many as are possible. -/
example : ∃ (d : DS B) (r : AcResult B), autocorrelation .fabs d ⟨none, none, some (.fin (13/16)), none⟩ "natural" "gaussian" = .ok r ∧ r.lags.length = 10 ∧
    (r.lags.length : ℤ) ≤ 2 * 7 / 2 + 3 := by
  obtain ⟨d, r, hd, hr, h⟩ := callOf_ok .fabs (samples 3 (fun i => ((([0, 2, 7] : List ℤ).getD i 0 : ℤ) : ℚ) * pow2 (-1)) : List B) [b [1, 2, 6]]
    ⟨none, none, some (.fin (13/16)), none⟩ "natural" "gaussian"
    (fun d r => d.timeseries = samples 3 (fun i => ((([0, 2, 7] : List ℤ).getD i 0 : ℤ) : ℚ) * pow2 (-1)) ∧ r.lags.length = 10) (by decide +kernel)
  have hinc : IncreasingZ 3 fun i => ([0, 2, 7] : List ℤ).getD i 0 := by
    have h : ∀ j < 3, ∀ i < 3, i < j → ([0, 2, 7] : List ℤ).getD i 0 < ([0, 2, 7] : List ℤ).getD j 0 := by decide +kernel
    exact fun i j hij hj => h j hj i (by omega) hij
  have hgap : IsMinGapZ 3 (fun i => ([0, 2, 7] : List ℤ).getD i 0) 2 := by
    refine ⟨⟨0, 1, by omega, by omega, by decide +kernel⟩, ?_⟩
    have h : ∀ j < 3, ∀ i < 3, i < j → 2 ≤ ([0, 2, 7] : List ℤ).getD j 0 - ([0, 2, 7] : List ℤ).getD i 0 := by decide +kernel
    exact fun i j hij hj => h j hj i (by omega) hij
  exact ⟨d, r, hr, h.2, C121_binary64 (e := -1) ⟨.table hd, h.1, hinc, by norm_num, by norm_num, by norm_num, by norm_num⟩ (by norm_num) 2 hgap
    (by decide +kernel) _ _ _ _ r hr⟩

end Sacf
