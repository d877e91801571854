import Verif.Props.OrderNoticed
import Verif.Cases.Base

/-!
# Cases for Props/OrderNoticed.lean
-/

namespace Sacf

/-- the times 0, 1/2, 2, and 0, 3, 1 -/
def ordT (i : ℕ) : ℚ := ([0, 1/2, 2] : List ℚ).getD i 0
def ordU (i : ℕ) : ℚ := ([0, 3, 1] : List ℚ).getD i 0

theorem ordT_inc : Increasing 3 ordT := increasing_of_succ fun i hi => by
  have : i < 2 := by omega
  interval_cases i <;> decide +kernel

/-- C120_increasing in binary64: a call with a range of its own, five lags. -/
example : ∃ (d : DS B) (r : AcResult B), autocorrelation .fabs d ⟨some (.fin (-1)), some (.fin 1), none, none⟩ "natural" "gaussian" = .ok r ∧ r.lags.length = 5 ∧
    ordT 0 < ordT 1 ∧ ordT 1 < ordT 2 := by
  obtain ⟨d, c, hd, hc, h⟩ := newOf_ok (samples 3 ordT : List B) [b [1, 2, 6]] (fun d _ => d.timeseries = samples 3 ordT ∧
    okThen (fun r => decide (r.lags.length = 5)) (autocorrelation .fabs d ⟨some (.fin (-1)), some (.fin 1), none, none⟩ "natural" "gaussian") = true) (by decide +kernel)
  obtain ⟨r, hr, hl⟩ := okThen_ok h.2
  have hl := of_decide_eq_true hl
  have hi := (C120_increasing .fabs d (.table hd) 3 ordT h.1 _ rfl (fun x hx => by cases hx; exact ⟨show (XF.round (-1) : B) = .fin (-1) by decide +kernel, by decide +kernel⟩) _ _ r hr
    (fun h0 => by rw [h0] at hl; cases hl)).1
  exact ⟨d, r, hr, hl, hi 0 1 (by norm_num) (by norm_num), hi 1 2 (by norm_num) (by norm_num)⟩

/-- C120_out_of_order, C120_undefined and C120_three_lags in binary64: the times 0, 3, 1; given lags and resolution the same object gives values without notice. -/
example : ∃ (d : DS B), (∃ e, autocorrelation .fabs d {} "nosuch" "fractional" = .exn e) ∧ autocorrelation .fabs d = .ub ∧
    ∃ r, autocorrelation .fabs d ⟨some (.fin (-1)), some (.fin 0), some (.fin 1), none⟩ "natural" "fractional" = .ok r ∧ r.lags.length = 2 ∧ r.lags.length ≤ 3 := by
  obtain ⟨d, r, hd, hr, h⟩ := callOf_ok .fabs (samples 3 ordU : List B) [b [1, 6, 2]] ⟨some (.fin (-1)), some (.fin 0), some (.fin 1), none⟩ "natural" "fractional"
    (fun d r => d.timeseries = samples 3 ordU ∧ r.lags.length = 2 ∧ acOut .fabs d {} "nosuch" "fractional" = .exn (.keyError "nosuch")) (by decide +kernel)
  have hu : autocorrelation .fabs d = .ub :=
    C120_undefined d (.table hd) 3 ordU h.1 1 (by norm_num) (by decide +kernel) (by decide +kernel) none _ known_fractional
  refine ⟨d, ?_, hu, r, hr, h.2.1, C120_three_lags .fabs d (.table hd) 3 ordU h.1 1 (by norm_num) (by decide +kernel) (by decide +kernel) _ _ _ r hr⟩
  have h3 := h.2.2
  unfold acOut at h3
  rcases C120_out_of_order .fabs d (.table hd) 3 ordU h.1 1 (by norm_num) (by decide +kernel) {} rfl (fun x hx => by cases hx) "nosuch" "fractional" with h' | h' | h'
  · obtain ⟨r', hr', _⟩ := h'
    rw [hr'] at h3
    cases h3
  · exact h'
  · rw [h'] at h3
    cases h3

/-- C120_binary64: both directions. -/
example : ∃ (d d' : DS B), (∃ r, autocorrelation .fabs d = .ok r ∧ r.lags ≠ []) ∧ d'.timeseries = b [0, 3, 1] ∧
    ¬ ∃ r, autocorrelation .fabs d' {} "natural" "gaussian" = .ok r ∧ r.lags ≠ [] := by
  obtain ⟨d, _, h1, _⟩ := id (object (F := B) (samples 3 ordT) (b [1, 2, 6]) (by decide +kernel) (by decide +kernel))
  obtain ⟨d', _, h1', _⟩ := id (object (F := B) (samples 3 ordU) (b [1, 6, 2]) (by decide +kernel) (by decide +kernel))
  refine ⟨d, d', ?_, by rw [h1']; decide +kernel, ?_⟩
  · refine (C120_binary64 d (.flat ‹_›) 3 ordT h1 ?_ (by norm_num) ?_ (by decide +kernel) none _ known_fractional).2 ordT_inc
    · intro i hi
      show (XF.round _ : B) = _
      interval_cases i <;> decide +kernel
    · intro i hi _
      have : i < 2 := by omega
      interval_cases i <;> decide +kernel
  · rw [C120_binary64 d' (.flat ‹_›) 3 ordU h1' ?_ (by norm_num) ?_ (by decide +kernel) none _ known_gaussian]
    · intro hinc
      exact absurd (hinc 1 2 (by norm_num) (by norm_num)) (by decide +kernel)
    · intro i hi
      show (XF.round _ : B) = _
      interval_cases i <;> decide +kernel
    · intro i hi
      have : i < 2 := by omega
      interval_cases i <;> decide +kernel

end Sacf
