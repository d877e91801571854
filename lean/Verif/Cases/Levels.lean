import Verif.Props.Levels
import Verif.Cases.GapsGauss
import Verif.Cases.Classical

/-!
# Concrete cases for signals with two levels
-/

namespace Sacf

open Finset

/-- 1, 2, 2 -/
def lvY (i : ℕ) : ℚ := [1, 2, 2].getD i 0
/-- 3, 1, 1, 3 -/
def lvT (i : ℕ) : ℚ := [3, 1, 1, 3].getD i 0
/-- 1, 1, 5, 5 -/
def lvS (i : ℕ) : ℚ := [1, 1, 5, 5].getD i 0

theorem lvY_eq : ∀ i < 3, lvY i = if i ≠ 0 then 1 + 1 else 1 := by decide +kernel
theorem lvT_eq : ∀ i < 4, lvT i = if 1 ≤ i ∧ i < 1 + 2 then 3 + -2 else 3 := by decide +kernel
theorem lvS_eq : ∀ i < 4, lvS i = if 2 ≤ i then 1 + 4 else 1 := by decide +kernel

/-- C104_two_levels: 1, 2, 2 at times 0, 1, 3, lag 1: sample 0 is matched with sample 1 (weight 1, different), sample 1 with sample 2 (weight 1/2, both high) -/
example : ∃ (r : AcResult Q) (n : ℕ), r.At 0 n (.fin 1) (.fin (-1/4)) := by
  obtain ⟨d, r, h1, h2, h3, h4, h5, h6⟩ := runOf_ok (t := samples 3 wT) (v := samples 3 lvY) (sel := "natural")
    (wt := "fractional") (P := fun d r => d.timeseries = samples 3 wT ∧ d.data2d = .ok [samples 3 lvY] ∧
      r.corr.alpha = .fin 1 ∧ r.lags = q [-3, -2, -1, 0, 1, 2, 3]) (by decide +kernel)
  have h := C104_two_levels (H := fun i => i ≠ 0) (h := 2) (⟨.flat h1, h3, wT_inc, ⟨_, h4, rfl⟩, h2, by unfold KnownWeight; simp, h5, one_pos⟩ :
    NaturalRun (dm := 10 ^ 100) (f32 := id) (ex := fun x => 1 / (1 - x)) d {} "fractional" r 3 wT 0 lvY 1) lvY_eq (by norm_num) (by decide) (by norm_num) (by norm_num)
    (fun _ _ => rfl) 4 1 (by rw [h6]; rfl) (fun i => if i = 0 then 1 else 2) (by unfold Selects IsNearest; decide +kernel)
  refine ⟨r, 4, ?_⟩
  convert h using 2
  decide +kernel

/-- C104_regular: 1, 3, 1, 3 at lag 1 -/
example : ∃ r : AcResult Q, r.At 0 4 (.fin 1) (.fin (-3/4)) := by
  obtain ⟨d, r, h, hl⟩ := regular_witness wP 1 one_pos (by decide +kernel)
  have h1 := C104_regular (H := fun i => i % 2 = 1) (c := 1) (a := 2) (h := 2) h one_pos (by decide +kernel) (by norm_num) (by decide) (by norm_num) (by norm_num)
    (fun _ _ => rfl) (by decide) 1 4 (by norm_num) (by rw [hl]; decide +kernel)
  refine ⟨r, ?_⟩
  convert h1 using 2
  all_goals decide +kernel

/-- C104_transit and C104_step: 3, 1, 1, 3 and 1, 1, 5, 5 at lag 1 -/
example : (∃ r : AcResult Q, r.At 0 4 (.fin 1) (.fin (-1/4))) ∧ ∃ r : AcResult Q, r.At 0 4 (.fin 1) (.fin (1/4)) := by
  constructor
  · obtain ⟨d, r, h, hl⟩ := regular_witness lvT 1 one_pos (by decide +kernel)
    obtain ⟨v, h1, rfl, _⟩ := C104_transit h one_pos 1 2 lvT_eq (by norm_num) (by norm_num) (by norm_num) (fun _ _ => rfl) (by decide) 1 4 (by norm_num) (by norm_num)
      (by rw [hl]; decide +kernel)
    refine ⟨r, ?_⟩
    convert h1 using 2
    all_goals decide +kernel
  · obtain ⟨d, r, h, hl⟩ := regular_witness lvS 1 one_pos (by decide +kernel)
    have h1 := C104_step h one_pos 2 lvS_eq (by norm_num) (by norm_num) (by norm_num) (fun _ _ => rfl) (by decide) 1 4 (by norm_num) (by norm_num)
      (by rw [hl]; decide +kernel)
    refine ⟨r, ?_⟩
    convert h1 using 2
    all_goals decide +kernel

/-- C104_binary64: 1, 2, 2 at times 0, 1, 3, Gaussian weight, lag 2, for some library exponential; `(1 - 2 e^(-1/2)) / 6` -/
example : ∃ (ex : ℚ → ℚ) (r : AcResult (D64 ex false)) (n : ℕ) (v : ℚ), r.At 0 n (.fin ((2 : ℤ) * pow2 0)) (.fin v) ∧
    |(v : ℝ) - (1 - 2 * Real.exp (-1/2)) / 6| ≤ 1/1000 := by
  obtain ⟨ex, _, hex⟩ := exists_expLike (show 0 < pow2 (-53) from pow2_pos _)
  obtain ⟨d, r, hc, ht, hrow, hr, hα, hl⟩ := irregular_default (ex := ex) (fu := false) lvY (wt := "gaussian") (by unfold KnownWeight; simp)
  obtain ⟨n, l⟩ := hl 2 (by norm_num) (by norm_num)
  have hv : Values64 d 3 0 lvY 2 (pow2 (-50)) := ⟨hrow, by decide +kernel, by decide +kernel, by decide +kernel, by decide +kernel, by decide +kernel,
    .inr (by decide +kernel), by decide +kernel⟩
  obtain ⟨v, h1, h2⟩ := C104_binary64 (H := fun i => i ≠ 0) (h := 2) (c := 1) (a := 1) (⟨hc, ht, eT_inc, by norm_num, by norm_num, by norm_num, by norm_num⟩ : Times64 d 3 eT 0) hv
    (.inr ⟨rfl, hr, hα, by decide +kernel, by decide +kernel, by decide +kernel, by norm_num, lib_case hex⟩) lvY_eq (by decide) n 2 l (by decide +kernel) _ irregular_selects
    (3/2) (by norm_num) (by decide +kernel)
  refine ⟨ex, r, n, v, h1, ?_⟩
  have e0 : weight Real.exp "gaussian" ((1 : ℚ) : ℝ) 1 = Real.exp (-1/2) := by
    show Real.exp _ = _
    norm_num
  have e1 : ∀ (P Q : ℕ → Prop) [DecidablePred P] [DecidablePred Q], realPairs 3 eT 0 "gaussian" 1 (fun _ => 2) 2 P Q
      = (if P 0 ∧ Q 2 then Real.exp (-1/2) else 0) + if P 1 ∧ Q 2 then 1 else 0 := by
    intro P Q _ _
    unfold realPairs pairWeight
    rw [← filter_filter, sum_filter, filter_cast (fun i => (eT i : ℚ) * pow2 0),
      show (range 3).filter (fun i => (eT i : ℚ) * pow2 0 + (2 : ℤ) * pow2 0 ≤ (eT (3 - 1) : ℚ) * pow2 0) = {0, 1} by decide +kernel, sum_pair (by norm_num)]
    have f1 : |((eT 2 * pow2 0 : ℚ) : ℝ) - (((eT 0 * pow2 0 : ℚ) : ℝ) + (((2 : ℤ) * pow2 0 : ℚ) : ℝ))| = 1 := by
      rw [show (eT 2 * pow2 0 : ℚ) = 3 by decide +kernel, show (eT 0 * pow2 0 : ℚ) = 0 by decide +kernel, show ((2 : ℤ) * pow2 0 : ℚ) = 2 by decide +kernel]
      norm_num
    have f2 : |((eT 2 * pow2 0 : ℚ) : ℝ) - (((eT 1 * pow2 0 : ℚ) : ℝ) + (((2 : ℤ) * pow2 0 : ℚ) : ℝ))| = 0 := by
      rw [show (eT 2 * pow2 0 : ℚ) = 3 by decide +kernel, show (eT 1 * pow2 0 : ℚ) = 1 by decide +kernel, show ((2 : ℤ) * pow2 0 : ℚ) = 2 by decide +kernel]
      norm_num
    rw [f1, f2, e0, gauss_zero]
  rw [e1, e1, e1, e1] at h2
  have e2 : levelAcf 3 2 ((if (0 : ℕ) ≠ 0 ∧ (2 : ℕ) ≠ 0 then Real.exp (-1/2) else 0) + if (1 : ℕ) ≠ 0 ∧ (2 : ℕ) ≠ 0 then (1 : ℝ) else 0)
      ((if ¬ (0 : ℕ) ≠ 0 ∧ ¬ (2 : ℕ) ≠ 0 then Real.exp (-1/2) else 0) + if ¬ (1 : ℕ) ≠ 0 ∧ ¬ (2 : ℕ) ≠ 0 then (1 : ℝ) else 0)
      ((if (0 : ℕ) ≠ 0 ∧ ¬ (2 : ℕ) ≠ 0 then Real.exp (-1/2) else 0) + (if (1 : ℕ) ≠ 0 ∧ ¬ (2 : ℕ) ≠ 0 then (1 : ℝ) else 0)
        + ((if ¬ (0 : ℕ) ≠ 0 ∧ (2 : ℕ) ≠ 0 then Real.exp (-1/2) else 0) + if ¬ (1 : ℕ) ≠ 0 ∧ (2 : ℕ) ≠ 0 then (1 : ℝ) else 0)) = (1 - 2 * Real.exp (-1/2)) / 6 := by
    unfold levelAcf
    norm_num
    ring
  rw [e2] at h2
  refine h2.trans ?_
  have e3 : (250 * pow2 (-50) * ((3 : ℕ) * 2 ^ 2 / sumSq 3 lvY) * (1 + 3/2) : ℚ) ≤ 1/1000 := by decide +kernel
  have := (Rat.cast_le (K := ℝ)).2 e3
  rwa [show (((1/1000 : ℚ)) : ℝ) = 1/1000 by norm_num] at this

/-- C104_binary64_regular, C104_binary64_transit and C104_binary64_step at times 5, 8, 11, 14 -/
example : (∃ (d : DS Sacf.B) (r : AcResult Sacf.B), autocorrelation .fabs d = .ok r ∧ ∃ v : ℚ, r.At 0 4 (.fin 3) (.fin v) ∧ |v - -3/4| ≤ pow2 (-35)) ∧
    (∃ (d : DS Sacf.B) (r : AcResult Sacf.B), autocorrelation .fabs d = .ok r ∧ ∃ v : ℚ, r.At 0 4 (.fin 3) (.fin v) ∧ |v - -1/4| ≤ pow2 (-35)) ∧
    ∃ (d : DS Sacf.B) (r : AcResult Sacf.B), autocorrelation .fabs d = .ok r ∧ ∃ v : ℚ, r.At 0 4 (.fin 3) (.fin v) ∧ |v - 1/4| ≤ pow2 (-35) := by
  refine ⟨?_, ?_, ?_⟩
  · obtain ⟨d, hc, ht, hrow⟩ := signal_object wP
    have hv : Values64 d 4 0 wP 3 (pow2 (-51)) := ⟨hrow, by decide +kernel, by decide +kernel,
      by decide +kernel, by decide +kernel, by decide +kernel, .inr (by decide +kernel), by decide +kernel⟩
    obtain ⟨r, hr, hv1⟩ := C104_binary64_regular (H := fun i => i % 2 = 1) (c := 1) (a := 2) (h := 2) (signal_times hc ht) hv (by decide +kernel) (by norm_num) (by decide)
      (by norm_num) (by norm_num)
    obtain ⟨v, h1, h2⟩ := hv1 1 (by norm_num)
    refine ⟨d, r, hr, v, by simpa [pow2_zero] using h1, ?_⟩
    refine (le_of_eq ?_).trans (h2.trans (by decide +kernel))
    congr 2
    decide +kernel
  · obtain ⟨d, hc, ht, hrow⟩ := signal_object lvT
    have hv : Values64 d 4 0 lvT 3 (pow2 (-51)) := ⟨hrow, by decide +kernel, by decide +kernel,
      by decide +kernel, by decide +kernel, by decide +kernel, .inr (by decide +kernel), by decide +kernel⟩
    obtain ⟨r, hr, hv1⟩ := C104_binary64_transit (signal_times hc ht) hv 1 2 lvT_eq (by norm_num) (by norm_num) (by norm_num)
    obtain ⟨v, h1, h2⟩ := hv1 1 (by norm_num) (by norm_num)
    refine ⟨d, r, hr, v, by simpa [pow2_zero] using h1, ?_⟩
    refine (le_of_eq ?_).trans (h2.trans (by decide +kernel))
    congr 2
    decide +kernel
  · obtain ⟨d, hc, ht, hrow⟩ := signal_object lvS
    have hv : Values64 d 4 0 lvS 5 (pow2 (-51)) := ⟨hrow, by decide +kernel, by decide +kernel,
      by decide +kernel, by decide +kernel, by decide +kernel, .inr (by decide +kernel), by decide +kernel⟩
    obtain ⟨r, hr, hv1⟩ := C104_binary64_step (signal_times hc ht) hv 2 lvS_eq (by norm_num) (by norm_num) (by norm_num)
    obtain ⟨v, h1, h2⟩ := hv1 1 (by norm_num) (by norm_num)
    refine ⟨d, r, hr, v, by simpa [pow2_zero] using h1, ?_⟩
    refine (le_of_eq ?_).trans (h2.trans (by decide +kernel))
    congr 2
    decide +kernel

end Sacf
