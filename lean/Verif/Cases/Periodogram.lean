import Verif.Props.Periodogram
import Verif.Cases.GridAny
import Verif.Cases.Smooth

/-!
# Cases of C107
-/

namespace Sacf

open Finset Real

theorem cos_pi_mul (m : ℕ) : cos (π * m) = (-1) ^ m := by rw [mul_comm, cos_nat_mul_pi]
theorem sin_pi_mul (m : ℕ) : sin (π * m) = 0 := by rw [mul_comm, sin_nat_mul_pi]

/-- the periodogram of 1, 2, 6, 3 at the highest frequency -/
theorem wX'_power : ((∑ i ∈ range 4, ((dev 4 wX' i : ℚ) : ℝ) * cos (π * i)) ^ 2 + (∑ i ∈ range 4, ((dev 4 wX' i : ℚ) : ℝ) * sin (π * i)) ^ 2)
    / (sumSq 4 wX' : ℚ) = 2/7 := by
  have h0 : dev 4 wX' 0 = -2 := by decide +kernel
  have h1 : dev 4 wX' 1 = -1 := by decide +kernel
  have h2 : dev 4 wX' 2 = 3 := by decide +kernel
  have h3 : dev 4 wX' 3 = 0 := by decide +kernel
  have h4 : sumSq 4 wX' = 14 := by decide +kernel
  simp only [cos_pi_mul, sin_pi_mul, sum_range_succ, range_zero, sum_empty, h0, h1, h2, h3, h4]
  norm_num

/-- C107_spectrum and C107_fourier: a hundred real values `i²`, at any frequency and at a quarter of the sampling frequency -/
example : ∃ (r : AcResult (Exact (K := ℝ) (100 : ℕ) id Real.exp)) (pos : ℕ → ℕ) (v : ℕ → ℝ),
    (∀ m < 100, r.At 0 (pos m) (.fin (m * 1)) (.fin (v m))) ∧
    (∀ ω, 0 ≤ 1 + 2 * ∑ m ∈ Ico 1 100, v m * cos (ω * m)) ∧
    1 + 2 * ∑ m ∈ Ico 1 100, v m * cos (2 * π * (25 : ℕ) / (100 : ℕ) * m)
      = ((∑ i ∈ range 100, (i : ℝ) ^ 2 * cos (2 * π * (25 : ℕ) / (100 : ℕ) * i)) ^ 2
        + (∑ i ∈ range 100, (i : ℝ) ^ 2 * sin (2 * π * (25 : ℕ) / (100 : ℕ) * i)) ^ 2) / sumSq 100 (fun i => (i : ℝ) ^ 2) := by
  obtain ⟨d, r, h, hl⟩ := real_run (M := 100) (by norm_num) (by norm_num) fun i => (i : ℝ) ^ 2
  choose! pos hpos using hl
  have hv : sumSq 100 (fun i => (i : ℝ) ^ 2) ≠ 0 := by
    have h1 := sumSq_cast 100 fun i => (i : ℚ) ^ 2
    have h2 : sumSq 100 (fun i => (i : ℚ) ^ 2) ≠ 0 := by decide +kernel
    push_cast at h1
    rw [h1]
    exact_mod_cast h2
  have hS : 0 ≤ sumSq 100 (fun i => (i : ℝ) ^ 2) := sum_nonneg fun i _ => sq_nonneg _
  obtain ⟨v, h1, h2⟩ := C107_spectrum h one_pos (fun _ _ => rfl) hv (by decide) pos hpos
  obtain ⟨u, h3, h4⟩ := C107_fourier h one_pos (fun _ _ => rfl) hv (by decide) pos hpos
  have e : ∀ m < 100, u m = v m := fun m hm => XF.fin.inj (At_unique (h3 m hm) (h1 m hm))
  refine ⟨r, pos, v, h1, fun ω => ?_, ?_⟩
  · rw [h2]
    positivity
  · rw [← h4 25 (by norm_num) (by norm_num)]
    congr 2
    exact sum_congr rfl fun m hm => by rw [e m (mem_Ico.1 hm).2]

/-- C107_binary64: 1, 2, 6, 3 at times 5, 8, 11, 14 -/
example : ∃ (d : DS B) (r : AcResult B), autocorrelation .fabs d = .ok r ∧ ∃ v : ℕ → ℚ,
    (∀ m < 4, r.At 0 (3 + m) (.fin ((m * 3 : ℤ) * pow2 0)) (.fin (v m))) ∧
    |1 + 2 * ∑ m ∈ Ico 1 4, (v m : ℝ) * (-1) ^ m - 2/7| ≤ ((pow2 (-30) : ℚ) : ℝ) := by
  obtain ⟨d, hc, ht, hrow⟩ := signal_object wX'
  obtain ⟨r, hr, v, h1, h2⟩ := C107_binary64 (signal_times hc ht) (A := 8) (V := pow2 (-51)) ⟨hrow, by decide +kernel, by decide +kernel,
    by decide +kernel, by decide +kernel, by decide +kernel, .inr (by decide +kernel), by decide +kernel⟩
  refine ⟨d, r, hr, v, h1, ?_⟩
  have h3 := h2 π
  rw [wX'_power] at h3
  simp only [cos_pi_mul] at h3
  refine h3.trans ?_
  have hb : (2 * ((4 - 1 : ℕ) : ℚ) * (500 * pow2 (-51) * ((4 : ℕ) * 8 ^ 2 / sumSq 4 wX'))) ≤ pow2 (-30) := by decide +kernel
  exact_mod_cast hb

/-- C107_binary64_any_weight: the same with the Gaussian weight -/
example : ∃ (ex : ℚ → ℚ) (r : AcResult (D64 ex true)) (v : ℕ → ℚ), (∀ m < 4, r.At 0 (3 + m) (.fin ((m * 3 : ℤ) * pow2 0)) (.fin (v m))) ∧
    |1 + 2 * ∑ m ∈ Ico 1 4, (v m : ℝ) * (-1) ^ m - 2/7| ≤ ((pow2 (-30) : ℚ) : ℝ) := by
  obtain ⟨ex, hex⟩ := lib_exists
  obtain ⟨d, r, ht, hrow, hr, hl⟩ := regular_gauss (fu := true) hex 4 (by norm_num) (by norm_num) wX'
  obtain ⟨v, h1, h2⟩ := C107_binary64_any_weight ht (values4 hrow (by decide +kernel)) hr (fun m => 3 + m) hl
  refine ⟨ex, r, v, h1, ?_⟩
  have h3 := h2 π
  rw [wX'_power] at h3
  simp only [cos_pi_mul] at h3
  refine h3.trans ?_
  have hb : (2 * ((4 - 1 : ℕ) : ℚ) * (500 * pow2 (-51) * ((4 : ℕ) * 11 ^ 2 / sumSq 4 wX'))) ≤ pow2 (-30) := by decide +kernel
  exact_mod_cast hb

end Sacf
