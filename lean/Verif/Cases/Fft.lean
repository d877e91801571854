import Verif.Props.Fft
import Verif.Cases.Periodogram

/-!
# Cases of C109
-/

namespace Sacf

open Finset

theorem sq_varies : sumSq 100 (fun i => (i : ℝ) ^ 2) ≠ 0 := by
  have h1 := sumSq_cast 100 fun i => (i : ℚ) ^ 2
  have h2 : sumSq 100 (fun i => (i : ℚ) ^ 2) ≠ 0 := by decide +kernel
  push_cast at h1
  rw [h1]
  exact_mod_cast h2

/-- C109_fft and C109_unpadded: a hundred real values `i²`, transforms of length 256 and of length 100 -/
example : ∃ (r : AcResult (Exact (K := ℝ) (100 : ℕ) id Real.exp)) (pos : ℕ → ℕ) (v : ℕ → ℝ),
    (∀ m < 100, r.At 0 (pos m) (.fin (m * 1)) (.fin (v m))) ∧
    (∀ m < 100, fftAcf 100 256 (fun i => (i : ℝ) ^ 2) m = (v m : ℂ)) ∧
    fftAcf 100 100 (fun i => (i : ℝ) ^ 2) 30 = (v 30 : ℂ) + (v 70 : ℂ) := by
  obtain ⟨d, r, h, hl⟩ := real_run (M := 100) (by norm_num) (by norm_num) fun i => (i : ℝ) ^ 2
  choose! pos hpos using hl
  obtain ⟨v, h1, h2⟩ := C109_fft h one_pos (fun _ _ => rfl) sq_varies (by decide) pos hpos
  obtain ⟨u, h3, h4⟩ := C109_unpadded h one_pos (fun _ _ => rfl) sq_varies (by decide) pos hpos
  have e : ∀ m < 100, u m = v m := fun m hm => XF.fin.inj (At_unique (h3 m hm) (h1 m hm))
  refine ⟨r, pos, v, h1, h2 256 (by norm_num), ?_⟩
  rw [← e 30 (by norm_num), ← e 70 (by norm_num)]
  exact h4 30 (by norm_num) (by norm_num)

/-- C109_binary64: 1, 2, 6, 3 at times 5, 8, 11, 14, transforms of length 8 -/
example : ∃ (d : DS B) (r : AcResult B), autocorrelation .fabs d = .ok r ∧ ∃ v : ℕ → ℚ,
    (∀ m < 4, r.At 0 (3 + m) (.fin ((m * 3 : ℤ) * pow2 0)) (.fin (v m))) ∧
    ∀ m < 4, ‖((v m : ℝ) : ℂ) - fftAcf 4 8 (fun i => (wX' i : ℝ)) m‖ ≤ ((pow2 (-33) : ℚ) : ℝ) := by
  obtain ⟨d, hc, ht, hrow⟩ := signal_object wX'
  obtain ⟨r, hr, v, h1, h2⟩ := C109_binary64 (signal_times hc ht) (A := 8) (V := pow2 (-51)) ⟨hrow, by decide +kernel, by decide +kernel,
    by decide +kernel, by decide +kernel, by decide +kernel, .inr (by decide +kernel), by decide +kernel⟩
  refine ⟨d, r, hr, v, h1, fun m hm => (h2 8 (by norm_num) m hm).trans ?_⟩
  have hb : 500 * pow2 (-51) * ((4 : ℕ) * 8 ^ 2 / sumSq 4 wX') ≤ pow2 (-33) := by decide +kernel
  exact_mod_cast hb

/-- C109_binary64_any_weight: the same with the Gaussian weight -/
example : ∃ (ex : ℚ → ℚ) (r : AcResult (D64 ex true)) (v : ℕ → ℚ), (∀ m < 4, r.At 0 (3 + m) (.fin ((m * 3 : ℤ) * pow2 0)) (.fin (v m))) ∧
    ∀ m < 4, ‖((v m : ℝ) : ℂ) - fftAcf 4 8 (fun i => (wX' i : ℝ)) m‖ ≤ ((pow2 (-33) : ℚ) : ℝ) := by
  obtain ⟨ex, hex⟩ := lib_exists
  obtain ⟨d, r, ht, hrow, hr, hl⟩ := regular_gauss (fu := true) hex 4 (by norm_num) (by norm_num) wX'
  obtain ⟨v, h1, h2⟩ := C109_binary64_any_weight ht (values4 hrow (by decide +kernel)) hr (fun m => 3 + m) hl
  refine ⟨ex, r, v, h1, fun m hm => (h2 8 (by norm_num) m hm).trans ?_⟩
  have hb : 500 * pow2 (-51) * ((4 : ℕ) * 11 ^ 2 / sumSq 4 wX') ≤ pow2 (-33) := by decide +kernel
  exact_mod_cast hb

end Sacf
