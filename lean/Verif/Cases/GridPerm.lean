import Verif.Props.GridPerm
import Verif.Cases.GridAny

/-!
# Concrete cases for noise and permutation tests with the Gaussian weight
-/

namespace Sacf

open Finset

/-- C79_binary64_any_weight: two series that differ by a twentieth of their spread, times 5, 8, 11, 14, Gaussian weight, `alpha = 7`, lag 3 -/
example : ∃ (ex : ℚ → ℚ) (r r' : AcResult (D64 ex true)) (v v' : ℚ), r.At 0 4 (.fin 3) (.fin v) ∧ r'.At 0 4 (.fin 3) (.fin v') ∧ |v' - v| ≤ 1/4 := by
  obtain ⟨ex, hex⟩ := lib_exists
  obtain ⟨d, r, ht, hrow, hr, hl⟩ := regular_gauss (fu := true) hex 4 (by norm_num) (by norm_num) wX'
  obtain ⟨d', r', ht', hrow', hr', hl'⟩ := regular_gauss (fu := true) hex 4 (by norm_num) (by norm_num) kZ
  obtain ⟨v, v', h1, h1', h2⟩ := C79_binary64_any_weight ht ht' (values4 hrow (by decide +kernel)) (values4 hrow' (by decide +kernel)) hr hr'
    (1/20) (by norm_num) (by norm_num) (by decide +kernel) 4 4 1 (by norm_num) (hl 1 (by norm_num)) (hl' 1 (by norm_num))
  exact ⟨ex, r, r', v, v', by simpa [pow2_zero] using h1, by simpa [pow2_zero] using h1', h2.trans (by decide +kernel)⟩

/-- C85_binary64_any_weight: the 24 orders of 1, 2, 6, 3, Gaussian weight -/
example : ∃ (ex : ℚ → ℚ) (r : Equiv.Perm (Fin 4) → AcResult (D64 ex true)) (v : Equiv.Perm (Fin 4) → ℚ),
    (∀ σ, (r σ).At 0 4 (.fin 3) (.fin (v σ))) ∧ |(∑ σ, v σ) / 24 + 1/4| ≤ pow2 (-30) := by
  obtain ⟨ex, hex⟩ := lib_exists
  choose d r ht hrow hr hl using fun σ : Equiv.Perm (Fin 4) => regular_gauss (fu := true) hex 4 (by norm_num) (by norm_num) (reorder wX' σ)
  obtain ⟨d0, _, _, hrow0, _⟩ := regular_gauss (fu := true) hex 4 (by norm_num) (by norm_num) wX'
  obtain ⟨v, h1, h2⟩ := C85_binary64_any_weight ht (fun σ => (values4 hrow0 (by decide +kernel)).reorder (hrow σ)) hr 1 (by norm_num) (by norm_num) (fun _ => 4)
    (fun σ => hl σ 1 (by norm_num))
  refine ⟨ex, r, v, fun σ => by simpa [pow2_zero] using h1 σ, ?_⟩
  have e : (((4 : ℕ) : ℚ) - (1 : ℕ)) / (((4 : ℕ) : ℚ) * (((4 : ℕ) : ℚ) - 1)) = 1/4 := by norm_num
  rw [e] at h2
  exact h2.trans (by decide +kernel)

/-- C90_binary64_any_weight: the orders of 1, 2, 6, 7, 3, 1, 4, 8 at times 5, 8, …, 26, Gaussian weight -/
example : ∃ (ex : ℚ → ℚ) (r : Equiv.Perm (Fin 8) → AcResult (D64 ex true)) (v : Equiv.Perm (Fin 8) → ℚ),
    (∀ σ, (r σ).At 0 8 (.fin 3) (.fin (v σ))) ∧ ((Finset.univ.filter fun σ => 751/1000 ≤ |v σ|).card : ℚ) / (Nat.factorial 8 : ℕ) ≤ 4/9 := by
  obtain ⟨ex, hex⟩ := lib_exists
  choose d r ht hrow hr hl using fun σ : Equiv.Perm (Fin 8) => regular_gauss (fu := true) hex 8 (by norm_num) (by norm_num) (reorder zY σ)
  obtain ⟨d0, _, _, hrow0, _⟩ := regular_gauss (fu := true) hex 8 (by norm_num) (by norm_num) zY
  have hv : Values64 d0 8 0 zY 8 (pow2 (-48)) := ⟨hrow0, by decide +kernel, by decide +kernel,
    by decide +kernel, by decide +kernel, by decide +kernel, .inr (by decide +kernel), by decide +kernel⟩
  obtain ⟨v, h1, h2⟩ := C90_binary64_any_weight ht (fun σ => hv.reorder (hrow σ)) hr (by norm_num) 1 (by norm_num) (by norm_num) (fun _ => 8)
    (fun σ => hl σ 1 (by norm_num))
  refine ⟨ex, r, v, fun σ => by simpa [pow2_zero] using h1 σ, le_trans ?_ ((h2 (3/4) (by norm_num)).trans (by norm_num))⟩
  have e : (3/4 : ℚ) + 500 * pow2 (-48) * (((8 : ℕ) : ℚ) * 8 ^ 2 / sumSq 8 zY) ≤ 751/1000 := by decide +kernel
  refine div_le_div_of_nonneg_right (Nat.cast_le.2 (Finset.card_le_card fun σ hσ => ?_)) (Nat.cast_nonneg _)
  rw [Finset.mem_filter] at hσ ⊢
  exact ⟨hσ.1, e.trans hσ.2⟩

end Sacf
