import Verif.Props.GridAny
import Verif.Props.Significance

/-!
# Noise and permutation tests on regular grids in binary64, any weight, lags and `alpha`
-/

set_option linter.unusedSectionVars false

namespace Sacf

open Finset

variable {ex : ℚ → ℚ} {fu : Bool} {M : ℕ} {e : ℤ} {x y : ℕ → ℚ} {A A' V V' : ℚ}

/-- **C79 in binary64 on regular times, any weights, lags and `alpha`**: noise of relative size `q` in the values. -/
theorem C79_binary64_any_weight {d d' : DS (D64 ex fu)} {ga ga' : LagArgs (D64 ex fu)} {wt wt' : String} {r r' : AcResult (D64 ex fu)} {j j' : ℕ} {α α' : ℚ}
    {a a' p : ℤ} (ht : Regular64 d M a p e) (ht' : Regular64 d' M a' p e) (hv : Values64 d M j x A V)
    (hv' : Values64 d' M j' y A' V') (hr : Run64 d ga wt r α e) (hr' : Run64 d' ga' wt' r' α' e)
    (q : ℚ) (hq : 0 ≤ q) (hq1 : q < 1) (hxy : ∑ i ∈ range M, (y i - x i) ^ 2 ≤ q ^ 2 * sumSq M x) (n n' m : ℕ) (hm : m < M)
    (hn : r.lags[n]? = some (.fin ((m * p : ℤ) * pow2 e))) (hn' : r'.lags[n']? = some (.fin ((m * p : ℤ) * pow2 e))) :
    ∃ v v' : ℚ, r.At j n (.fin ((m * p : ℤ) * pow2 e)) (.fin v) ∧ r'.At j' n' (.fin ((m * p : ℤ) * pow2 e)) (.fin v') ∧
      |v' - v| ≤ (4 * q + 2 * q ^ 2) / (1 - q) ^ 2 + 500 * (V * (M * A ^ 2 / sumSq M x) + V' * (M * A' ^ 2 / sumSq M y)) := by
  obtain ⟨hN, -⟩ := ht.result hv
  obtain ⟨v, h2, h3⟩ := C30_binary64_any_weight ht hv hr n m hm hn
  obtain ⟨v', h2', h3'⟩ := C30_binary64_any_weight ht' hv' hr' n' m hm hn'
  have h4 := autoCov_noise hN.ne' hq hq1 hxy hm
  refine ⟨v, v', h2, h2', ?_⟩
  have t1 := abs_sub_le v' (autoCov M y m / sumSq M y) v
  have t2 := abs_sub_le (autoCov M y m / sumSq M y) (autoCov M x m / sumSq M x) v
  rw [abs_sub_comm (autoCov M x m / sumSq M x) v] at t2
  linarith

section
variable {a p : ℤ} {d : Equiv.Perm (Fin M) → DS (D64 ex fu)} {ga : Equiv.Perm (Fin M) → LagArgs (D64 ex fu)} {wt : Equiv.Perm (Fin M) → String}
  {r : Equiv.Perm (Fin M) → AcResult (D64 ex fu)} {α : Equiv.Perm (Fin M) → ℚ} {j : Equiv.Perm (Fin M) → ℕ}

/-- **C85 in binary64 on regular times, any weights, lags and `alpha`**: the mean of the computed correlations at `m > 0` steps over all orders of the values is
`-(M - m) / (M (M - 1))` up to `500 V κ`. -/
theorem C85_binary64_any_weight (ht : ∀ σ, Regular64 (d σ) M a p e) (hv : ∀ σ, Values64 (d σ) M (j σ) (reorder x σ) A V)
    (hr : ∀ σ, Run64 (d σ) (ga σ) (wt σ) (r σ) (α σ) e) (m : ℕ) (hm0 : 0 < m) (hm : m < M) (n : Equiv.Perm (Fin M) → ℕ)
    (hn : ∀ σ, (r σ).lags[n σ]? = some (.fin ((m * p : ℤ) * pow2 e))) :
    ∃ v : Equiv.Perm (Fin M) → ℚ, (∀ σ, (r σ).At (j σ) (n σ) (.fin ((m * p : ℤ) * pow2 e)) (.fin (v σ))) ∧
      |(∑ σ, v σ) / M.factorial + (M - m) / (M * (M - 1))| ≤ 500 * V * (M * A ^ 2 / sumSq M x) := by
  choose v h2 h3 using fun σ => C30_binary64_any_weight (ht σ) (hv σ) (hr σ) (n σ) m hm (hn σ)
  refine ⟨v, h2, ?_⟩
  have hN1 := ((ht 1).result (hv 1)).1
  simp only [sumSq_reorder] at h3 hN1
  have h4 := mean_error h3
  have hfac : (M.factorial : ℚ) ≠ 0 := by exact_mod_cast M.factorial_ne_zero
  have h5 : ∑ σ : Equiv.Perm (Fin M), autoCov M (reorder x σ) m / sumSq M x = M.factorial * -((M - m) / (M * (M - 1))) := by
    unfold autoCov
    rw [Finset.sum_congr rfl fun σ _ => div_eq_mul_inv _ _, ← Finset.sum_mul, Finset.sum_comm]
    have e1 : ∀ i ∈ range (M - m), ∑ σ : Equiv.Perm (Fin M), dev M (reorder x σ) i * dev M (reorder x σ) (i + m)
        = M.factorial * sumSq M x * -(1 / ((M : ℚ) * (M - 1))) := by
      intro i hi
      rw [Finset.mem_range] at hi
      have h6 := perm_pairs (x := x) (⟨i, by omega⟩ : Fin M) ⟨i + m, by omega⟩
      rw [if_neg (by rw [Fin.mk.injEq]; omega)] at h6
      rw [← h6]
      exact Finset.sum_congr rfl fun σ _ => by rw [← dev_reorder σ ⟨i, _⟩, ← dev_reorder σ ⟨i + m, _⟩]
    rw [Finset.sum_congr rfl e1, Finset.sum_const, Finset.card_range, nsmul_eq_mul, Nat.cast_sub hm.le]
    have := hN1.ne'
    field_simp
  rwa [h5, mul_div_cancel_left₀ _ hfac, sub_neg_eq_add] at h4

/-- **C90 in binary64 on regular times, any weights, lags and `alpha`**: with seven samples or more, at most `2 / (M c²)` of the orders of the values have a computed
correlation of `c + 500 V κ` or more at `m > 0` steps. -/
theorem C90_binary64_any_weight (ht : ∀ σ, Regular64 (d σ) M a p e) (hv : ∀ σ, Values64 (d σ) M (j σ) (reorder x σ) A V)
    (hr : ∀ σ, Run64 (d σ) (ga σ) (wt σ) (r σ) (α σ) e) (hM : 7 ≤ M) (m : ℕ) (hm0 : 0 < m) (hm : m < M) (n : Equiv.Perm (Fin M) → ℕ)
    (hn : ∀ σ, (r σ).lags[n σ]? = some (.fin ((m * p : ℤ) * pow2 e))) :
    ∃ v : Equiv.Perm (Fin M) → ℚ, (∀ σ, (r σ).At (j σ) (n σ) (.fin ((m * p : ℤ) * pow2 e)) (.fin (v σ))) ∧
      ∀ c : ℚ, 0 < c → ((Finset.univ.filter fun σ => c + 500 * V * (M * A ^ 2 / sumSq M x) ≤ |v σ|).card : ℚ) / M.factorial ≤ 2 / (M * c ^ 2) := by
  choose v h2 h3 using fun σ => C30_binary64_any_weight (ht σ) (hv σ) (hr σ) (n σ) m hm (hn σ)
  refine ⟨v, h2, fun c hc => ?_⟩
  have hfac : (0 : ℚ) < M.factorial := by exact_mod_cast M.factorial_pos
  have hN1 : 0 < sumSq M x := by
    have := ((ht 1).result (hv 1)).1
    rwa [sumSq_reorder] at this
  set u : Equiv.Perm (Fin M) → ℚ := fun σ => autoCov M (reorder x σ) m / sumSq M (reorder x σ) with hu
  have h4 := permSquare_le hM hm0 hm hN1 (sumFourth_nonneg (M := M) (x := x))
  have h5 : ∑ σ, u σ ^ 2 = M.factorial * permSquare M m (sumSq M x) (sumFourth M x) := sum_square hm0 hm
  have h6 : ((Finset.univ.filter fun σ => c + 500 * V * (M * A ^ 2 / sumSq M x) ≤ |v σ|).card : ℚ) ≤ (Finset.univ.filter fun σ => c ≤ |u σ|).card := by
    refine Nat.cast_le.2 (Finset.card_le_card fun σ hσ => ?_)
    rw [Finset.mem_filter] at hσ ⊢
    refine ⟨hσ.1, ?_⟩
    have h7 := h3 σ
    rw [sumSq_reorder (x := x) σ] at h7
    have h8 : u σ = autoCov M (reorder x σ) m / sumSq M x := by rw [hu]; beta_reduce; rw [sumSq_reorder]
    rw [← h8] at h7
    have h9 := abs_sub_abs_le_abs_sub (v σ) (u σ)
    linarith [hσ.2]
  have h10 := (mul_le_mul_of_nonneg_right h6 (sq_nonneg c)).trans ((chebyshev (v := u) hc).trans (h5.le.trans (mul_le_mul_of_nonneg_left h4 hfac.le)))
  have hM0 : (0 : ℚ) < M := by exact_mod_cast (by omega : 0 < M)
  rw [div_le_div_iff₀ hfac (by positivity)]
  rw [← mul_div_assoc (M.factorial : ℚ), le_div_iff₀ hM0] at h10
  linarith

end

end Sacf
