import Verif.Props.Gaps
import Verif.Props.Gauss64
import Verif.Props.Permutation

/-!
# Gaps, the default `alpha` and reordered values with the Gaussian weight

C33, C81 and C85 for the Gaussian weight: in exact arithmetic with an exponential between `1 + y` and 1 for `y ≤ 0`, in binary64 with a library `exp` that errs by at most `2^-53`.
-/

namespace Sacf

open Finset

section exact
variable {K : Type} [Field K] [LinearOrder K] [IsStrictOrderedRing K] [FloorRing K]
variable {dm : K} {f32 ex : K → K} {d : DS (Exact dm f32 ex)} {g : LagArgs (Exact dm f32 ex)} {r : AcResult (Exact dm f32 ex)}
  {M j : ℕ} {t x : ℕ → K} {α δ G : K}

/-- **C81, Gaussian weight**: with the default `alpha` the correlation at a non-negative lag is within `√⌈G / δ⌉ ρ² / 2` of the one without weights, `ρ = G / ((M - 1) δ)`. -/
theorem C81_default_alpha_gaussian (h : NaturalRun d g "gaussian" r M t j x α) (hga : g.alpha = none) (he : ∀ y ≤ 0, 1 + y ≤ ex y ∧ ex y ≤ 1)
    (hf : ∀ i < M, f32 (x i) = x i) (hv : sumSq M x ≠ 0) (hM : 2 ≤ M) (hg : GapsWithin M t δ G) (hδ : 0 < δ)
    (n : ℕ) (k : K) (hk : 0 ≤ k) (hn : r.lags[n]? = some (.fin k)) (s : ℕ → ℕ) (hs : Selects M t k s) :
    ∃ v, r.At j n (.fin k) (.fin v) ∧
      (v - sacf M t x (fun _ => 1) s (sumSq M x) k) ^ 2 ≤ ((G / ((M - 1) * δ)) ^ 2 / 2) ^ 2 * ⌈G / δ⌉₊ := by
  have hG : 0 < G := hδ.trans_le ((hg 0 (by omega)).1.trans (hg 0 (by omega)).2)
  obtain ⟨v, h1, h2⟩ := C77_large_gaussian h he hf hv n k hn s hs (G / 2) (selects_near hg h.inc hG hk hs) ⌈G / δ⌉₊
    (fun n' _ => selects_card hg h.inc hδ hG hk hs n')
  refine ⟨v, h1, h2.trans (mul_le_mul_of_nonneg_right ?_ (Nat.cast_nonneg _))⟩
  have hα : d.tMedian = .fin α := by
    have := (result_params h.built.wf h.run).2.2.2
    rw [h.alpha, hga] at this
    exact this.symm
  have hm := median_gap h.built h.times hg hα
  have hM1 : (0 : K) < (M : K) - 1 := by
    have : (2 : K) ≤ M := by exact_mod_cast hM
    linarith
  have hα0 := h.alpha_pos
  have hq : G / 2 / α ≤ G / ((M - 1) * δ) := by
    rw [div_div]
    exact div_le_div_of_nonneg_left hG.le (mul_pos hM1 hδ) (by linarith)
  have hq0 : 0 ≤ G / 2 / α := by positivity
  have e1 : (G / 2) ^ 2 / (2 * α ^ 2) = (G / 2 / α) ^ 2 / 2 := by field_simp
  have hq2 := pow_le_pow_left₀ hq0 hq 2
  rw [e1]
  exact pow_le_pow_left₀ (by positivity) (by linarith) 2

end exact

section binary64
variable {ex : ℚ → ℚ} {fu : Bool} {d : DS (D64 ex fu)} {M j : ℕ} {τ : ℕ → ℤ} {e : ℤ} {x : ℕ → ℚ} {A V α : ℚ}
  {ga : LagArgs (D64 ex fu)} {r : AcResult (D64 ex fu)}

/-- **C33 in binary64, Gaussian weight**, gaps of `p` to `P` units: no correlation at a non-negative lag exceeds `√⌈P / p⌉` by more than the error bound. -/
theorem C33_gaps_binary64_gaussian_partial (ht : Times64 d M τ e) (hv : Values64 d M j x A V) (hgr : GaussRun64 d ga r α e)
    (p P : ℤ) (hg : GapsWithin M τ p P) (hp : 0 < p) (hP : 0 < P)
    (n : ℕ) (k : ℤ) (hk0 : 0 ≤ k) (hn : r.lags[n]? = some (.fin (k * pow2 e))) (hk : k + (τ (M - 1) - τ 0) ≤ 2 ^ 53) (β : ℚ) (hβ : 0 ≤ β)
    (hβ2 : (⌈(P : ℚ) / p⌉₊ : ℚ) ≤ β ^ 2) :
    ∃ v : ℚ, r.At j n (.fin (k * pow2 e)) (.fin v) ∧ |v| ≤ β + 250 * V * (M * A ^ 2 / sumSq M x) * (1 + β) := by
  obtain ⟨s, hs⟩ := selects_exists M (fun i => (τ i : ℚ) * pow2 e) (k * pow2 e)
  exact C33_binary64_gaussian_partial ht hv hgr n k hn (by rwa [abs_of_nonneg hk0]) β hβ s hs
    fun n' _ => units_card hg ht.inc hp hP hk0 hs hβ2 n'

theorem half_gap_sq {P ρ α c : ℚ} (hP : 0 ≤ P) (hα : 0 < α) (hc : 0 < c) (hle : c ≤ α) (hρ : P / (2 * c) = ρ) : (P / 2) ^ 2 / (2 * α ^ 2) ≤ ρ ^ 2 / 2 := by
  have h1 : P / 2 / α ≤ ρ := by
    rw [← hρ, div_div]
    exact div_le_div_of_nonneg_left hP (by positivity) (by linarith)
  have h2 := pow_le_pow_left₀ (by positivity : 0 ≤ P / 2 / α) h1 2
  have e1 : (P / 2) ^ 2 / (2 * α ^ 2) = (P / 2 / α) ^ 2 / 2 := by field_simp
  rw [e1]
  linarith

/-- **C81 in binary64, Gaussian weight**: as `C81_binary64` with `ρ² / 2`. -/
theorem C81_binary64_gaussian (ht : Times64 d M τ e) (hv : Values64 d M j x A V) (hgr : GaussRun64 d ga r α e) (hga : ga.alpha = none)
    (hM : 3 ≤ M) (hspan : τ (M - 1) - τ 0 ≤ 2 ^ 52) (p P : ℤ) (hg : GapsWithin M τ p P) (hp : 0 < p)
    (n : ℕ) (k : ℤ) (hk0 : 0 ≤ k) (hn : r.lags[n]? = some (.fin (k * pow2 e))) (hk : k + (τ (M - 1) - τ 0) ≤ 2 ^ 53)
    (s : ℕ → ℕ) (hs : Selects M (fun i => (τ i : ℚ) * pow2 e) (k * pow2 e) s) (β : ℚ) (hβ : 0 ≤ β) (hβ2 : (⌈(P : ℚ) / p⌉₊ : ℚ) ≤ β ^ 2)
    (ρ : ℚ) (hρ : ρ = P / (2 * ((M - 1) / 2 : ℕ) * p)) :
    ∃ v : ℚ, r.At j n (.fin (k * pow2 e)) (.fin v) ∧
      |v - sacf M (fun i => (τ i : ℚ) * pow2 e) x (fun _ => 1) s (sumSq M x) (k * pow2 e)|
        ≤ ρ ^ 2 / 2 * β + 250 * V * (M * A ^ 2 / sumSq M x) * (1 + β) := by
  have hpe := pow2_pos e
  have hP : 0 < P := hp.trans_le ((hg 0 (by omega)).1.trans (hg 0 (by omega)).2)
  have hPq : (0 : ℚ) < P := by exact_mod_cast hP
  have hpq : (0 : ℚ) < p := by exact_mod_cast hp
  obtain ⟨m, hm, hle⟩ := median64_gap ht hspan hg
  obtain rfl : m = α := by
    have h1 := (result_params ht.built.wf hgr.run).2.2.2
    rw [hga, hgr.alpha] at h1
    exact XF.fin.inj (hm.symm.trans h1.symm)
  have ha1 : (0 : ℚ) < (((M - 1) / 2 : ℕ) : ℚ) := by exact_mod_cast (by omega : 0 < (M - 1) / 2)
  obtain ⟨v, h2, h3⟩ := C77_binary64_large_gaussian ht hv hgr n k hn (by rwa [abs_of_nonneg hk0]) s hs (P * pow2 e / 2)
    (selects_near (hg.units e) (units_inc ht.inc e) (mul_pos hPq hpe) (mul_nonneg (by exact_mod_cast hk0) hpe.le) hs) β hβ
    (fun n' _ => units_card hg ht.inc hp hP hk0 hs hβ2 n')
  refine ⟨v, h2, h3.trans (add_le_add (mul_le_mul_of_nonneg_right ?_ hβ) le_rfl)⟩
  have hc : 0 < (((M - 1) / 2 : ℕ) : ℚ) * p * pow2 e := mul_pos (mul_pos ha1 hpq) hpe
  refine half_gap_sq (mul_pos hPq hpe).le (hc.trans_le hle) hc hle ?_
  rw [hρ]
  field_simp

theorem reorder_cast (σ : Equiv.Perm (Fin M)) : (fun i => ((reorder x σ i : ℚ) : ℝ)) = reorder (fun i => (x i : ℝ)) σ := by
  funext i
  unfold reorder
  split <;> simp

/-- **C85 in binary64, Gaussian weight**: the exact mean of the computed correlations over all orders of the values is within the error of one of them of the mean of C85 with
the real exponential. -/
theorem C85_binary64_gaussian {d : Equiv.Perm (Fin M) → DS (D64 ex fu)} {j : Equiv.Perm (Fin M) → ℕ} (ht : ∀ σ, Times64 (d σ) M τ e)
    (hv : ∀ σ, Values64 (d σ) M (j σ) (reorder x σ) A V) {g : Equiv.Perm (Fin M) → LagArgs (D64 ex fu)}
    {r : Equiv.Perm (Fin M) → AcResult (D64 ex fu)} (hg : ∀ σ, GaussRun64 (d σ) (g σ) (r σ) α e)
    (n : Equiv.Perm (Fin M) → ℕ) (k : ℤ) (hn : ∀ σ, (r σ).lags[n σ]? = some (.fin (k * pow2 e))) (hk : |k| + (τ (M - 1) - τ 0) ≤ 2 ^ 53)
    (s : ℕ → ℕ) (hs : Selects M (fun i => (τ i : ℚ) * pow2 e) (k * pow2 e) s) (β : ℚ) (hβ : 0 ≤ β)
    (hB : ∀ i' < M, (((range M).filter fun i => (τ i : ℚ) * pow2 e + k * pow2 e ≤ (τ (M - 1) : ℚ) * pow2 e ∧ s i = i').card : ℚ) ≤ β ^ 2) :
    ∃ v : Equiv.Perm (Fin M) → ℚ, (∀ σ, (r σ).At (j σ) (n σ) (.fin (k * pow2 e)) (.fin (v σ))) ∧
      |(∑ σ, (v σ : ℝ)) / M.factorial - permMean M (fun i => ((τ i * pow2 e : ℚ) : ℝ)) (weight Real.exp "gaussian" (α : ℝ)) s ((k * pow2 e : ℚ) : ℝ)|
        ≤ (250 * V * (M * A ^ 2 / sumSq M x) * (1 + β) : ℚ) := by
  have hN0 : ∀ σ, 0 < sumSq M (reorder x σ) := fun σ => ((hv σ).pos (ht σ)).1
  choose v h1 h2 using fun σ => gauss64_le (ht σ) (hv σ) (hg σ) (hn σ) hk hs (gauss_le (α := α) (hN0 σ) hs hβ hB)
  refine ⟨v, h1, ?_⟩
  have hN : sumSq M (fun i => (x i : ℝ)) ≠ 0 := by
    have := hN0 1
    rw [sumSq_reorder] at this
    rw [sumSq_cast]
    exact_mod_cast this.ne'
  have h4 := sum_sacf (w := weight Real.exp "gaussian" (α : ℝ)) hN fun i hi hle => (selects_cast hs i hi hle).1
  simp only [sumSq_reorder] at h2
  have hfac : (0 : ℝ) < M.factorial := by exact_mod_cast M.factorial_pos
  have h5 : ∑ σ : Equiv.Perm (Fin M), gaussAcf M τ e (reorder x σ) α s k
      = M.factorial * permMean M (fun i => ((τ i * pow2 e : ℚ) : ℝ)) (weight Real.exp "gaussian" (α : ℝ)) s ((k * pow2 e : ℚ) : ℝ) := by
    rw [← h4]
    unfold gaussAcf
    simp only [reorder_cast]
  rw [← mul_div_cancel_left₀ (permMean _ _ _ _ _) hfac.ne', ← h5, ← sub_div, ← Finset.sum_sub_distrib, abs_div, abs_of_pos hfac, div_le_iff₀ hfac]
  refine (Finset.abs_sum_le_sum_abs _ _).trans ((Finset.sum_le_sum fun σ _ => h2 σ).trans_eq ?_)
  rw [Finset.sum_const, Finset.card_univ, Fintype.card_perm, Fintype.card_fin, nsmul_eq_mul, mul_comm]

end binary64

end Sacf
