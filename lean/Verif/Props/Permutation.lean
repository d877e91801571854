import Mathlib.Data.Fintype.Perm
import Mathlib.Algebra.BigOperators.Fin
import Verif.Props.Stability

/-!
# The mean of a correlation over all orders of the values (C85)

A permutation test compares a correlation with those of the same values in random order at the same times.  Their mean depends on the times only.
-/

set_option linter.unusedSectionVars false

namespace Sacf

open Finset

/-- the values in another order -/
def reorder {K : Type} [Zero K] {M : ℕ} (x : ℕ → K) (σ : Equiv.Perm (Fin M)) (i : ℕ) : K := if h : i < M then x (σ ⟨i, h⟩) else 0

section sums
variable {K : Type} [Field K] [LinearOrder K] [IsStrictOrderedRing K] [FloorRing K]
variable {M : ℕ} {x : ℕ → K}

theorem sum_reorder (f : K → K) (σ : Equiv.Perm (Fin M)) : ∑ i ∈ range M, f (reorder x σ i) = ∑ i ∈ range M, f (x i) := by
  rw [Finset.sum_range, Finset.sum_range]
  have e : ∀ i : Fin M, f (reorder x σ i) = f (x (σ i)) := fun i => by unfold reorder; rw [dif_pos i.2]
  rw [Finset.sum_congr rfl fun i _ => e i]
  exact Equiv.sum_comp σ fun i : Fin M => f (x i)

theorem mean_reorder (σ : Equiv.Perm (Fin M)) : mean M (reorder x σ) = mean M x := by
  unfold mean
  rw [sum_reorder fun y => y]

theorem dev_reorder (σ : Equiv.Perm (Fin M)) (i : Fin M) : dev M (reorder x σ) i = dev M x (σ i) := by
  unfold dev
  rw [mean_reorder]
  unfold reorder
  rw [dif_pos i.2]

theorem sumSq_reorder (σ : Equiv.Perm (Fin M)) : sumSq M (reorder x σ) = sumSq M x := by
  unfold sumSq dev
  rw [mean_reorder]
  exact sum_reorder (fun y => (y - mean M x) ^ 2) σ

theorem perm_shift (f : Fin M → Fin M → K) (π : Equiv.Perm (Fin M)) (a b : Fin M) :
    ∑ σ : Equiv.Perm (Fin M), f (σ (π a)) (σ (π b)) = ∑ σ : Equiv.Perm (Fin M), f (σ a) (σ b) :=
  Equiv.sum_comp (Equiv.mulRight π) fun σ : Equiv.Perm (Fin M) => f (σ a) (σ b)

/-- the sum over all orders of the product of the deviations at places `a` and `b` -/
theorem perm_pairs (a b : Fin M) : ∑ σ : Equiv.Perm (Fin M), dev M x (σ a) * dev M x (σ b)
    = M.factorial * sumSq M x * if a = b then 1 / (M : K) else -(1 / ((M : K) * (M - 1))) := by
  have hM0 : 0 < M := a.pos
  have hM : (M : K) ≠ 0 := by exact_mod_cast hM0.ne'
  set S : Fin M → Fin M → K := fun a b => ∑ σ : Equiv.Perm (Fin M), dev M x (σ a) * dev M x (σ b) with hS
  have hcard : (Finset.univ : Finset (Equiv.Perm (Fin M))).card = M.factorial := by rw [Finset.card_univ, Fintype.card_perm, Fintype.card_fin]
  -- equal places
  have hdiag : ∀ a b, S a a = S b b := fun a b => by
    have := perm_shift (fun p q => dev M x p * dev M x q) (Equiv.swap a b) b b
    rw [Equiv.swap_apply_right] at this
    exact this
  have htot : ∑ a, S a a = M.factorial * sumSq M x := by
    rw [hS, Finset.sum_comm]
    have e : ∀ σ : Equiv.Perm (Fin M), ∑ a, dev M x (σ a) * dev M x (σ a) = sumSq M x := fun σ => by
      rw [Equiv.sum_comp σ fun a : Fin M => dev M x a * dev M x a]
      unfold sumSq
      rw [Finset.sum_range]
      exact Finset.sum_congr rfl fun i _ => (sq _).symm
    rw [Finset.sum_congr rfl fun σ _ => e σ, Finset.sum_const, hcard, nsmul_eq_mul]
  have hd : ∀ a, S a a = M.factorial * sumSq M x * (1 / M) := fun a => by
    rw [Finset.sum_congr rfl fun b _ => hdiag b a, Finset.sum_const, Finset.card_univ, Fintype.card_fin, nsmul_eq_mul] at htot
    rw [← htot]
    field_simp
  -- different places
  have hrow : ∑ b, S a b = 0 := by
    rw [hS, Finset.sum_comm]
    refine Finset.sum_eq_zero fun σ _ => ?_
    rw [← Finset.mul_sum, Equiv.sum_comp σ fun b : Fin M => dev M x b, ← Finset.sum_range, sum_dev hM0, mul_zero]
  by_cases hab : a = b
  · subst hab
    rw [if_pos rfl]
    exact hd a
  · rw [if_neg hab]
    have hoff : ∀ c, c ≠ a → S a c = S a b := fun c hc => by
      have := perm_shift (fun p q => dev M x p * dev M x q) (Equiv.swap b c) a b
      rw [Equiv.swap_apply_left, Equiv.swap_apply_of_ne_of_ne hab (Ne.symm hc)] at this
      exact this
    have h1 : S a a + ((M : K) - 1) * S a b = 0 := by
      rw [← Finset.add_sum_erase _ _ (Finset.mem_univ a)] at hrow
      rw [Finset.sum_congr rfl (fun c hc => hoff c (Finset.ne_of_mem_erase hc)), Finset.sum_const, Finset.card_erase_of_mem (Finset.mem_univ a), Finset.card_univ,
        Fintype.card_fin, nsmul_eq_mul, Nat.cast_sub hM0, Nat.cast_one] at hrow
      exact hrow
    have hM1 : (M : K) - 1 ≠ 0 := by
      have : 1 < M := by
        have h2 := a.2
        have h3 := b.2
        have h4 : (a : ℕ) ≠ b := fun h => hab (Fin.ext h)
        omega
      have : (1 : K) < M := by exact_mod_cast this
      linarith
    show S a b = _
    rw [hd a] at h1
    have h2 : S a b = -(M.factorial * sumSq M x * (1 / M)) / (M - 1) := by
      rw [eq_div_iff hM1]
      linarith
    rw [h2]
    field_simp

/-- the mean of the formula over all orders of the values -/
def permMean {K : Type} [Field K] [LinearOrder K] (M : ℕ) (t : ℕ → K) (w : K → K) (s : ℕ → ℕ) (k : K) : K :=
  (∑ i ∈ range M with t i + k ≤ t (M - 1) ∧ s i = i, w |t (s i) - (t i + k)|) / M
    - (∑ i ∈ range M with t i + k ≤ t (M - 1) ∧ s i ≠ i, w |t (s i) - (t i + k)|) / (M * (M - 1))

theorem sum_sacf {t : ℕ → K} {w : K → K} {s : ℕ → ℕ} {k : K} (hv : sumSq M x ≠ 0) (hs : ∀ i < M, t i + k ≤ t (M - 1) → s i < M) :
    ∑ σ : Equiv.Perm (Fin M), sacf M t (reorder x σ) w s (sumSq M (reorder x σ)) k = M.factorial * permMean M t w s k := by
  unfold sacf
  simp only [sumSq_reorder, div_eq_mul_inv _ (sumSq M x)]
  rw [← Finset.sum_mul, Finset.sum_comm]
  have e : ∀ i ∈ (range M).filter (fun i => t i + k ≤ t (M - 1)),
      ∑ σ : Equiv.Perm (Fin M), w |t (s i) - (t i + k)| * dev M (reorder x σ) i * dev M (reorder x σ) (s i)
        = M.factorial * sumSq M x * (w |t (s i) - (t i + k)| * if s i = i then 1 / (M : K) else -(1 / ((M : K) * (M - 1)))) := by
    intro i hi
    rw [Finset.mem_filter, Finset.mem_range] at hi
    have hsi := hs i hi.1 hi.2
    have h1 := perm_pairs (x := x) (⟨i, hi.1⟩ : Fin M) ⟨s i, hsi⟩
    have e1 : ∀ σ : Equiv.Perm (Fin M), w |t (s i) - (t i + k)| * dev M (reorder x σ) i * dev M (reorder x σ) (s i)
        = w |t (s i) - (t i + k)| * (dev M x (σ ⟨i, hi.1⟩) * dev M x (σ ⟨s i, hsi⟩)) := fun σ => by
      rw [← dev_reorder σ ⟨i, hi.1⟩, ← dev_reorder σ ⟨s i, hsi⟩, mul_assoc]
    rw [Finset.sum_congr rfl fun σ _ => e1 σ, ← Finset.mul_sum, h1]
    have e2 : ((⟨i, hi.1⟩ : Fin M) = ⟨s i, hsi⟩) ↔ s i = i := by rw [Fin.mk.injEq]; exact eq_comm
    simp only [e2]
    ring
  rw [Finset.sum_congr rfl e, ← Finset.mul_sum]
  have e3 : ∑ i ∈ (range M).filter (fun i => t i + k ≤ t (M - 1)), w |t (s i) - (t i + k)| * (if s i = i then 1 / (M : K) else -(1 / (M * (M - 1))))
      = permMean M t w s k := by
    unfold permMean
    rw [← Finset.filter_filter, ← Finset.filter_filter, div_eq_mul_inv (∑ i ∈ _ with s i = i, _), div_eq_mul_inv (∑ i ∈ _ with s i ≠ i, _), Finset.sum_mul, Finset.sum_mul,
      Finset.sum_filter (fun i => s i = i), Finset.sum_filter (fun i => s i ≠ i), ← Finset.sum_sub_distrib]
    refine Finset.sum_congr rfl fun i _ => ?_
    by_cases h : s i = i
    · rw [if_pos h, if_pos h, if_neg (not_not.2 h)]; ring
    · rw [if_neg h, if_neg h, if_pos h]; ring
  rw [e3]
  field_simp

end sums

section exact
variable {K : Type} [Field K] [LinearOrder K] [IsStrictOrderedRing K] [FloorRing K]
variable {dm : K} {f32 ex : K → K} {M : ℕ} {t : ℕ → K} {x : ℕ → K} {α : K} {wt : String}

/-- **C85**: runs for the values in all `M!` orders at the same times, one dataset each or all in one.  The sum of the correlations at lag `k` is `M!` times a number that does not
depend on the values: the sum of the weights of samples matched with themselves over `M`, minus that of the others over `M (M - 1)`. -/
theorem C85_permutations {d : Equiv.Perm (Fin M) → DS (Exact dm f32 ex)} {g : Equiv.Perm (Fin M) → LagArgs (Exact dm f32 ex)}
    {r : Equiv.Perm (Fin M) → AcResult (Exact dm f32 ex)} {j : Equiv.Perm (Fin M) → ℕ}
    (h : ∀ σ, NaturalRun (d σ) (g σ) wt (r σ) M t (j σ) (reorder x σ) α)
    (hf : ∀ i < M, f32 (x i) = x i) (hv : sumSq M x ≠ 0) (k : K) (n : Equiv.Perm (Fin M) → ℕ) (hn : ∀ σ, (r σ).lags[n σ]? = some (.fin k))
    (s : ℕ → ℕ) (hs : Selects M t k s) :
    ∃ v : Equiv.Perm (Fin M) → K, (∀ σ, (r σ).At (j σ) (n σ) (.fin k) (.fin (v σ))) ∧
      ∑ σ, v σ = M.factorial * ((∑ i ∈ range M with t i + k ≤ t (M - 1) ∧ s i = i, weight ex wt α |t (s i) - (t i + k)|) / M
        - (∑ i ∈ range M with t i + k ≤ t (M - 1) ∧ s i ≠ i, weight ex wt α |t (s i) - (t i + k)|) / (M * (M - 1))) :=
  ⟨fun σ => sacf M t (reorder x σ) (weight ex wt α) s (sumSq M (reorder x σ)) k,
    fun σ => C47_formula (h σ) (fun i hi => by unfold reorder; rw [dif_pos hi]; exact hf _ (σ ⟨i, hi⟩).2) (by rw [sumSq_reorder]; exact hv) (n σ) k (hn σ) s hs,
    sum_sacf hv fun i hi hle => (hs i hi hle).1⟩

/-- **C85** on a regular grid: at `m > 0` steps the mean over all orders is `-(M - m) / (M (M - 1))`. -/
theorem C85_regular {t0 δ : K} {d : Equiv.Perm (Fin M) → DS (Exact dm f32 ex)} {g : Equiv.Perm (Fin M) → LagArgs (Exact dm f32 ex)}
    {r : Equiv.Perm (Fin M) → AcResult (Exact dm f32 ex)} {j : Equiv.Perm (Fin M) → ℕ}
    (h : ∀ σ, NaturalRun (d σ) (g σ) wt (r σ) M (fun i : ℕ => t0 + i * δ) (j σ) (reorder x σ) α) (hδ : 0 < δ)
    (hf : ∀ i < M, f32 (x i) = x i) (hv : sumSq M x ≠ 0) (he : wt = "gaussian" → ex 0 = 1) (m : ℕ) (hm0 : 0 < m) (hm : m < M)
    (n : Equiv.Perm (Fin M) → ℕ) (hn : ∀ σ, (r σ).lags[n σ]? = some (.fin (m * δ))) :
    ∃ v : Equiv.Perm (Fin M) → K, (∀ σ, (r σ).At (j σ) (n σ) (.fin (m * δ)) (.fin (v σ))) ∧
      (∑ σ, v σ) / M.factorial = -((M - m) / (M * (M - 1))) := by
  have hsel := (sacf_regular (t0 := t0) hδ (weight_zero (h 1).wt_known he α) M m hm x (sumSq M x)).1
  obtain ⟨v, h1, h2⟩ := C85_permutations h hf hv _ n hn _ hsel
  refine ⟨v, h1, ?_⟩
  have hfac : (M.factorial : K) ≠ 0 := by exact_mod_cast M.factorial_ne_zero
  have e1 : (range M).filter (fun i : ℕ => t0 + (i : K) * δ + m * δ ≤ t0 + ((M - 1 : ℕ) : K) * δ ∧ i + m = i) = ∅ :=
    Finset.filter_eq_empty_iff.2 fun i _ hc => by omega
  have e2 : (range M).filter (fun i : ℕ => t0 + (i : K) * δ + m * δ ≤ t0 + ((M - 1 : ℕ) : K) * δ ∧ i + m ≠ i) = range (M - m) := by
    ext i
    have e : t0 + (i : K) * δ + m * δ = t0 + ((i + m : ℕ) : K) * δ := by push_cast; ring
    rw [Finset.mem_filter, Finset.mem_range, Finset.mem_range, e, add_le_add_iff_left, mul_le_mul_iff_left₀ hδ, Nat.cast_le]
    omega
  have e3 : ∀ i ∈ range (M - m), weight ex wt α |t0 + ((i + m : ℕ) : K) * δ - (t0 + (i : K) * δ + m * δ)| = 1 := fun i _ => by
    have : t0 + ((i + m : ℕ) : K) * δ - (t0 + (i : K) * δ + m * δ) = 0 := by push_cast; ring
    rw [this, abs_zero]
    exact weight_zero (h 1).wt_known he α
  rw [h2, e1, e2, Finset.sum_congr rfl e3, Finset.sum_empty, Finset.sum_const, Finset.card_range, nsmul_eq_mul, Nat.cast_sub hm.le,
    mul_comm, mul_div_assoc, div_self hfac, zero_div, zero_sub, mul_one, mul_one]

end exact

section binary64
variable {ex : ℚ → ℚ} {fu : Bool} {M : ℕ} {e : ℤ} {x : ℕ → ℚ} {A V : ℚ}

theorem Values64.reorder {d d' : DS (D64 ex fu)} {j j' : ℕ} (hv : Values64 d M j x A V) {σ : Equiv.Perm (Fin M)} (hrow : d'.HasRow j' (samples M (reorder x σ))) :
    Values64 d' M j' (Sacf.reorder x σ) A V where
  row := hrow
  bound := fun i hi => by unfold Sacf.reorder; rw [dif_pos hi]; exact hv.bound _ (σ ⟨i, hi⟩).2
  amin := hv.amin
  amax := hv.amax
  unit := hv.unit
  small := hv.small
  float := hv.float.imp id fun h i hi => by unfold Sacf.reorder; rw [dif_pos hi]; exact h _ (σ ⟨i, hi⟩).2
  spread := by rw [sumSq_reorder]; exact hv.spread

theorem mean_error {v u : Equiv.Perm (Fin M) → ℚ} {E : ℚ} (h : ∀ σ, |v σ - u σ| ≤ E) :
    |(∑ σ, v σ) / M.factorial - (∑ σ, u σ) / M.factorial| ≤ E := by
  have hfac : (0 : ℚ) < M.factorial := by exact_mod_cast M.factorial_pos
  rw [← sub_div, ← Finset.sum_sub_distrib, abs_div, abs_of_pos hfac, div_le_iff₀ hfac]
  refine (Finset.abs_sum_le_sum_abs _ _).trans ((Finset.sum_le_sum fun σ _ => h σ).trans_eq ?_)
  rw [Finset.sum_const, Finset.card_univ, Fintype.card_perm, Fintype.card_fin, nsmul_eq_mul, mul_comm]

/-- **C85 in binary64**: the exact mean of the computed correlations is within the error of one of them. -/
theorem C85_binary64 {τ : ℕ → ℤ} {d : Equiv.Perm (Fin M) → DS (D64 ex fu)} {j : Equiv.Perm (Fin M) → ℕ} (ht : ∀ σ, Times64 (d σ) M τ e)
    (hv : ∀ σ, Values64 (d σ) M (j σ) (reorder x σ) A V) {g : Equiv.Perm (Fin M) → LagArgs (D64 ex fu)} (wt : String)
    (hw : wt = "fractional" ∨ wt = "fractional_squared") {r : Equiv.Perm (Fin M) → AcResult (D64 ex fu)}
    (hr : ∀ σ, autocorrelation .fabs (d σ) (g σ) "natural" wt = .ok (r σ)) (α : ℚ) (hα : ∀ σ, (r σ).corr.alpha = .fin α) (hα0 : pow2 (e - 400) ≤ α)
    (n : Equiv.Perm (Fin M) → ℕ) (k : ℤ) (hn : ∀ σ, (r σ).lags[n σ]? = some (.fin (k * pow2 e))) (hk : |k| + (τ (M - 1) - τ 0) ≤ 2 ^ 53)
    (s : ℕ → ℕ) (hs : Selects M (fun i => (τ i : ℚ) * pow2 e) (k * pow2 e) s) (β : ℚ) (hβ : 0 ≤ β)
    (hB : ∀ i' < M, (((range M).filter fun i => (τ i : ℚ) * pow2 e + k * pow2 e ≤ (τ (M - 1) : ℚ) * pow2 e ∧ s i = i').card : ℚ) ≤ β ^ 2) :
    ∃ v : Equiv.Perm (Fin M) → ℚ, (∀ σ, (r σ).At (j σ) (n σ) (.fin (k * pow2 e)) (.fin (v σ))) ∧
      |(∑ σ, v σ) / M.factorial - permMean M (fun i => (τ i : ℚ) * pow2 e) (weight ex wt α) s (k * pow2 e)|
        ≤ 250 * V * (M * A ^ 2 / sumSq M x) * (1 + β) := by
  choose v h1 h2 using fun σ => error64_le (ht σ) (hv σ) hw (hr σ) (hα σ) hα0 (hn σ) hk hs hβ hB
  refine ⟨v, h1, ?_⟩
  have hN : sumSq M x ≠ 0 := by
    have := ((hv 1).pos (ht 1)).1
    rw [sumSq_reorder] at this
    exact this.ne'
  simp only [sumSq_reorder] at h2
  have h3 := mean_error h2
  have hfac : (M.factorial : ℚ) ≠ 0 := by exact_mod_cast M.factorial_ne_zero
  have h4 := sum_sacf (w := weight ex wt α) hN fun i hi hle => (hs i hi hle).1
  simp only [sumSq_reorder] at h4
  rwa [h4, mul_div_cancel_left₀ _ hfac] at h3

/-- **C85 in binary64**, default call on a regular grid: at `m > 0` steps the mean is within `500 V κ` of `-(M - m) / (M (M - 1))`. -/
theorem C85_binary64_regular {a p : ℤ} {d : Equiv.Perm (Fin M) → DS (D64 ex fu)} {j : Equiv.Perm (Fin M) → ℕ} (ht : ∀ σ, Regular64 (d σ) M a p e)
    (hv : ∀ σ, Values64 (d σ) M (j σ) (reorder x σ) A V) :
    ∃ r : Equiv.Perm (Fin M) → AcResult (D64 ex fu), (∀ σ, autocorrelation .fabs (d σ) {} "natural" "fractional" = .ok (r σ)) ∧
      ∀ m, 0 < m → m < M → ∃ v : Equiv.Perm (Fin M) → ℚ,
        (∀ σ, (r σ).At (j σ) (M - 1 + m) (.fin ((m * p : ℤ) * pow2 e)) (.fin (v σ))) ∧
        |(∑ σ, v σ) / M.factorial + (M - m) / (M * (M - 1))| ≤ 500 * V * (M * A ^ 2 / sumSq M x) := by
  choose hN _ r hr h1 using fun σ => (ht σ).result (hv σ)
  refine ⟨r, hr, fun m hm0 hm => ?_⟩
  choose v h2 h3 using fun σ => h1 σ m hm
  refine ⟨v, h2, ?_⟩
  have hN1 := hN 1
  simp only [sumSq_reorder] at h3 hN1
  have h4 := mean_error h3
  have hfac : (M.factorial : ℚ) ≠ 0 := by exact_mod_cast M.factorial_ne_zero
  have h5 : ∑ σ : Equiv.Perm (Fin M), autoCov M (reorder x σ) m / sumSq M x = M.factorial * -((M - m) / (M * (M - 1))) := by
    unfold autoCov
    rw [Finset.sum_congr rfl fun σ _ => div_eq_mul_inv _ _, ← Finset.sum_mul, Finset.sum_comm]
    have e1 : ∀ i ∈ range (M - m), ∑ σ : Equiv.Perm (Fin M), dev M (reorder x σ) i * dev M (reorder x σ) (i + m)
        = M.factorial * sumSq M x * -(1 / ((M : ℚ) * (M - 1))) := by
      intro i hi
      rw [Finset.mem_range] at hi
      have h6 := perm_pairs (x := x) (⟨i, by omega⟩ : Fin M) ⟨i + m, by omega⟩
      rw [if_neg (by rw [Fin.mk.injEq]; omega)] at h6
      rw [← h6]
      exact Finset.sum_congr rfl fun σ _ => by rw [← dev_reorder σ ⟨i, _⟩, ← dev_reorder σ ⟨i + m, _⟩]
    rw [Finset.sum_congr rfl e1, Finset.sum_const, Finset.card_range, nsmul_eq_mul, Nat.cast_sub hm.le]
    have := hN1.ne'
    field_simp
  rwa [h5, mul_div_cancel_left₀ _ hfac, sub_neg_eq_add] at h4

end binary64

/-! ### cases -/

/-- the call for one lag of any values at times 0, 1, 2, 3 - η returns -/
theorem perm_run {η k : ℚ} (h0 : 0 ≤ η) (h : η ≤ 1/2) (hk0 : 0 ≤ k) (hk : k ≤ 1) (y : ℕ → ℚ) : ∃ (d : DS Q) (r : AcResult Q) (n : ℕ),
    NaturalRun (dm := 10 ^ 100) (f32 := id) (ex := fun x => 1 / (1 - x)) d ⟨some (.fin k), some (.fin k), some (.fin 1), some (.fin 1)⟩ "fractional" r 4
      (jT η) 0 y 1 ∧ r.lags[n]? = some (.fin k) := by
  obtain ⟨d, hd, ht, hrow, _⟩ := C03_round_trip (F := Q) (samples 4 (jT η)) [samples 4 y]
    (by simp [samples]) (by simp) (by simp [Rect, samples])
  have hc : Constructed d := .table hd
  have e3 : jT η 3 = 3 - η := rfl
  have e0 : jT η 0 = 0 := rfl
  rcases C21_default_range_partial d hc 4 (jT η) ht (by norm_num) (jT_inc h) (by norm_num [e3, e0]; linarith) (1 - η) (jT_gap h0) (by
      have h1 : 2 * (jT η (4 - 1) - jT η 0) / (1 - η) < (13 : ℤ) := by
        norm_num [e3, e0]
        rw [div_lt_iff₀ (by linarith)]
        linarith
      have := Int.floor_lt.2 h1
      omega) ⟨some (.fin k), some (.fin k), some (.fin 1), some (.fin 1)⟩ "fractional" (by unfold KnownWeight; simp)
      (by norm_num [e3, e0]; linarith) (by norm_num [e3, e0]; linarith) (by norm_num; exact h0) with ⟨r, hr⟩ | ⟨hne, _⟩
  · obtain ⟨p1, p2, p3, p4⟩ := result_params hc.wf hr
    obtain ⟨ks, hl, _, hmem⟩ := C17_grid .fabs d hc _ _ _ r hr k k 1 p1 p2 p3 one_pos
    obtain ⟨n, hn⟩ := List.mem_iff_getElem?.1 ((hmem k).2 (.inl ⟨0, by norm_num, le_rfl⟩))
    exact ⟨d, r, n, ⟨hc, ht, jT_inc h, ⟨_, hrow, rfl⟩, hr, by unfold KnownWeight; simp, p4, one_pos⟩, by rw [hl, List.getElem?_map, hn]; rfl⟩
  · exact absurd rfl hne

/-- C85_permutations: times 0, 1, 2, 5/2, lag 1/4: the samples at 0 and 1 match themselves, the one at 2 matches that at 5/2, all with weight 4/5.
The mean over the 24 orders of any values that are not all equal is 1/3. -/
example (x : ℕ → ℚ) (hx : sumSq 4 x ≠ 0) : ∃ (r : Equiv.Perm (Fin 4) → AcResult Q) (n : Equiv.Perm (Fin 4) → ℕ) (v : Equiv.Perm (Fin 4) → ℚ),
    (∀ σ, (r σ).At 0 (n σ) (.fin (1/4)) (.fin (v σ))) ∧ ∑ σ, v σ = 24 * (1/3) := by
  choose d r n h hn using fun σ : Equiv.Perm (Fin 4) => perm_run (η := 1/2) (k := 1/4) (by norm_num) le_rfl (by norm_num) (by norm_num) (reorder x σ)
  obtain ⟨v, h1, h2⟩ := C85_permutations h (fun _ _ => rfl) hx (1/4) n hn (fun i => if i = 2 then 3 else i) (by
    unfold Selects IsNearest
    decide +kernel)
  refine ⟨r, n, v, h1, h2.trans ?_⟩
  decide +kernel

/-- C85_regular: times 0, 1, 2, 3, lag 1: mean -1/4 -/
example (x : ℕ → ℚ) (hx : sumSq 4 x ≠ 0) : ∃ (r : Equiv.Perm (Fin 4) → AcResult Q) (n : Equiv.Perm (Fin 4) → ℕ) (v : Equiv.Perm (Fin 4) → ℚ),
    (∀ σ, (r σ).At 0 (n σ) (.fin 1) (.fin (v σ))) ∧ (∑ σ, v σ) / 24 = -(1/4) := by
  choose d r n h hn using fun σ : Equiv.Perm (Fin 4) => perm_run (η := 0) (k := 1) le_rfl (by norm_num) (by norm_num) le_rfl (reorder x σ)
  have e : ∀ i < 4, jT 0 i = 0 + (i : ℚ) * 1 := by decide +kernel
  have h' : ∀ σ, NaturalRun (d σ) _ "fractional" (r σ) 4 (fun i : ℕ => 0 + (i : ℚ) * 1) 0 (reorder x σ) 1 := fun σ =>
    ⟨(h σ).built, (h σ).times.trans (List.map_congr_left fun i hi => by rw [e i (List.mem_range.1 hi)]), fun i j hij hj => by simpa using hij, (h σ).row, (h σ).run,
      (h σ).wt_known, (h σ).alpha, (h σ).alpha_pos⟩
  obtain ⟨v, h1, h2⟩ := C85_regular h' one_pos (fun _ _ => rfl) hx (by simp) 1 (by norm_num) (by norm_num) n (by simpa using hn)
  refine ⟨r, n, v, by simpa using h1, Eq.trans (by norm_num [Nat.factorial]) (h2.trans (by norm_num))⟩

/-- C85_binary64: the 24 orders of 1, 2, 6, 3 at irregular times, lag 2304 units -/
example : ∃ (r : Equiv.Perm (Fin 4) → AcResult B) (v : Equiv.Perm (Fin 4) → ℚ), (∀ σ, (r σ).At 0 1 (.fin (2304 * pow2 (-10))) (.fin (v σ))) ∧
    |(∑ σ, v σ) / 24 + 167/1155| ≤ pow2 (-35) := by
  choose d r ht hrow hr hα hl using fun σ : Equiv.Perm (Fin 4) => lag64_witness kτ (reorder wX' σ) 2304 kτ_inc (by revert σ; decide +kernel)
  obtain ⟨d0, r0, _, hrow0, _⟩ := lag64_witness kτ wX' 2304 kτ_inc (by decide +kernel)
  have hv : Values64 d0 4 0 wX' 8 (pow2 (-51)) := ⟨hrow0, by decide +kernel, by decide +kernel,
    by decide +kernel, by decide +kernel, by decide +kernel, .inr (by decide +kernel), by decide +kernel⟩
  obtain ⟨v, h1, h2⟩ := C85_binary64 ht (fun σ => hv.reorder (hrow σ)) "fractional" (.inl rfl) hr 1 hα (by decide +kernel) (fun _ => 1) 2304 hl (by decide +kernel) kS (by
      unfold Selects IsNearest
      decide +kernel) (3/2) (by norm_num) (by decide +kernel)
  refine ⟨r, v, h1, ?_⟩
  have e : permMean 4 (fun i => (kτ i : ℚ) * pow2 (-10)) (fun y => 1 / (1 + y / 1)) kS ((2304 : ℤ) * pow2 (-10)) = -(167/1155) := by
    decide +kernel
  have e' : ∀ f : ℚ → ℚ, weight f "fractional" 1 = fun y => 1 / (1 + y / 1) := fun f => by funext y; simp [weight]
  rw [e', e, sub_neg_eq_add] at h2
  exact h2.trans (by decide +kernel)

/-- C85_binary64_regular: the 24 orders of 1, 2, 6, 3 at times 5, 8, 11, 14, lag 3 -/
example : ∃ (d : Equiv.Perm (Fin 4) → DS B) (r : Equiv.Perm (Fin 4) → AcResult B) (v : Equiv.Perm (Fin 4) → ℚ), (∀ σ, autocorrelation .fabs (d σ) = .ok (r σ)) ∧
    (∀ σ, (r σ).At 0 4 (.fin 3) (.fin (v σ))) ∧ |(∑ σ, v σ) / 24 + 1/4| ≤ pow2 (-35) := by
  choose d hc ht hrow using fun σ : Equiv.Perm (Fin 4) => signal_object (reorder wX' σ)
  obtain ⟨d0, _, _, hrow0⟩ := signal_object wX'
  have hv : Values64 d0 4 0 wX' 8 (pow2 (-51)) := ⟨hrow0, by decide +kernel, by decide +kernel,
    by decide +kernel, by decide +kernel, by decide +kernel, .inr (by decide +kernel), by decide +kernel⟩
  obtain ⟨r, hr, h⟩ := C85_binary64_regular (fun σ => signal_times (hc σ) (ht σ)) fun σ => hv.reorder (hrow σ)
  obtain ⟨v, h1, h2⟩ := h 1 (by norm_num) (by norm_num)
  refine ⟨d, r, v, hr, fun σ => by simpa [pow2_zero] using h1 σ, ?_⟩
  have e : (((4 : ℕ) : ℚ) - (1 : ℕ)) / (((4 : ℕ) : ℚ) * (((4 : ℕ) : ℚ) - 1)) = 1/4 := by norm_num
  rw [e] at h2
  exact h2.trans (by decide +kernel)

end Sacf
