import Verif.Props.Signals

/-!
# How far small changes of the input move the correlations (C78, C79), and C77 for the Gaussian weight

First in exact arithmetic, then in binary64 with the error bound of C61.
-/

set_option linter.unusedSectionVars false

namespace Sacf

open Finset

section exact
variable {K : Type} [Field K] [LinearOrder K] [IsStrictOrderedRing K] [FloorRing K]
variable {dm : K} {f32 ex : K → K}
variable {d d' : DS (Exact dm f32 ex)} {g g' : LagArgs (Exact dm f32 ex)} {wt wt' : String} {r r' : AcResult (Exact dm f32 ex)}
  {M : ℕ} {t t' : ℕ → K} {j j' : ℕ} {x y : ℕ → K} {α α' : K}

/-- Cauchy–Schwarz for sums over pairs `(i, s i)` with coefficients at most `C`, when no index is hit more than `B` times -/
theorem pairs_bound {A : Finset ℕ} {s : ℕ → ℕ} {c a b : ℕ → K} {C : K} {B : ℕ} (hA : A ⊆ range M) (hs : ∀ i ∈ A, s i < M)
    (hc : ∀ i ∈ A, |c i| ≤ C) (hB : ∀ n < M, (A.filter fun i => s i = n).card ≤ B) :
    (∑ i ∈ A, c i * a i * b (s i)) ^ 2 ≤ C ^ 2 * B * ((∑ i ∈ range M, a i ^ 2) * ∑ i ∈ range M, b i ^ 2) := by
  have hcs := Finset.sum_mul_sq_le_sq_mul_sq A (fun i => c i * a i) (fun i => b (s i))
  have h1 : ∑ i ∈ A, (c i * a i) ^ 2 ≤ C ^ 2 * ∑ i ∈ range M, a i ^ 2 := by
    rw [Finset.mul_sum]
    calc ∑ i ∈ A, (c i * a i) ^ 2 ≤ ∑ i ∈ A, C ^ 2 * a i ^ 2 := by
            apply Finset.sum_le_sum
            intro i hi
            rw [mul_pow]
            have : c i ^ 2 ≤ C ^ 2 := by
              rw [← sq_abs (c i)]
              exact pow_le_pow_left₀ (abs_nonneg _) (hc i hi) 2
            exact mul_le_mul_of_nonneg_right this (sq_nonneg _)
      _ ≤ ∑ i ∈ range M, C ^ 2 * a i ^ 2 := by
            apply Finset.sum_le_sum_of_subset_of_nonneg hA
            intro i _ _
            positivity
  have h2 : ∑ i ∈ A, b (s i) ^ 2 ≤ B * ∑ i ∈ range M, b i ^ 2 := by
    have hmaps : ∀ i ∈ A, s i ∈ range M := fun i hi => Finset.mem_range.2 (hs i hi)
    rw [← Finset.sum_fiberwise_of_maps_to hmaps, Finset.mul_sum]
    apply Finset.sum_le_sum
    intro n hn
    have : ∀ i ∈ A.filter (fun i => s i = n), b (s i) ^ 2 = b n ^ 2 := by
      intro i hi
      rw [(Finset.mem_filter.1 hi).2]
    rw [Finset.sum_congr rfl this, Finset.sum_const, nsmul_eq_mul]
    apply mul_le_mul_of_nonneg_right _ (sq_nonneg _)
    exact_mod_cast hB n (Finset.mem_range.1 hn)
  have h3 : 0 ≤ ∑ i ∈ A, b (s i) ^ 2 := Finset.sum_nonneg fun i _ => sq_nonneg _
  have h4 : 0 ≤ C ^ 2 * ∑ i ∈ range M, a i ^ 2 := mul_nonneg (sq_nonneg _) (Finset.sum_nonneg fun i _ => sq_nonneg _)
  calc _ ≤ _ := hcs
    _ ≤ (C ^ 2 * ∑ i ∈ range M, a i ^ 2) * (B * ∑ i ∈ range M, b i ^ 2) := mul_le_mul h1 h2 h3 h4
    _ = _ := by ring

/-! ## C78: jitter of the times and of the lag -/

/-- the correlations of the same values at times `t`, lag `k` and at times `t'`, lag `k'`, when the same samples count and are matched in the same way and the weights
differ by at most `C` -/
theorem sacf_times {w w' : K → K} {s : ℕ → ℕ} {k k' C : K} {B : ℕ}
    (hs : ∀ i < M, t i + k ≤ t (M - 1) → s i < M)
    (hcount : ∀ i < M, t i + k ≤ t (M - 1) ↔ t' i + k' ≤ t' (M - 1))
    (hC : ∀ i < M, t i + k ≤ t (M - 1) → |w |t (s i) - (t i + k)| - w' (|t' (s i) - (t' i + k')|)| ≤ C)
    (hB : ∀ n < M, ((range M).filter fun i => t i + k ≤ t (M - 1) ∧ s i = n).card ≤ B) (hv : sumSq M x ≠ 0) :
    (sacf M t x w s (sumSq M x) k - sacf M t' x w' s (sumSq M x) k') ^ 2 ≤ C ^ 2 * B := by
  have hSS : 0 < sumSq M x := lt_of_le_of_ne (Finset.sum_nonneg fun i _ => sq_nonneg _) (Ne.symm hv)
  have e0 : (range M).filter (fun i => t' i + k' ≤ t' (M - 1)) = (range M).filter (fun i => t i + k ≤ t (M - 1)) :=
    Finset.filter_congr fun i hi => (hcount i (Finset.mem_range.1 hi)).symm
  unfold sacf
  rw [e0, ← sub_div, ← Finset.sum_sub_distrib, div_pow, div_le_iff₀ (by positivity)]
  have e1 : ∀ i ∈ (range M).filter (fun i => t i + k ≤ t (M - 1)),
      w |t (s i) - (t i + k)| * dev M x i * dev M x (s i) - w' |t' (s i) - (t' i + k')| * dev M x i * dev M x (s i)
        = (w |t (s i) - (t i + k)| - w' |t' (s i) - (t' i + k')|) * dev M x i * dev M x (s i) := fun i _ => by ring
  rw [Finset.sum_congr rfl e1]
  have := pairs_bound (M := M) (A := (range M).filter fun i => t i + k ≤ t (M - 1)) (s := s)
    (c := fun i => w |t (s i) - (t i + k)| - w' |t' (s i) - (t' i + k')|) (a := dev M x) (b := dev M x) (C := C) (B := B)
    (Finset.filter_subset _ _) (fun i hi => by
      rw [Finset.mem_filter, Finset.mem_range] at hi
      exact hs i hi.1 hi.2) (fun i hi => by
      rw [Finset.mem_filter, Finset.mem_range] at hi
      exact hC i hi.1 hi.2) (fun n hn => by rw [Finset.filter_filter]; exact hB n hn)
  refine this.trans_eq ?_
  unfold sumSq
  ring

/-- the fractional weights change by at most the change of the distance over `alpha` -/
theorem weight_lipschitz {wt : String} (hα : 0 < α) (hw : wt = "fractional" ∨ wt = "fractional_squared") {δ δ' : K} (h0 : 0 ≤ δ) (h0' : 0 ≤ δ') :
    |weight ex wt α δ - weight ex wt α δ'| ≤ |δ - δ'| / α := by
  have hu : 0 ≤ δ / α := div_nonneg h0 hα.le
  have hu' : 0 ≤ δ' / α := div_nonneg h0' hα.le
  have e : |δ - δ'| / α = |δ / α - δ' / α| := by rw [← sub_div, abs_div, abs_of_pos hα]
  rw [e]
  unfold weight
  generalize δ / α = u at *
  generalize δ' / α = u' at *
  rcases hw with rfl | rfl
  · rw [if_neg (by decide), if_neg (by decide), if_neg (by decide), if_neg (by decide)]
    have e1 : 1 / (1 + u) - 1 / (1 + u') = (u' - u) / ((1 + u) * (1 + u')) := by field_simp; ring
    have h1 : 1 ≤ (1 + u) * (1 + u') := by nlinarith [mul_nonneg hu hu']
    rw [e1, abs_div, abs_of_pos (by linarith : (0 : K) < (1 + u) * (1 + u')), abs_sub_comm]
    exact div_le_self (abs_nonneg _) h1
  · rw [if_neg (by decide), if_pos rfl, if_neg (by decide), if_pos rfl]
    have e1 : 1 / (1 + u ^ 2) - 1 / (1 + u' ^ 2) = (u' - u) * ((u' + u) / ((1 + u ^ 2) * (1 + u' ^ 2))) := by field_simp; ring
    have h1 : u' + u ≤ (1 + u ^ 2) * (1 + u' ^ 2) := by
      nlinarith [mul_nonneg (sq_nonneg u) (sq_nonneg u'), sq_nonneg (2 * u - 1), sq_nonneg (2 * u' - 1)]
    have h2 : 0 < (1 + u ^ 2) * (1 + u' ^ 2) := by positivity
    have h3 : (u' + u) / ((1 + u ^ 2) * (1 + u' ^ 2)) ≤ 1 := (div_le_one h2).2 h1
    have h4 : 0 ≤ (u' + u) / ((1 + u ^ 2) * (1 + u' ^ 2)) := div_nonneg (by linarith) h2.le
    rw [e1, abs_mul, abs_of_nonneg h4, abs_sub_comm]
    exact mul_le_of_le_one_right (abs_nonneg _) h3

/-- the distances to a matched sample change by at most `2 η + |k - k'|` -/
theorem dist_jitter {η k k' : K} (hη : ∀ i < M, |t i - t' i| ≤ η) {i i' : ℕ} (hi : i < M) (hi' : i' < M) :
    abs (|t i' - (t i + k)| - |t' i' - (t' i + k')|) ≤ 2 * η + |k - k'| := by
  refine (abs_abs_sub_abs_le_abs_sub _ _).trans ?_
  have e : t i' - (t i + k) - (t' i' - (t' i + k')) = (t i' - t' i') - (t i - t' i) - (k - k') := by ring
  rw [e]
  refine (abs_sub _ _).trans ?_
  have := abs_sub (t i' - t' i') (t i - t' i)
  linarith [hη i hi, hη i' hi']

/-- the same samples count and are matched in the same way after a jitter smaller than the margins -/
theorem selects_jitter {η k k' : K} (hη : ∀ i < M, |t i - t' i| ≤ η) {s : ℕ → ℕ} (hs : Selects M t k s)
    (hsep : ∀ i < M, t i + k ≤ t (M - 1) → ∀ i' < M, i' ≠ s i →
      |t (s i) - (t i + k)| + (4 * η + 2 * |k - k'|) < |t i' - (t i + k)|)
    (hend : ∀ i, i + 1 < M → 2 * η + |k - k'| < |t (M - 1) - (t i + k)|) (hsign : k ≤ 0 ↔ k' ≤ 0) :
    (∀ i < M, t i + k ≤ t (M - 1) ↔ t' i + k' ≤ t' (M - 1)) ∧ Selects M t' k' s := by
  have hcount : ∀ i < M, t i + k ≤ t (M - 1) ↔ t' i + k' ≤ t' (M - 1) := by
    intro i hi
    by_cases hl : i + 1 < M
    · have h1 := hend i hl
      have h2 := abs_le.1 (hη i hi)
      have h3 := abs_le.1 (hη (M - 1) (by omega))
      have h4 := neg_abs_le (k - k')
      have h5 := le_abs_self (k - k')
      rcases lt_abs.1 h1 with h | h
      · constructor <;> intro _ <;> linarith [h2.1, h2.2, h3.1, h3.2]
      · constructor <;> intro _ <;> linarith [h2.1, h2.2, h3.1, h3.2]
    · obtain rfl : i = M - 1 := by omega
      rw [add_le_iff_nonpos_right, add_le_iff_nonpos_right]
      exact hsign
  refine ⟨hcount, fun i hi hle => ?_⟩
  have hle' := (hcount i hi).2 hle
  have hsM := (hs i hi hle').1
  refine ⟨hsM, fun i' hi' => ?_⟩
  by_cases he : i' = s i
  · exact .inr ⟨by rw [he], he.le⟩
  · left
    have h1 := hsep i hi hle' i' hi' he
    have h2 := abs_le.1 (dist_jitter (k := k) (k' := k') hη hi hsM)
    have h3 := abs_le.1 (dist_jitter (k := k) (k' := k') hη hi hi')
    linarith [h2.1, h2.2, h3.1, h3.2]

/-- **C78**: what holds in general.  Two calls for the same values, at times that differ by at most `η`, at lags `k` and `k'`.  If at lag `k` the matched sample is
closer than any other by more than `4 η + 2 |k - k'|`, and no shifted time is within `2 η + |k - k'|` of the last time, the correlations differ by at most
`√B (2 η + |k - k'|) / alpha`, where `B` is the largest number of samples matched with one and the same sample. -/
theorem C78_bound_partial (h : NaturalRun d g wt r M t j x α) (h' : NaturalRun d' g' wt r' M t' j' x α)
    (hw : wt = "fractional" ∨ wt = "fractional_squared") (hf : ∀ i < M, f32 (x i) = x i) (hv : sumSq M x ≠ 0)
    (n n' : ℕ) (k k' : K) (hn : r.lags[n]? = some (.fin k)) (hn' : r'.lags[n']? = some (.fin k'))
    (η : K) (hη : ∀ i < M, |t i - t' i| ≤ η) (s : ℕ → ℕ) (hs : Selects M t k s)
    (hsep : ∀ i < M, t i + k ≤ t (M - 1) → ∀ i' < M, i' ≠ s i →
      |t (s i) - (t i + k)| + (4 * η + 2 * |k - k'|) < |t i' - (t i + k)|)
    (hend : ∀ i, i + 1 < M → 2 * η + |k - k'| < |t (M - 1) - (t i + k)|) (hsign : k ≤ 0 ↔ k' ≤ 0)
    (B : ℕ) (hB : ∀ i' < M, ((range M).filter fun i => t i + k ≤ t (M - 1) ∧ s i = i').card ≤ B) :
    ∃ v v', r.At j n (.fin k) (.fin v) ∧ r'.At j' n' (.fin k') (.fin v') ∧ (v - v') ^ 2 ≤ ((2 * η + |k - k'|) / α) ^ 2 * B := by
  obtain ⟨hcount, hs'⟩ := selects_jitter hη hs hsep hend hsign
  refine ⟨_, _, C47_formula h hf hv n k hn s hs, C47_formula h' hf hv n' k' hn' s hs', ?_⟩
  apply sacf_times (fun i hi hk => (hs i hi hk).1) hcount _ hB hv
  intro i hi hk
  refine (weight_lipschitz h.alpha_pos hw (abs_nonneg _) (abs_nonneg _)).trans ?_
  exact (div_le_div_iff_of_pos_right h.alpha_pos).2 (dist_jitter hη hi (hs i hi hk).1)

/-- **C78** for the Gaussian weight, with an exponential that does not expand distances on the non-positive numbers (as the real one) and matched samples within `D`. -/
theorem C78_gaussian_partial (h : NaturalRun d g "gaussian" r M t j x α) (h' : NaturalRun d' g' "gaussian" r' M t' j' x α)
    (he : ∀ y z, y ≤ 0 → z ≤ 0 → |ex y - ex z| ≤ |y - z|) (hf : ∀ i < M, f32 (x i) = x i) (hv : sumSq M x ≠ 0)
    (n n' : ℕ) (k k' : K) (hn : r.lags[n]? = some (.fin k)) (hn' : r'.lags[n']? = some (.fin k'))
    (η : K) (hη : ∀ i < M, |t i - t' i| ≤ η) (s : ℕ → ℕ) (hs : Selects M t k s)
    (hsep : ∀ i < M, t i + k ≤ t (M - 1) → ∀ i' < M, i' ≠ s i →
      |t (s i) - (t i + k)| + (4 * η + 2 * |k - k'|) < |t i' - (t i + k)|)
    (hend : ∀ i, i + 1 < M → 2 * η + |k - k'| < |t (M - 1) - (t i + k)|) (hsign : k ≤ 0 ↔ k' ≤ 0)
    (D : K) (hD : ∀ i < M, t i + k ≤ t (M - 1) → |t (s i) - (t i + k)| ≤ D ∧ |t' (s i) - (t' i + k')| ≤ D)
    (B : ℕ) (hB : ∀ i' < M, ((range M).filter fun i => t i + k ≤ t (M - 1) ∧ s i = i').card ≤ B) :
    ∃ v v', r.At j n (.fin k) (.fin v) ∧ r'.At j' n' (.fin k') (.fin v') ∧ (v - v') ^ 2 ≤ (D * (2 * η + |k - k'|) / α ^ 2) ^ 2 * B := by
  obtain ⟨hcount, hs'⟩ := selects_jitter hη hs hsep hend hsign
  refine ⟨_, _, C47_formula h hf hv n k hn s hs, C47_formula h' hf hv n' k' hn' s hs', ?_⟩
  apply sacf_times (fun i hi hk => (hs i hi hk).1) hcount _ hB hv
  intro i hi hk
  have hj := dist_jitter (k := k) (k' := k') hη hi (hs i hi hk).1
  obtain ⟨hD1, hD2⟩ := hD i hi hk
  have h1 := abs_nonneg (t (s i) - (t i + k))
  have h2 := abs_nonneg (t' (s i) - (t' i + k'))
  generalize |t (s i) - (t i + k)| = δ at *
  generalize |t' (s i) - (t' i + k')| = δ' at *
  have hα := h.alpha_pos
  have h2α : 0 < 2 * α ^ 2 := by positivity
  unfold weight
  rw [if_pos rfl, if_pos rfl]
  refine (he _ _ (neg_nonpos.2 (by positivity)) (neg_nonpos.2 (by positivity))).trans ?_
  have e : -(δ ^ 2 / (2 * α ^ 2)) - -(δ' ^ 2 / (2 * α ^ 2)) = -((δ - δ') * (δ + δ') / (2 * α ^ 2)) := by ring
  rw [e, abs_neg, abs_div, abs_mul, abs_of_pos h2α, abs_of_nonneg (by linarith : 0 ≤ δ + δ')]
  have e2 : D * (2 * η + |k - k'|) / α ^ 2 = (2 * η + |k - k'|) * (2 * D) / (2 * α ^ 2) := by field_simp
  rw [e2, div_le_div_iff_of_pos_right h2α]
  exact mul_le_mul hj (by linarith) (by linarith) ((abs_nonneg _).trans hj)

/-! ## C79: noise in the values -/

theorem dev_noise (x y : ℕ → K) (i : ℕ) : dev M y i = dev M x i + dev M (fun i => y i - x i) i := by
  unfold dev mean
  rw [Finset.sum_sub_distrib, sub_div]
  ring

/-- the sum of squared deviations is at most the sum of squares -/
theorem sumSq_le_sq (e : ℕ → K) : sumSq M e ≤ ∑ i ∈ range M, e i ^ 2 := by
  rcases Nat.eq_zero_or_pos M with rfl | hM
  · simp [sumSq]
  · have hM' : (0 : K) < M := by exact_mod_cast hM
    have e1 : ∀ i ∈ range M, dev M e i ^ 2 = e i ^ 2 - 2 * mean M e * e i + mean M e ^ 2 := fun i _ => by unfold dev; ring
    have e2 : ∑ i ∈ range M, e i = M * mean M e := by unfold mean; field_simp
    unfold sumSq
    rw [Finset.sum_congr rfl e1, Finset.sum_add_distrib, Finset.sum_sub_distrib, ← Finset.mul_sum, e2, Finset.sum_const, Finset.card_range, nsmul_eq_mul]
    nlinarith [mul_nonneg hM'.le (sq_nonneg (mean M e))]

/-- the normalisers of a series and of a noisy copy -/
theorem sumSq_noise {q : K} (hq : 0 ≤ q) (hq1 : q < 1) (hv : sumSq M x ≠ 0) (hxy : ∑ i ∈ range M, (y i - x i) ^ 2 ≤ q ^ 2 * sumSq M x) :
    |sumSq M y - sumSq M x| ≤ (2 * q + q ^ 2) * sumSq M x ∧ (1 - q) ^ 2 * sumSq M x ≤ sumSq M y := by
  have hS : 0 < sumSq M x := lt_of_le_of_ne (Finset.sum_nonneg fun i _ => sq_nonneg _) (Ne.symm hv)
  have hE := (sumSq_le_sq (M := M) fun i => y i - x i).trans hxy
  have hE0 : 0 ≤ sumSq M fun i => y i - x i := Finset.sum_nonneg fun i _ => sq_nonneg _
  have hcs := Finset.sum_mul_sq_le_sq_mul_sq (range M) (dev M x) (dev M fun i => y i - x i)
  have hc : |∑ i ∈ range M, dev M x i * dev M (fun i => y i - x i) i| ≤ q * sumSq M x := by
    apply abs_le_of_sq_le_sq _ (by positivity)
    refine hcs.trans ?_
    have : (∑ i ∈ range M, dev M x i ^ 2) * ∑ i ∈ range M, dev M (fun i => y i - x i) i ^ 2 ≤ sumSq M x * (q ^ 2 * sumSq M x) :=
      mul_le_mul_of_nonneg_left hE hS.le
    refine this.trans_eq (by ring)
  have e : sumSq M y = sumSq M x + 2 * (∑ i ∈ range M, dev M x i * dev M (fun i => y i - x i) i) + sumSq M fun i => y i - x i := by
    have e1 : ∀ i ∈ range M, dev M y i ^ 2 = dev M x i ^ 2 + 2 * (dev M x i * dev M (fun i => y i - x i) i) + dev M (fun i => y i - x i) i ^ 2 :=
      fun i _ => by rw [dev_noise x y]; ring
    unfold sumSq
    rw [Finset.sum_congr rfl e1, Finset.sum_add_distrib, Finset.sum_add_distrib, ← Finset.mul_sum]
  obtain ⟨h1, h2⟩ := abs_le.1 hc
  refine ⟨abs_le.2 ⟨?_, ?_⟩, ?_⟩
  · nlinarith
  · nlinarith
  · -- ‖a + ε‖² ≥ (‖a‖ - ‖ε‖)²: with E = ‖ε‖² = p² S, p ≤ q, but without square roots
    have hsq : (∑ i ∈ range M, dev M x i * dev M (fun i => y i - x i) i) ^ 2 ≤ sumSq M x * sumSq M fun i => y i - x i := hcs
    set c := ∑ i ∈ range M, dev M x i * dev M (fun i => y i - x i) i
    set E := sumSq M fun i => y i - x i
    set S := sumSq M x
    rw [e]
    -- S E ≥ c² and c ≥ -q S: S (2 c + E) ≥ 2 c S + c² = (c + S)² - S²
    have h3 : (S - q * S) ^ 2 ≤ (S + c) ^ 2 := pow_le_pow_left₀ (by nlinarith) (by linarith) 2
    have h4 : S * ((1 - q) ^ 2 * S) ≤ S * (S + 2 * c + E) := by nlinarith
    exact le_of_mul_le_mul_left h4 hS

theorem sacf_noise {w : K → K} (hw : ∀ y, 0 ≤ y → 0 ≤ w y ∧ w y ≤ 1) {s : ℕ → ℕ} {k q β : K}
    (hs : ∀ i < M, t i + k ≤ t (M - 1) → s i < M) (hβ : 0 ≤ β)
    (hB : ∀ n < M, (((range M).filter fun i => t i + k ≤ t (M - 1) ∧ s i = n).card : K) ≤ β ^ 2)
    (hv : sumSq M x ≠ 0) (hq : 0 ≤ q) (hq1 : q < 1) (hxy : ∑ i ∈ range M, (y i - x i) ^ 2 ≤ q ^ 2 * sumSq M x) :
    |sacf M t y w s (sumSq M y) k - sacf M t x w s (sumSq M x) k| ≤ β * (4 * q + 2 * q ^ 2) / (1 - q) ^ 2 := by
  have hS : 0 < sumSq M x := lt_of_le_of_ne (Finset.sum_nonneg fun i _ => sq_nonneg _) (Ne.symm hv)
  obtain ⟨hd, hlow⟩ := sumSq_noise hq hq1 hv hxy
  have hq1' : 0 < (1 - q) ^ 2 := by have : 0 < 1 - q := by linarith
                                    positivity
  have hS' : 0 < sumSq M y := lt_of_lt_of_le (mul_pos hq1' hS) hlow
  have hE := (sumSq_le_sq (M := M) fun i => y i - x i).trans hxy
  set A := (range M).filter fun i => t i + k ≤ t (M - 1) with hA
  have hfl := Nat.floor_le (sq_nonneg β)
  have pb : ∀ (a b : ℕ → K) (p p' : K), 0 ≤ p → 0 ≤ p' → ∑ i ∈ range M, a i ^ 2 ≤ p ^ 2 * sumSq M x → ∑ i ∈ range M, b i ^ 2 ≤ p' ^ 2 * sumSq M x →
      |∑ i ∈ A, w |t (s i) - (t i + k)| * a i * b (s i)| ≤ β * p * p' * sumSq M x := by
    intro a b p p' hp hp' h1 h2
    apply abs_le_of_sq_le_sq _ (by positivity)
    have := pairs_bound (M := M) (A := A) (s := s) (c := fun i => w |t (s i) - (t i + k)|) (a := a) (b := b) (C := 1) (B := ⌊β ^ 2⌋₊)
      (Finset.filter_subset _ _) (fun i hi => by
        rw [hA, Finset.mem_filter, Finset.mem_range] at hi
        exact hs i hi.1 hi.2) (fun i hi => by
        obtain ⟨h0, h1⟩ := hw _ (abs_nonneg (t (s i) - (t i + k)))
        rw [abs_of_nonneg h0]; exact h1) (fun n hn => by
        rw [hA, Finset.filter_filter, Nat.le_floor_iff (sq_nonneg β)]; exact hB n hn)
    refine this.trans ?_
    have h3 : (∑ i ∈ range M, a i ^ 2) * ∑ i ∈ range M, b i ^ 2 ≤ (p ^ 2 * sumSq M x) * (p' ^ 2 * sumSq M x) :=
      mul_le_mul h1 h2 (Finset.sum_nonneg fun i _ => sq_nonneg _) (by positivity)
    have h4 : 0 ≤ (p ^ 2 * sumSq M x) * (p' ^ 2 * sumSq M x) := by positivity
    calc (1 : K) ^ 2 * (⌊β ^ 2⌋₊ : K) * ((∑ i ∈ range M, a i ^ 2) * ∑ i ∈ range M, b i ^ 2)
        ≤ (1 : K) ^ 2 * (⌊β ^ 2⌋₊ : K) * ((p ^ 2 * sumSq M x) * (p' ^ 2 * sumSq M x)) := mul_le_mul_of_nonneg_left h3 (by positivity)
      _ ≤ β ^ 2 * ((p ^ 2 * sumSq M x) * (p' ^ 2 * sumSq M x)) := by rw [one_pow, one_mul]; exact mul_le_mul_of_nonneg_right hfl h4
      _ = _ := by ring
  have hx1 : ∑ i ∈ range M, dev M x i ^ 2 ≤ 1 ^ 2 * sumSq M x := by rw [one_pow, one_mul]; exact le_rfl
  have p1 := pb (dev M x) (dev M x) 1 1 zero_le_one zero_le_one hx1 hx1
  have p2 := pb (dev M x) (dev M fun i => y i - x i) 1 q zero_le_one hq hx1 hE
  have p3 := pb (dev M fun i => y i - x i) (dev M x) q 1 hq zero_le_one hE hx1
  have p4 := pb (dev M fun i => y i - x i) (dev M fun i => y i - x i) q q hq hq hE hE
  have e : ∑ i ∈ A, w |t (s i) - (t i + k)| * dev M y i * dev M y (s i) =
      ∑ i ∈ A, w |t (s i) - (t i + k)| * dev M x i * dev M x (s i)
      + (∑ i ∈ A, w |t (s i) - (t i + k)| * dev M x i * dev M (fun i => y i - x i) (s i)
      + ∑ i ∈ A, w |t (s i) - (t i + k)| * dev M (fun i => y i - x i) i * dev M x (s i)
      + ∑ i ∈ A, w |t (s i) - (t i + k)| * dev M (fun i => y i - x i) i * dev M (fun i => y i - x i) (s i)) := by
    rw [← Finset.sum_add_distrib, ← Finset.sum_add_distrib, ← Finset.sum_add_distrib]
    apply Finset.sum_congr rfl
    intro i _
    rw [dev_noise x y i, dev_noise x y (s i)]
    ring
  unfold sacf
  rw [← hA, e]
  set P := ∑ i ∈ A, w |t (s i) - (t i + k)| * dev M x i * dev M x (s i)
  have hR : |∑ i ∈ A, w |t (s i) - (t i + k)| * dev M x i * dev M (fun i => y i - x i) (s i)
      + ∑ i ∈ A, w |t (s i) - (t i + k)| * dev M (fun i => y i - x i) i * dev M x (s i)
      + ∑ i ∈ A, w |t (s i) - (t i + k)| * dev M (fun i => y i - x i) i * dev M (fun i => y i - x i) (s i)|
      ≤ β * (2 * q + q ^ 2) * sumSq M x := by
    refine (abs_add_le _ _).trans ((add_le_add (abs_add_le _ _) le_rfl).trans ?_)
    linarith
  generalize ∑ i ∈ A, w |t (s i) - (t i + k)| * dev M x i * dev M (fun i => y i - x i) (s i)
      + ∑ i ∈ A, w |t (s i) - (t i + k)| * dev M (fun i => y i - x i) i * dev M x (s i)
      + ∑ i ∈ A, w |t (s i) - (t i + k)| * dev M (fun i => y i - x i) i * dev M (fun i => y i - x i) (s i) = R at *
  have hP : |P / sumSq M x| ≤ β := by
    rw [abs_div, abs_of_pos hS, div_le_iff₀ hS]
    linarith
  have e2 : (P + R) / sumSq M y - P / sumSq M x = (R - P / sumSq M x * (sumSq M y - sumSq M x)) / sumSq M y := by
    field_simp
    ring
  rw [e2, abs_div, abs_of_pos hS', div_le_div_iff₀ hS' hq1']
  have h5 : |R - P / sumSq M x * (sumSq M y - sumSq M x)| ≤ β * (4 * q + 2 * q ^ 2) * sumSq M x := by
    refine (abs_sub _ _).trans ?_
    rw [abs_mul]
    have := mul_le_mul hP hd (abs_nonneg _) hβ
    linarith
  have h6 : 0 ≤ β * (4 * q + 2 * q ^ 2) := by positivity
  calc _ ≤ β * (4 * q + 2 * q ^ 2) * sumSq M x * (1 - q) ^ 2 := mul_le_mul_of_nonneg_right h5 hq1'.le
    _ = β * (4 * q + 2 * q ^ 2) * ((1 - q) ^ 2 * sumSq M x) := by ring
    _ ≤ _ := mul_le_mul_of_nonneg_left hlow h6

/-- **C79**: two series at the same times whose difference has a sum of squares of at most `q²` times the sum of squared deviations of the first, `q < 1`: with the same
`alpha` and weight function their correlations at a lag differ by at most `β (4 q + 2 q²) / (1 - q)²`, where no sample is matched more than `β²` times at that lag. -/
theorem C79_noise (h : NaturalRun d g wt r M t j x α) (h' : NaturalRun d' g' wt r' M t j' y α)
    (hf : ∀ i < M, f32 (x i) = x i) (hf' : ∀ i < M, f32 (y i) = y i) (hv : sumSq M x ≠ 0)
    (he : wt = "gaussian" → ∀ y ≤ 0, 0 ≤ ex y ∧ ex y ≤ 1)
    (n n' : ℕ) (k : K) (hn : r.lags[n]? = some (.fin k)) (hn' : r'.lags[n']? = some (.fin k)) (s : ℕ → ℕ) (hs : Selects M t k s)
    (β : K) (hβ : 0 ≤ β) (hB : ∀ i' < M, (((range M).filter fun i => t i + k ≤ t (M - 1) ∧ s i = i').card : K) ≤ β ^ 2)
    (q : K) (hq : 0 ≤ q) (hq1 : q < 1) (hxy : ∑ i ∈ range M, (y i - x i) ^ 2 ≤ q ^ 2 * sumSq M x) :
    ∃ v v', r.At j n (.fin k) (.fin v) ∧ r'.At j' n' (.fin k) (.fin v') ∧ |v' - v| ≤ β * (4 * q + 2 * q ^ 2) / (1 - q) ^ 2 := by
  have hS : 0 < sumSq M x := lt_of_le_of_ne (Finset.sum_nonneg fun i _ => sq_nonneg _) (Ne.symm hv)
  have hq1' : 0 < 1 - q := by linarith
  have hS' : 0 < sumSq M y := lt_of_lt_of_le (mul_pos (pow_pos hq1' 2) hS) (sumSq_noise hq hq1 hv hxy).2
  exact ⟨_, _, C47_formula h hf hv n k hn s hs, C47_formula h' hf' hS'.ne' n' k hn' s hs,
    sacf_noise (fun y hy => weight_bounds h.wt_known he h.alpha_pos hy) (fun i hi hk => (hs i hi hk).1) hβ hB hv hq hq1 hxy⟩

/-- the textbook estimates of a series and of a noisy copy -/
theorem autoCov_noise {q : K} (hv : sumSq M x ≠ 0) (hq : 0 ≤ q) (hq1 : q < 1) (hxy : ∑ i ∈ range M, (y i - x i) ^ 2 ≤ q ^ 2 * sumSq M x)
    {m : ℕ} (hm : m < M) : |autoCov M y m / sumSq M y - autoCov M x m / sumSq M x| ≤ (4 * q + 2 * q ^ 2) / (1 - q) ^ 2 := by
  have hsel := (sacf_regular (t0 := (0 : K)) one_pos (w := fun _ => 1) rfl M m hm x (sumSq M x)).1
  rw [← (sacf_regular (t0 := (0 : K)) one_pos (w := fun _ => 1) rfl M m hm x (sumSq M x)).2,
    ← (sacf_regular (t0 := (0 : K)) one_pos (w := fun _ => 1) rfl M m hm y (sumSq M y)).2]
  refine (sacf_noise (fun _ _ => ⟨zero_le_one, le_rfl⟩) (fun i hi hk => (hsel i hi hk).1) zero_le_one ?_ hv hq hq1 hxy).trans_eq (by rw [one_mul])
  intro n _
  rw [one_pow]
  have : ((range M).filter fun i : ℕ => (0 : K) + i * 1 + m * 1 ≤ 0 + ((M - 1 : ℕ) : K) * 1 ∧ i + m = n).card ≤ 1 := by
    rw [Finset.card_le_one]
    intro a ha b hb
    rw [Finset.mem_filter] at ha hb
    omega
  exact_mod_cast this

/-- **C79** on a regular grid, at lags of `m ≥ 0` steps: here `β = 1`, and `alpha` and the weight function do not matter. -/
theorem C79_regular {t0 t0' δ : K} (h : NaturalRun d g wt r M (fun i : ℕ => t0 + i * δ) j x α)
    (h' : NaturalRun d' g' wt' r' M (fun i : ℕ => t0' + i * δ) j' y α') (hδ : 0 < δ)
    (hf : ∀ i < M, f32 (x i) = x i) (hf' : ∀ i < M, f32 (y i) = y i) (hv : sumSq M x ≠ 0)
    (he : wt = "gaussian" → ex 0 = 1) (he' : wt' = "gaussian" → ex 0 = 1)
    (m n n' : ℕ) (hm : m < M) (hn : r.lags[n]? = some (.fin (m * δ))) (hn' : r'.lags[n']? = some (.fin (m * δ)))
    (q : K) (hq : 0 ≤ q) (hq1 : q < 1) (hxy : ∑ i ∈ range M, (y i - x i) ^ 2 ≤ q ^ 2 * sumSq M x) :
    ∃ v v', r.At j n (.fin (m * δ)) (.fin v) ∧ r'.At j' n' (.fin (m * δ)) (.fin v') ∧ |v' - v| ≤ (4 * q + 2 * q ^ 2) / (1 - q) ^ 2 := by
  have hS : 0 < sumSq M x := lt_of_le_of_ne (Finset.sum_nonneg fun i _ => sq_nonneg _) (Ne.symm hv)
  have hq1' : 0 < 1 - q := by linarith
  have hS' : 0 < sumSq M y := lt_of_lt_of_le (mul_pos (pow_pos hq1' 2) hS) (sumSq_noise hq hq1 hv hxy).2
  exact ⟨_, _, C30_regular h hδ hf hv he m n hm hn, C30_regular h' hδ hf' hS'.ne' he' m n' hm hn', autoCov_noise hv hq hq1 hxy hm⟩

/-! ## C77 for the Gaussian weight -/

/-- the correlations with two weight functions that differ by at most `C` at the distances that occur -/
theorem sacf_weights_near {w w' : K → K} {s : ℕ → ℕ} {k C : K} {B : ℕ} (hs : Selects M t k s)
    (hC : ∀ i < M, t i + k ≤ t (M - 1) → abs (w |t (s i) - (t i + k)| - w' |t (s i) - (t i + k)|) ≤ C)
    (hB : ∀ n < M, ((range M).filter fun i => t i + k ≤ t (M - 1) ∧ s i = n).card ≤ B) (hv : sumSq M x ≠ 0) :
    (sacf M t x w s (sumSq M x) k - sacf M t x w' s (sumSq M x) k) ^ 2 ≤ C ^ 2 * B :=
  sacf_times (fun i hi hk => (hs i hi hk).1) (fun _ _ => Iff.rfl) hC hB hv

/-- **C77, large `alpha`, Gaussian weight**, with an exponential between `1 + y` and 1 for `y ≤ 0` (as the real one): the correlation is within `√B D² / (2 alpha²)`
of the one without weights. -/
theorem C77_large_gaussian (h : NaturalRun d g "gaussian" r M t j x α) (he : ∀ y ≤ 0, 1 + y ≤ ex y ∧ ex y ≤ 1)
    (hf : ∀ i < M, f32 (x i) = x i) (hv : sumSq M x ≠ 0) (n : ℕ) (k : K) (hn : r.lags[n]? = some (.fin k))
    (s : ℕ → ℕ) (hs : Selects M t k s) (D : K) (hDs : ∀ i < M, t i + k ≤ t (M - 1) → |t (s i) - (t i + k)| ≤ D)
    (B : ℕ) (hB : ∀ n < M, ((range M).filter fun i => t i + k ≤ t (M - 1) ∧ s i = n).card ≤ B) :
    ∃ v, r.At j n (.fin k) (.fin v) ∧ (v - sacf M t x (fun _ => 1) s (sumSq M x) k) ^ 2 ≤ (D ^ 2 / (2 * α ^ 2)) ^ 2 * B := by
  refine ⟨_, C47_formula h hf hv n k hn s hs, sacf_weights_near hs (fun i hi hk => ?_) hB hv⟩
  have hα := h.alpha_pos
  have h1 := hDs i hi hk
  have h0 := abs_nonneg (t (s i) - (t i + k))
  generalize |t (s i) - (t i + k)| = δ at *
  unfold weight
  rw [if_pos rfl]
  have h2α : 0 < 2 * α ^ 2 := by positivity
  obtain ⟨a1, a2⟩ := he (-(δ ^ 2 / (2 * α ^ 2))) (neg_nonpos.2 (by positivity))
  have h3 : δ ^ 2 / (2 * α ^ 2) ≤ D ^ 2 / (2 * α ^ 2) := (div_le_div_iff_of_pos_right h2α).2 (pow_le_pow_left₀ h0 h1 2)
  have h4 : 0 ≤ D ^ 2 / (2 * α ^ 2) := by positivity
  rw [abs_le]
  constructor <;> linarith

/-- **C77, small `alpha`, Gaussian weight**, with an exponential that is 1 at 0 and between 0 and `1 / (1 - y)` for `y ≤ 0` (as the real one): the correlation is within
`√B 2 alpha² / ε²` of the sum over the coinciding pairs alone. -/
theorem C77_small_gaussian (h : NaturalRun d g "gaussian" r M t j x α) (he0 : ex 0 = 1) (he : ∀ y ≤ 0, 0 ≤ ex y ∧ ex y ≤ 1 / (1 - y))
    (hf : ∀ i < M, f32 (x i) = x i) (hv : sumSq M x ≠ 0) (n : ℕ) (k : K) (hn : r.lags[n]? = some (.fin k))
    (s : ℕ → ℕ) (hs : Selects M t k s) (ε : K) (hε : 0 < ε)
    (hεs : ∀ i < M, t i + k ≤ t (M - 1) → t (s i) ≠ t i + k → ε ≤ |t (s i) - (t i + k)|)
    (B : ℕ) (hB : ∀ n < M, ((range M).filter fun i => t i + k ≤ t (M - 1) ∧ s i = n).card ≤ B) :
    ∃ v, r.At j n (.fin k) (.fin v) ∧
      (v - sacf M t x (fun δ => if δ = 0 then 1 else 0) s (sumSq M x) k) ^ 2 ≤ (2 * α ^ 2 / ε ^ 2) ^ 2 * B := by
  refine ⟨_, C47_formula h hf hv n k hn s hs, sacf_weights_near hs (fun i hi hk => ?_) hB hv⟩
  have hα := h.alpha_pos
  have hc : 0 ≤ 2 * α ^ 2 / ε ^ 2 := by positivity
  by_cases h0 : |t (s i) - (t i + k)| = 0
  · rw [h0, if_pos rfl, weight_zero h.wt_known (fun _ => he0) α, sub_self, abs_zero]
    exact hc
  · have h1 := hεs i hi hk fun hc => h0 (by rw [hc, sub_self, abs_zero])
    generalize |t (s i) - (t i + k)| = δ at *
    rw [if_neg h0, sub_zero]
    unfold weight
    rw [if_pos rfl]
    have hδ : 0 < δ := hε.trans_le h1
    have h2α : 0 < 2 * α ^ 2 := by positivity
    have hz : 0 < δ ^ 2 / (2 * α ^ 2) := by positivity
    obtain ⟨a1, a2⟩ := he (-(δ ^ 2 / (2 * α ^ 2))) (neg_nonpos.2 hz.le)
    rw [abs_of_nonneg a1]
    refine a2.trans ?_
    rw [sub_neg_eq_add]
    have h3 : ε ^ 2 / (2 * α ^ 2) ≤ 1 + δ ^ 2 / (2 * α ^ 2) := by
      have := (div_le_div_iff_of_pos_right h2α).2 (pow_le_pow_left₀ hε.le h1 2)
      linarith
    have h4 := one_div_le_one_div_of_le (by positivity) h3
    rwa [one_div_div] at h4

end exact

/-! ## C78 is false of the code -/

/-- times 0, 1, 2 and `3 - η` -/
def jT (η : ℚ) (i : ℕ) : ℚ := if i = 3 then 3 - η else i
/-- values 0, 0, 2, 2 -/
def jX (i : ℕ) : ℚ := [0, 0, 2, 2].getD i 0

theorem jT_inc {η : ℚ} (h : η ≤ 1/2) : Increasing 4 (jT η) := by
  intro i j hij hj
  have h3 : j = 1 ∨ j = 2 ∨ j = 3 := by omega
  unfold jT
  rcases h3 with rfl | rfl | rfl
  · have : i = 0 := by omega
    subst this; norm_num
  · have : i = 0 ∨ i = 1 := by omega
    rcases this with rfl | rfl <;> norm_num
  · have : i = 0 ∨ i = 1 ∨ i = 2 := by omega
    rcases this with rfl | rfl | rfl <;> norm_num <;> linarith

theorem jT_gap {η : ℚ} (h0 : 0 ≤ η) : IsMinGap 4 (jT η) (1 - η) := by
  refine ⟨⟨2, 3, by norm_num, by norm_num, by unfold jT; norm_num; ring⟩, fun i j hij hj => ?_⟩
  have h3 : j = 1 ∨ j = 2 ∨ j = 3 := by omega
  unfold jT
  rcases h3 with rfl | rfl | rfl
  · have : i = 0 := by omega
    subst this; norm_num; linarith
  · have : i = 0 ∨ i = 1 := by omega
    rcases this with rfl | rfl <;> norm_num <;> linarith
  · have : i = 0 ∨ i = 1 ∨ i = 2 := by omega
    rcases this with rfl | rfl | rfl <;> norm_num <;> linarith

/-- the call for lag 1 of the values 0, 0, 2, 2 at these times returns -/
theorem jitter_run {η : ℚ} (h0 : 0 ≤ η) (h : η ≤ 1/2) : ∃ (d : DS Q) (r : AcResult Q) (n : ℕ),
    NaturalRun (dm := 10 ^ 100) (f32 := id) (ex := fun x => 1 / (1 - x)) d ⟨some (.fin 1), some (.fin 1), some (.fin 1), some (.fin 1)⟩ "fractional" r 4
      (jT η) 0 jX 1 ∧ r.lags[n]? = some (.fin 1) := by
  obtain ⟨d, hd, ht, hrow, _⟩ := C03_round_trip (F := Q) (samples 4 (jT η)) [samples 4 jX]
    (by simp [samples]) (by simp) (by simp [Rect, samples])
  have hc : Constructed d := .table hd
  have e3 : jT η 3 = 3 - η := rfl
  have e0 : jT η 0 = 0 := rfl
  rcases C21_default_range_partial d hc 4 (jT η) ht (by norm_num) (jT_inc h) (by norm_num [e3, e0]; linarith) (1 - η) (jT_gap h0) (by
      have h1 : 2 * (jT η (4 - 1) - jT η 0) / (1 - η) < (13 : ℤ) := by
        norm_num [e3, e0]
        rw [div_lt_iff₀ (by linarith)]
        linarith
      have := Int.floor_lt.2 h1
      omega) ⟨some (.fin 1), some (.fin 1), some (.fin 1), some (.fin 1)⟩ "fractional" (by unfold KnownWeight; simp)
      (by norm_num [e3, e0]; linarith) (by norm_num [e3, e0]; linarith) (by norm_num; exact h0) with ⟨r, hr⟩ | ⟨hne, _⟩
  · obtain ⟨p1, p2, p3, p4⟩ := result_params hc.wf hr
    obtain ⟨ks, hl, _, hmem⟩ := C17_grid .fabs d hc _ _ _ r hr 1 1 1 p1 p2 p3 one_pos
    obtain ⟨n, hn⟩ := List.mem_iff_getElem?.1 ((hmem 1).2 (.inl ⟨0, by norm_num, le_rfl⟩))
    exact ⟨d, r, n, ⟨hc, ht, jT_inc h, ⟨_, hrow, rfl⟩, hr, by unfold KnownWeight; simp, p4, one_pos⟩, by rw [hl, List.getElem?_map, hn]; rfl⟩
  · exact absurd rfl hne

/-- **C78 is false of the code**: for every `η` up to 1/2, however small, moving the last of the times 0, 1, 2, 3 by `η` changes the correlation at lag 1 of the values
0, 0, 2, 2 from 1/4 to 0: the pair at times 2 and 3 is no longer counted. -/
theorem C78_false (η : ℚ) (h0 : 0 < η) (h : η ≤ 1/2) : ∃ (d d' : DS Q) (r r' : AcResult Q) (n n' : ℕ),
    NaturalRun (dm := 10 ^ 100) (f32 := id) (ex := fun x => 1 / (1 - x)) d ⟨some (.fin 1), some (.fin 1), some (.fin 1), some (.fin 1)⟩ "fractional" r 4
      (jT 0) 0 jX 1 ∧
    NaturalRun (dm := 10 ^ 100) (f32 := id) (ex := fun x => 1 / (1 - x)) d' ⟨some (.fin 1), some (.fin 1), some (.fin 1), some (.fin 1)⟩ "fractional" r' 4
      (jT η) 0 jX 1 ∧ (∀ i < 4, |jT 0 i - jT η i| ≤ η) ∧ r.At 0 n (.fin 1) (.fin (1/4)) ∧ r'.At 0 n' (.fin 1) (.fin 0) := by
  obtain ⟨d, r, n, hrun, hn⟩ := jitter_run (η := 0) le_rfl (by norm_num)
  obtain ⟨d', r', n', hrun', hn'⟩ := jitter_run h0.le h
  have hx : sumSq 4 jX ≠ 0 := by decide +kernel
  have hdist : ∀ i < 4, |jT 0 i - jT η i| ≤ η := by
    intro i hi
    unfold jT
    split
    · rw [show (3 : ℚ) - 0 - (3 - η) = η by ring, abs_of_pos h0]
    · rw [sub_self, abs_zero]; exact h0.le
  have hs : Selects 4 (jT 0) 1 (fun i => i + 1) := by
    unfold Selects IsNearest
    decide +kernel
  have h1 := C47_formula hrun (fun _ _ => rfl) hx n 1 hn _ hs
  have e1 : sacf 4 (jT 0) jX (weight (fun x => 1 / (1 - x)) "fractional" 1) (fun i => i + 1) (sumSq 4 jX) 1 = 1/4 := by decide +kernel
  rw [e1] at h1
  have hcount : ∀ i < 4, jT η i + 1 ≤ jT η (4 - 1) ↔ i < 2 := by
    intro i hi
    interval_cases i <;> simp [jT] <;> norm_num <;> linarith
  have hs' : Selects 4 (jT η) 1 (fun i => i + 1) := by
    intro i hi hle
    have := (hcount i hi).1 hle
    have e : jT η i + 1 = jT η (i + 1) := by unfold jT; rw [if_neg (by omega), if_neg (by omega)]; push_cast; rfl
    beta_reduce
    rw [e]
    refine ⟨by omega, fun i' hi' => ?_⟩
    rw [sub_self, abs_zero]
    rcases eq_or_ne i' (i + 1) with rfl | hne
    · right; simp
    · left
      apply abs_pos.2
      apply sub_ne_zero.2
      rcases lt_or_gt_of_ne hne with hlt | hlt
      · exact (jT_inc h _ _ hlt (by omega)).ne
      · exact (jT_inc h _ _ hlt (by omega)).ne'
  have h2 := C47_formula hrun' (fun _ _ => rfl) hx n' 1 hn' _ hs'
  have e2 : sacf 4 (jT η) jX (weight (fun x => 1 / (1 - x)) "fractional" 1) (fun i => i + 1) (sumSq 4 jX) 1 = 0 := by
    unfold sacf
    have hset : (range 4).filter (fun i => jT η i + 1 ≤ jT η (4 - 1)) = range 2 := by
      ext i
      simp only [Finset.mem_filter, Finset.mem_range]
      constructor
      · rintro ⟨hi, hle⟩; exact (hcount i hi).1 hle
      · intro hi; exact ⟨by omega, (hcount i (by omega)).2 hi⟩
    rw [hset]
    have e3 : ∀ i ∈ range 2, weight (fun x : ℚ => 1 / (1 - x)) "fractional" 1 |jT η (i + 1) - (jT η i + 1)| * dev 4 jX i * dev 4 jX (i + 1)
        = dev 4 jX i * dev 4 jX (i + 1) := by
      intro i hi
      have hi := Finset.mem_range.1 hi
      have e : jT η i + 1 = jT η (i + 1) := by unfold jT; rw [if_neg (by omega), if_neg (by omega)]; push_cast; rfl
      rw [e, sub_self, abs_zero, weight_zero (by unfold KnownWeight; simp) (by decide), one_mul]
    rw [Finset.sum_congr rfl e3]
    decide +kernel
  rw [e2] at h2
  exact ⟨d, d', r, r', n, n', hrun, hrun', hdist, h1, h2⟩

/-! ## In binary64 -/

section binary64
variable {ex : ℚ → ℚ} {fu : Bool} {d d' : DS (D64 ex fu)} {M j j' : ℕ} {τ τ' : ℕ → ℤ} {e : ℤ} {x y : ℕ → ℚ} {A A' V V' : ℚ}

/-- the multiplicity bound for real `β`, in whole numbers -/
theorem card_floor {p : ℕ → ℕ → Prop} [∀ a, DecidablePred (p a)] {β : ℚ} (hB : ∀ a < M, (((range M).filter (p a)).card : ℚ) ≤ β ^ 2) :
    ∀ a < M, ((range M).filter (p a)).card ≤ ⌊β ^ 2⌋₊ := fun a ha => by rw [Nat.le_floor_iff (sq_nonneg β)]; exact hB a ha

/-- `|sacf| ≤ β` and the error bound with it -/
theorem error64_le (ht : Times64 d M τ e) (hv : Values64 d M j x A V) {ga : LagArgs (D64 ex fu)} {wt : String}
    (hw : wt = "fractional" ∨ wt = "fractional_squared") {r : AcResult (D64 ex fu)}
    (hr : autocorrelation .fabs d ga "natural" wt = .ok r) {α : ℚ} (hα : r.corr.alpha = .fin α) (hα0 : pow2 (e - 400) ≤ α)
    {n : ℕ} {k : ℤ} (hn : r.lags[n]? = some (.fin (k * pow2 e))) (hk : |k| + (τ (M - 1) - τ 0) ≤ 2 ^ 53)
    {s : ℕ → ℕ} (hs : Selects M (fun i => (τ i : ℚ) * pow2 e) (k * pow2 e) s) {β : ℚ} (hβ : 0 ≤ β)
    (hB : ∀ i' < M, (((range M).filter fun i => (τ i : ℚ) * pow2 e + k * pow2 e ≤ (τ (M - 1) : ℚ) * pow2 e ∧ s i = i').card : ℚ) ≤ β ^ 2) :
    ∃ v : ℚ, r.At j n (.fin (k * pow2 e)) (.fin v) ∧
      |v - sacf M (fun i => (τ i : ℚ) * pow2 e) x (weight ex wt α) s (sumSq M x) (k * pow2 e)| ≤ 250 * V * (M * A ^ 2 / sumSq M x) * (1 + β) := by
  obtain ⟨hN, hV0⟩ := hv.pos ht
  have hαp : 0 < α := lt_of_lt_of_le (pow2_pos _) hα0
  obtain ⟨v, h1, h2⟩ := error64 ht hv hw hr hα hα0 hn hk hs
  refine ⟨v, h1, h2.trans ?_⟩
  have hb : sacf M (fun i => (τ i : ℚ) * pow2 e) x (weight ex wt α) s (sumSq M x) (k * pow2 e) ^ 2 ≤ (⌊β ^ 2⌋₊ : ℕ) :=
    sacf_bound (fun y hy => weight_bounds (ex := ex) (by unfold KnownWeight; tauto) (by rcases hw with rfl | rfl <;> simp) hαp hy)
      (fun i hi hk => (hs i hi hk).1) (card_floor hB) hN.ne'
  have hb' := abs_le_of_sq_le_sq (hb.trans (Nat.floor_le (sq_nonneg β))) hβ
  exact mul_le_mul_of_nonneg_left (by linarith) (by positivity)

/-- **C78 in binary64**: times and lags in units of `2^e`, jitter of at most `η` units. -/
theorem C78_binary64_partial (ht : Times64 d M τ e) (ht' : Times64 d' M τ' e) (hv : Values64 d M j x A V) (hrow : d'.HasRow j' (samples M x))
    (ga ga' : LagArgs (D64 ex fu)) (wt : String) (hw : wt = "fractional" ∨ wt = "fractional_squared") (r r' : AcResult (D64 ex fu))
    (hr : autocorrelation .fabs d ga "natural" wt = .ok r) (hr' : autocorrelation .fabs d' ga' "natural" wt = .ok r')
    (α : ℚ) (hα : r.corr.alpha = .fin α) (hα' : r'.corr.alpha = .fin α) (hα0 : pow2 (e - 400) ≤ α)
    (n n' : ℕ) (k k' : ℤ) (hn : r.lags[n]? = some (.fin (k * pow2 e))) (hn' : r'.lags[n']? = some (.fin (k' * pow2 e)))
    (hk : |k| + (τ (M - 1) - τ 0) ≤ 2 ^ 53) (hk' : |k'| + (τ' (M - 1) - τ' 0) ≤ 2 ^ 53)
    (η : ℤ) (hη : ∀ i < M, |τ i - τ' i| ≤ η) (s : ℕ → ℕ) (hs : Selects M (fun i => (τ i : ℚ) * pow2 e) (k * pow2 e) s)
    (hsep : ∀ i < M, τ i + k ≤ τ (M - 1) → ∀ i' < M, i' ≠ s i → |τ (s i) - (τ i + k)| + (4 * η + 2 * |k - k'|) < |τ i' - (τ i + k)|)
    (hend : ∀ i, i + 1 < M → 2 * η + |k - k'| < |τ (M - 1) - (τ i + k)|) (hsign : k ≤ 0 ↔ k' ≤ 0) (β : ℚ) (hβ : 0 ≤ β)
    (hB : ∀ i' < M, (((range M).filter fun i => (τ i : ℚ) * pow2 e + k * pow2 e ≤ (τ (M - 1) : ℚ) * pow2 e ∧ s i = i').card : ℚ) ≤ β ^ 2) :
    ∃ v v' : ℚ, r.At j n (.fin (k * pow2 e)) (.fin v) ∧ r'.At j' n' (.fin (k' * pow2 e)) (.fin v') ∧
      |v - v'| ≤ (2 * η + |k - k'| : ℤ) * pow2 e / α * β + 500 * V * (M * A ^ 2 / sumSq M x) * (1 + β) := by
  have hpe := pow2_pos e
  obtain ⟨hN, hV0⟩ := hv.pos ht
  have hαp : 0 < α := lt_of_lt_of_le (pow2_pos _) hα0
  have hv' : Values64 d' M j' x A V := ⟨hrow, hv.bound, hv.amin, hv.amax, hv.unit, hv.small, hv.float, hv.spread⟩
  -- the hypotheses in rational form
  have hηq : ∀ i < M, |(τ i : ℚ) * pow2 e - (τ' i : ℚ) * pow2 e| ≤ η * pow2 e := by
    intro i hi
    rw [← sub_mul, abs_mul, abs_of_pos hpe]
    exact mul_le_mul_of_nonneg_right (by exact_mod_cast hη i hi) hpe.le
  have hd : |(k : ℚ) * pow2 e - k' * pow2 e| = (|k - k'| : ℤ) * pow2 e := by
    rw [← sub_mul, abs_mul, abs_of_pos hpe]
    push_cast
    rfl
  have habs : ∀ (a i : ℕ), |(τ a : ℚ) * pow2 e - ((τ i : ℚ) * pow2 e + k * pow2 e)| = (|τ a - (τ i + k)| : ℤ) * pow2 e := by
    intro a i
    have e1 : (τ a : ℚ) * pow2 e - ((τ i : ℚ) * pow2 e + k * pow2 e) = ((τ a - (τ i + k) : ℤ) : ℚ) * pow2 e := by push_cast; ring
    rw [e1, abs_mul, abs_of_pos hpe]
    push_cast
    rfl
  have hiff : ∀ i, ((τ i : ℚ) * pow2 e + k * pow2 e ≤ (τ (M - 1) : ℚ) * pow2 e) ↔ τ i + k ≤ τ (M - 1) := by
    intro i
    rw [← add_mul, mul_le_mul_iff_left₀ hpe]
    exact_mod_cast Iff.rfl
  have hsg : ∀ k : ℤ, (k : ℚ) * pow2 e ≤ 0 ↔ k ≤ 0 := by
    intro k
    have : (k : ℚ) * pow2 e ≤ 0 ↔ (k : ℚ) * pow2 e ≤ 0 * pow2 e := by rw [zero_mul]
    rw [this, mul_le_mul_iff_left₀ hpe]
    exact_mod_cast Iff.rfl
  obtain ⟨hcount, hs'⟩ := selects_jitter (t := fun i => (τ i : ℚ) * pow2 e) (t' := fun i => (τ' i : ℚ) * pow2 e) (k := k * pow2 e) (k' := k' * pow2 e) hηq hs
    (by
      intro i hi hle i' hi' hne
      have := hsep i hi ((hiff i).1 hle) i' hi' hne
      rw [habs, habs, hd]
      have h1 : ((|τ (s i) - (τ i + k)| + (4 * η + 2 * |k - k'|) : ℤ) : ℚ) < (|τ i' - (τ i + k)| : ℤ) := by exact_mod_cast this
      have h2 := mul_lt_mul_of_pos_right h1 hpe
      refine lt_of_eq_of_lt ?_ h2
      push_cast
      ring)
    (by
      intro i hi
      have := hend i hi
      rw [habs, hd]
      have h1 : ((2 * η + |k - k'| : ℤ) : ℚ) < (|τ (M - 1) - (τ i + k)| : ℤ) := by exact_mod_cast this
      have h2 := mul_lt_mul_of_pos_right h1 hpe
      refine lt_of_eq_of_lt ?_ h2
      push_cast
      ring)
    (by rw [hsg, hsg]; exact hsign)
  have hB' : ∀ i' < M, (((range M).filter fun i => (τ' i : ℚ) * pow2 e + k' * pow2 e ≤ (τ' (M - 1) : ℚ) * pow2 e ∧ s i = i').card : ℚ) ≤ β ^ 2 := by
    intro i' hi'
    refine le_of_eq_of_le ?_ (hB i' hi')
    congr 2
    exact Finset.filter_congr fun i hi => by rw [hcount i (Finset.mem_range.1 hi)]
  obtain ⟨v, h1, h2⟩ := error64_le ht hv hw hr hα hα0 hn hk hs hβ hB
  obtain ⟨v', h1', h2'⟩ := error64_le ht' hv' hw hr' hα' hα0 hn' hk' hs' hβ hB'
  refine ⟨v, v', h1, h1', ?_⟩
  have hst := sacf_times (x := x) (w := weight ex wt α) (w' := weight ex wt α) (C := (2 * η + |k - k'| : ℤ) * pow2 e / α) (fun i hi hk => (hs i hi hk).1) hcount
    (by
      intro i hi hle
      refine (weight_lipschitz hαp hw (abs_nonneg _) (abs_nonneg _)).trans ?_
      refine (div_le_div_iff_of_pos_right hαp).2 ((dist_jitter hηq hi (hs i hi hle).1).trans_eq ?_)
      rw [hd]
      push_cast
      ring) (card_floor hB) hN.ne'
  have hη0 : 0 ≤ η := (abs_nonneg _).trans (hη 0 (by have := ht.one_le; omega))
  have hC0 : (0 : ℚ) ≤ (2 * η + |k - k'| : ℤ) * pow2 e / α := by
    have : (0 : ℚ) ≤ (2 * η + |k - k'| : ℤ) := by exact_mod_cast (by positivity)
    positivity
  have hst' := abs_le_of_sq_le_sq (hst.trans ((mul_le_mul_of_nonneg_left (Nat.floor_le (sq_nonneg β)) (sq_nonneg _)).trans_eq (mul_pow _ β 2).symm))
    (mul_nonneg hC0 hβ)
  have t1 := abs_sub_le v (sacf M (fun i => (τ i : ℚ) * pow2 e) x (weight ex wt α) s (sumSq M x) (k * pow2 e)) v'
  have t2 := abs_sub_le (sacf M (fun i => (τ i : ℚ) * pow2 e) x (weight ex wt α) s (sumSq M x) (k * pow2 e))
    (sacf M (fun i => (τ' i : ℚ) * pow2 e) x (weight ex wt α) s (sumSq M x) (k' * pow2 e)) v'
  rw [abs_sub_comm (sacf M (fun i => (τ' i : ℚ) * pow2 e) x (weight ex wt α) s (sumSq M x) (k' * pow2 e)) v'] at t2
  linarith

/-- **C79 in binary64**. -/
theorem C79_binary64 (ht : Times64 d M τ e) (ht' : Times64 d' M τ e) (hv : Values64 d M j x A V) (hv' : Values64 d' M j' y A' V')
    (ga ga' : LagArgs (D64 ex fu)) (wt : String) (hw : wt = "fractional" ∨ wt = "fractional_squared") (r r' : AcResult (D64 ex fu))
    (hr : autocorrelation .fabs d ga "natural" wt = .ok r) (hr' : autocorrelation .fabs d' ga' "natural" wt = .ok r')
    (α : ℚ) (hα : r.corr.alpha = .fin α) (hα' : r'.corr.alpha = .fin α) (hα0 : pow2 (e - 400) ≤ α)
    (n n' : ℕ) (k : ℤ) (hn : r.lags[n]? = some (.fin (k * pow2 e))) (hn' : r'.lags[n']? = some (.fin (k * pow2 e)))
    (hk : |k| + (τ (M - 1) - τ 0) ≤ 2 ^ 53) (s : ℕ → ℕ) (hs : Selects M (fun i => (τ i : ℚ) * pow2 e) (k * pow2 e) s) (β : ℚ) (hβ : 0 ≤ β)
    (hB : ∀ i' < M, (((range M).filter fun i => (τ i : ℚ) * pow2 e + k * pow2 e ≤ (τ (M - 1) : ℚ) * pow2 e ∧ s i = i').card : ℚ) ≤ β ^ 2)
    (q : ℚ) (hq : 0 ≤ q) (hq1 : q < 1) (hxy : ∑ i ∈ range M, (y i - x i) ^ 2 ≤ q ^ 2 * sumSq M x) :
    ∃ v v' : ℚ, r.At j n (.fin (k * pow2 e)) (.fin v) ∧ r'.At j' n' (.fin (k * pow2 e)) (.fin v') ∧
      |v' - v| ≤ β * (4 * q + 2 * q ^ 2) / (1 - q) ^ 2
        + 250 * (V * (M * A ^ 2 / sumSq M x) + V' * (M * A' ^ 2 / sumSq M y)) * (1 + β) := by
  obtain ⟨hN, _⟩ := hv.pos ht
  have hαp : 0 < α := lt_of_lt_of_le (pow2_pos _) hα0
  obtain ⟨v, h1, h2⟩ := error64_le ht hv hw hr hα hα0 hn hk hs hβ hB
  obtain ⟨v', h1', h2'⟩ := error64_le ht' hv' hw hr' hα' hα0 hn' hk hs hβ hB
  have h3 := sacf_noise (w := weight ex wt α)
    (fun y hy => weight_bounds (ex := ex) (by unfold KnownWeight; tauto) (by rcases hw with rfl | rfl <;> simp) hαp hy)
    (fun i hi hk => (hs i hi hk).1) hβ hB hN.ne' hq hq1 hxy
  refine ⟨v, v', h1, h1', ?_⟩
  have t1 := abs_sub_le v' (sacf M (fun i => (τ i : ℚ) * pow2 e) y (weight ex wt α) s (sumSq M y) (k * pow2 e)) v
  have t2 := abs_sub_le (sacf M (fun i => (τ i : ℚ) * pow2 e) y (weight ex wt α) s (sumSq M y) (k * pow2 e))
    (sacf M (fun i => (τ i : ℚ) * pow2 e) x (weight ex wt α) s (sumSq M x) (k * pow2 e)) v
  rw [abs_sub_comm (sacf M (fun i => (τ i : ℚ) * pow2 e) x (weight ex wt α) s (sumSq M x) (k * pow2 e)) v] at t2
  linarith

/-- **C79 in binary64, regular grid**: default calls. -/
theorem C79_binary64_regular {a a' p : ℤ} (ht : Regular64 d M a p e) (ht' : Regular64 d' M a' p e) (hv : Values64 d M j x A V)
    (hv' : Values64 d' M j' y A' V') (q : ℚ) (hq : 0 ≤ q) (hq1 : q < 1) (hxy : ∑ i ∈ range M, (y i - x i) ^ 2 ≤ q ^ 2 * sumSq M x) :
    ∃ r r', autocorrelation .fabs d {} "natural" "fractional" = .ok r ∧ autocorrelation .fabs d' {} "natural" "fractional" = .ok r' ∧
      ∀ m < M, ∃ v v' : ℚ, r.At j (M - 1 + m) (.fin ((m * p : ℤ) * pow2 e)) (.fin v) ∧
        r'.At j' (M - 1 + m) (.fin ((m * p : ℤ) * pow2 e)) (.fin v') ∧
        |v' - v| ≤ (4 * q + 2 * q ^ 2) / (1 - q) ^ 2 + 500 * (V * (M * A ^ 2 / sumSq M x) + V' * (M * A' ^ 2 / sumSq M y)) := by
  obtain ⟨hN, _, r, hr, h1⟩ := ht.result hv
  obtain ⟨_, _, r', hr', h1'⟩ := ht'.result hv'
  refine ⟨r, r', hr, hr', fun m hm => ?_⟩
  obtain ⟨v, h2, h3⟩ := h1 m hm
  obtain ⟨v', h2', h3'⟩ := h1' m hm
  have h4 := autoCov_noise hN.ne' hq hq1 hxy hm
  refine ⟨v, v', h2, h2', ?_⟩
  have t1 := abs_sub_le v' (autoCov M y m / sumSq M y) v
  have t2 := abs_sub_le (autoCov M y m / sumSq M y) (autoCov M x m / sumSq M x) v
  rw [abs_sub_comm (autoCov M x m / sumSq M x) v] at t2
  linarith

end binary64

/-! ### cases -/

/-- as `runOf`, with arguments, in any arithmetic -/
def runArgs {F : Type} [Arith F] (t v : List F) (wt : String) (g : LagArgs F) : Res (DS F × AcResult F) :=
  (mkFlat t v).bind fun d => (autocorrelation .fabs d g "natural" wt).bind fun r => .ok (d, r)

/-- the call returns, and the object and the result satisfy `P` -/
def okSat {F : Type} (P : DS F → AcResult F → Bool) : Res (DS F × AcResult F) → Bool
  | .ok (d, r) => P d r
  | _ => false

theorem runArgs_ok {F : Type} [Arith F] {t v : List F} {wt : String} {g : LagArgs F} {P : DS F → AcResult F → Bool}
    (h : okSat P (runArgs t v wt g) = true) :
    ∃ d r, mkFlat t v = .ok d ∧ autocorrelation .fabs d g "natural" wt = .ok r ∧ P d r = true := by
  have e : ∃ z, runArgs t v wt g = .ok z := by
    cases hz : runArgs t v wt g with
    | ok z => exact ⟨z, rfl⟩
    | exn e => rw [hz] at h; simp [okSat] at h
    | ub => rw [hz] at h; simp [okSat] at h
    | diverge => rw [hz] at h; simp [okSat] at h
  obtain ⟨⟨d, r⟩, hz⟩ := e
  rw [hz] at h
  obtain ⟨d', h1, h2⟩ := Res.bind_eq_ok.1 hz
  obtain ⟨r', h3, h4⟩ := Res.bind_eq_ok.1 h2
  simp only [Res.ok.injEq, Prod.mk.injEq] at h4
  obtain ⟨rfl, rfl⟩ := h4
  exact ⟨d', r', h1, h3, h⟩

/-- times 0, 1, 3, 7 -/
def kT (i : ℕ) : ℚ := [0, 1, 3, 7].getD i 0
/-- times 0, 101/100, 3, 699/100 -/
def kT' (i : ℕ) : ℚ := [0, 101/100, 3, 699/100].getD i 0
/-- values 1, 2, 6, 31/10 -/
def kX (i : ℕ) : ℚ := [1, 2, 6, 31/10].getD i 0

theorem kT_inc : Increasing 4 kT := by
  intro i j hij hj
  interval_cases j <;> interval_cases i <;> decide +kernel

theorem kT'_inc : Increasing 4 kT' := by
  intro i j hij hj
  interval_cases j <;> interval_cases i <;> decide +kernel

/-- a run at lag `k` with `alpha = 1` -/
theorem lag_witness (u y : ℕ → ℚ) (k : ℚ) (wt : String) (hw : KnownWeight wt) (hu : Increasing 4 u)
    (h : okSat (fun d r => decide (d.timeseries = samples 4 u ∧ d.data2d = .ok [samples 4 y] ∧ r.corr.alpha = .fin 1 ∧ r.lags = q [0, k]))
      (runArgs (samples 4 u : List Q) (samples 4 y) wt ⟨some (.fin k), some (.fin k), none, some (.fin 1)⟩) = true) :
    ∃ d r, NaturalRun (dm := 10 ^ 100) (f32 := id) (ex := fun x => 1 / (1 - x)) d ⟨some (.fin k), some (.fin k), none, some (.fin 1)⟩ wt r 4
      u 0 y 1 ∧ r.lags[1]? = some (.fin k) := by
  obtain ⟨d, r, h1, h2, h3⟩ := runArgs_ok h
  obtain ⟨h3, h4, h5, h6⟩ := of_decide_eq_true h3
  exact ⟨d, r, ⟨.flat h1, h3, hu, ⟨_, h4, rfl⟩, h2, hw, h5, one_pos⟩, by rw [h6]; rfl⟩

/-- sample 0 and 1 are matched with sample 2, sample 2 with sample 3 -/
def kS (i : ℕ) : ℕ := [2, 2, 3, 0].getD i 0

theorem kT_selects : Selects 4 kT (9/4) kS := by
  unfold Selects IsNearest
  decide +kernel

/-- C78_bound_partial: times 0, 1, 3, 7 and 0, 1.01, 3, 6.99, lags 2.25 and 2.27 -/
example : ∃ (r r' : AcResult Q) (v v' : ℚ), r.At 0 1 (.fin (9/4)) (.fin v) ∧ r'.At 0 1 (.fin (227/100)) (.fin v') ∧
    (v - v') ^ 2 ≤ (1/25) ^ 2 * 2 := by
  obtain ⟨d, r, h, hl⟩ := lag_witness kT wX' (9/4) "fractional" (by unfold KnownWeight; simp) kT_inc (by decide +kernel)
  obtain ⟨d', r', h', hl'⟩ := lag_witness kT' wX' (227/100) "fractional" (by unfold KnownWeight; simp) kT'_inc (by decide +kernel)
  obtain ⟨v, v', h1, h2, h3⟩ := C78_bound_partial h h' (.inl rfl) (fun _ _ => rfl) (by decide +kernel) 1 1 _ _ hl hl' (1/100) (by decide +kernel)
    kS kT_selects (by decide +kernel) (by
      intro i hi
      have : i < 3 := by omega
      interval_cases i <;> decide +kernel) (by decide +kernel) 2 (by decide +kernel)
  exact ⟨r, r', v, v', h1, h2, h3.trans (by decide +kernel)⟩

/-- `1 / (1 - y)`, which stands for the exponential in the cases, is like it in these respects -/
theorem ex_case : (∀ y z : ℚ, y ≤ 0 → z ≤ 0 → |1 / (1 - y) - 1 / (1 - z)| ≤ |y - z|) ∧
    ∀ y : ℚ, y ≤ 0 → 1 + y ≤ 1 / (1 - y) ∧ 0 ≤ 1 / (1 - y) ∧ 1 / (1 - y) ≤ 1 := by
  constructor
  · intro y z hy hz
    have h1 : 0 < 1 - y := by linarith
    have h2 : 0 < 1 - z := by linarith
    have e : 1 / (1 - y) - 1 / (1 - z) = (y - z) / ((1 - y) * (1 - z)) := by field_simp; ring
    rw [e, abs_div, abs_of_pos (mul_pos h1 h2)]
    exact div_le_self (abs_nonneg _) (by nlinarith [mul_nonneg (neg_nonneg.2 hy) (neg_nonneg.2 hz)])
  · intro y hy
    have h1 : 0 < 1 - y := by linarith
    refine ⟨?_, by positivity, (div_le_one h1).2 (by linarith)⟩
    rw [le_div_iff₀ h1]
    nlinarith [sq_nonneg y]

/-- C78_gaussian_partial: the same -/
example : ∃ (r r' : AcResult Q) (v v' : ℚ), r.At 0 1 (.fin (9/4)) (.fin v) ∧ r'.At 0 1 (.fin (227/100)) (.fin v') ∧
    (v - v') ^ 2 ≤ (2/25) ^ 2 * 2 := by
  obtain ⟨d, r, h, hl⟩ := lag_witness kT wX' (9/4) "gaussian" (by unfold KnownWeight; simp) kT_inc (by decide +kernel)
  obtain ⟨d', r', h', hl'⟩ := lag_witness kT' wX' (227/100) "gaussian" (by unfold KnownWeight; simp) kT'_inc (by decide +kernel)
  obtain ⟨v, v', h1, h2, h3⟩ := C78_gaussian_partial h h' ex_case.1 (fun _ _ => rfl) (by decide +kernel) 1 1 _ _ hl hl' (1/100) (by decide +kernel)
    kS kT_selects (by decide +kernel) (by
      intro i hi
      have : i < 3 := by omega
      interval_cases i <;> decide +kernel) (by decide +kernel) 2 (by decide +kernel) 2 (by decide +kernel)
  exact ⟨r, r', v, v', h1, h2, h3.trans (by decide +kernel)⟩

/-- C79_noise: times 0, 1, 3, 7, values 1, 2, 6, 3 and 1, 2, 6, 3.1, lag 2.25 -/
example : ∃ (r r' : AcResult Q) (v v' : ℚ), r.At 0 1 (.fin (9/4)) (.fin v) ∧ r'.At 0 1 (.fin (9/4)) (.fin v') ∧ |v' - v| ≤ 7/20 := by
  obtain ⟨d, r, h, hl⟩ := lag_witness kT wX' (9/4) "gaussian" (by unfold KnownWeight; simp) kT_inc (by decide +kernel)
  obtain ⟨d', r', h', hl'⟩ := lag_witness kT kX (9/4) "gaussian" (by unfold KnownWeight; simp) kT_inc (by decide +kernel)
  obtain ⟨v, v', h1, h2, h3⟩ := C79_noise h h' (fun _ _ => rfl) (fun _ _ => rfl) (by decide +kernel) (fun _ y hy => (ex_case.2 y hy).2) 1 1 _ hl hl'
    kS kT_selects (3/2) (by norm_num) (by decide +kernel) (1/20) (by norm_num) (by norm_num) (by decide +kernel)
  exact ⟨r, r', v, v', h1, h2, h3.trans (by norm_num)⟩

/-- C79_regular: the same values at times 0, 1, 2, 3, lag 2 -/
example : ∃ (r r' : AcResult Q) (v v' : ℚ), r.At 0 5 (.fin 2) (.fin v) ∧ r'.At 0 5 (.fin 2) (.fin v') ∧ |v' - v| ≤ 1/4 := by
  obtain ⟨d, r, h, hl⟩ := regular_witness wX' 1 one_pos (by decide +kernel)
  obtain ⟨d', r', h', hl'⟩ := regular_witness kX 2 two_pos (by decide +kernel)
  obtain ⟨v, v', h1, h2, h3⟩ := C79_regular h h' one_pos (fun _ _ => rfl) (fun _ _ => rfl) (by decide +kernel) (by decide) (by decide) 2 5 5 (by norm_num)
    (by rw [hl]; decide +kernel) (by rw [hl']; decide +kernel) (1/20) (by norm_num) (by norm_num) (by decide +kernel)
  exact ⟨r, r', v, v', by simpa using h1, by simpa using h2, h3.trans (by norm_num)⟩

/-- C77_large_gaussian and C77_small_gaussian: times 0, 1, 3, values 1, 2, 6, lag 2, `alpha` 10 and 1/10 -/
example : (∃ (r : AcResult Q) (v : ℚ), r.At 0 5 (.fin 2) (.fin v) ∧ (v - (-9/14)) ^ 2 ≤ (1 / 200) ^ 2 * 2) ∧
    ∃ (r : AcResult Q) (v : ℚ), r.At 0 5 (.fin 2) (.fin v) ∧ (v - (-3/14)) ^ 2 ≤ (1 / 50) ^ 2 * 2 := by
  have hx : sumSq 3 wX ≠ 0 := by decide +kernel
  constructor
  · obtain ⟨d, r, h1, h2, h3, h4, h5, h6⟩ := runAlpha_ok (t := samples 3 wT) (v := samples 3 wX) (wt := "gaussian") (α := 10)
      (P := fun d r => d.timeseries = samples 3 wT ∧ d.data2d = .ok [samples 3 wX] ∧ r.corr.alpha = .fin 10 ∧
        r.lags = q [-3, -2, -1, 0, 1, 2, 3]) (by decide +kernel)
    have h : NaturalRun (dm := 10 ^ 100) (f32 := id) (ex := fun x => 1 / (1 - x)) d _ "gaussian" r 3 wT 0 wX 10 :=
      ⟨.flat h1, h3, wT_inc, ⟨_, h4, rfl⟩, h2, by unfold KnownWeight; simp, h5, by norm_num⟩
    obtain ⟨v, h7, h8⟩ := C77_large_gaussian h (fun y hy => ⟨(ex_case.2 y hy).1, (ex_case.2 y hy).2.2⟩) (fun _ _ => rfl) hx 5 2
      (by rw [h6]; decide +kernel) _ wT_selects 1 (by decide +kernel) 2 (by decide +kernel)
    have e1 : sacf 3 wT wX (fun _ => 1) (fun _ => 2) (sumSq 3 wX) 2 = -9/14 := by decide +kernel
    rw [e1] at h8
    exact ⟨r, v, h7, h8.trans (by norm_num)⟩
  · obtain ⟨d, r, h1, h2, h3, h4, h5, h6⟩ := runAlpha_ok (t := samples 3 wT) (v := samples 3 wX) (wt := "gaussian") (α := 1/10)
      (P := fun d r => d.timeseries = samples 3 wT ∧ d.data2d = .ok [samples 3 wX] ∧ r.corr.alpha = .fin (1/10) ∧
        r.lags = q [-3, -2, -1, 0, 1, 2, 3]) (by decide +kernel)
    have h : NaturalRun (dm := 10 ^ 100) (f32 := id) (ex := fun x => 1 / (1 - x)) d _ "gaussian" r 3 wT 0 wX (1/10) :=
      ⟨.flat h1, h3, wT_inc, ⟨_, h4, rfl⟩, h2, by unfold KnownWeight; simp, h5, by norm_num⟩
    obtain ⟨v, h7, h8⟩ := C77_small_gaussian h (by norm_num) (fun y hy => ⟨(ex_case.2 y hy).2.1, le_rfl⟩) (fun _ _ => rfl) hx 5 2
      (by rw [h6]; decide +kernel) _ wT_selects 1 one_pos (by decide +kernel) 2 (by decide +kernel)
    have e1 : sacf 3 wT wX (fun δ => if δ = 0 then 1 else 0) (fun _ => 2) (sumSq 3 wX) 2 = -3/14 := by decide +kernel
    rw [e1] at h8
    exact ⟨r, v, h7, h8.trans (by norm_num)⟩

/-! binary64 -/

/-- times 0, 1, 3, 7 in units of `2^-10` -/
def kτ (i : ℕ) : ℤ := [0, 1024, 3072, 7168].getD i 0
/-- the same, two of them moved by one unit -/
def kτ' (i : ℕ) : ℤ := [0, 1025, 3072, 7167].getD i 0

theorem kτ_inc : IncreasingZ 4 kτ := by
  intro i j hij hj
  interval_cases j <;> interval_cases i <;> decide +kernel

theorem kτ'_inc : IncreasingZ 4 kτ' := by
  intro i j hij hj
  interval_cases j <;> interval_cases i <;> decide +kernel

/-- a binary64 run at lag `k` units of `2^-10` with `alpha = 1` -/
theorem lag64_lags (u : ℕ → ℤ) (y : ℕ → ℚ) (k : ℤ) (hu : IncreasingZ 4 u)
    (h : okSat (fun d r => decide (d.timeseries = samples 4 (fun i => (u i : ℚ) * pow2 (-10)) ∧ d.data2d = .ok [samples 4 y] ∧ r.corr.alpha = .fin 1 ∧
          r.lags = [.fin 0, .fin (k * pow2 (-10))])) (runArgs (samples 4 (fun i => (u i : ℚ) * pow2 (-10)) : List B) (samples 4 y) "fractional"
        ⟨some (.fin (k * pow2 (-10))), some (.fin (k * pow2 (-10))), none, some (.fin 1)⟩) = true) :
    ∃ (d : DS B) (r : AcResult B), Times64 d 4 u (-10) ∧ d.HasRow 0 (samples 4 y) ∧
      autocorrelation .fabs d ⟨some (.fin (k * pow2 (-10))), some (.fin (k * pow2 (-10))), none, some (.fin 1)⟩ "natural" "fractional" = .ok r ∧
      r.corr.alpha = .fin 1 ∧ r.lags = [.fin 0, .fin (k * pow2 (-10))] := by
  obtain ⟨d, r, h1, h2, h3⟩ := runArgs_ok h
  obtain ⟨h3, h4, h5, h6⟩ := of_decide_eq_true h3
  exact ⟨d, r, ⟨.flat h1, h3, hu, by norm_num, by norm_num, by norm_num, by norm_num⟩, ⟨_, h4, rfl⟩, h2, h5, h6⟩

theorem lag64_witness (u : ℕ → ℤ) (y : ℕ → ℚ) (k : ℤ) (hu : IncreasingZ 4 u)
    (h : okSat (fun d r => decide (d.timeseries = samples 4 (fun i => (u i : ℚ) * pow2 (-10)) ∧ d.data2d = .ok [samples 4 y] ∧ r.corr.alpha = .fin 1 ∧
          r.lags = [.fin 0, .fin (k * pow2 (-10))])) (runArgs (samples 4 (fun i => (u i : ℚ) * pow2 (-10)) : List B) (samples 4 y) "fractional"
        ⟨some (.fin (k * pow2 (-10))), some (.fin (k * pow2 (-10))), none, some (.fin 1)⟩) = true) :
    ∃ (d : DS B) (r : AcResult B), Times64 d 4 u (-10) ∧ d.HasRow 0 (samples 4 y) ∧
      autocorrelation .fabs d ⟨some (.fin (k * pow2 (-10))), some (.fin (k * pow2 (-10))), none, some (.fin 1)⟩ "natural" "fractional" = .ok r ∧
      r.corr.alpha = .fin 1 ∧ r.lags[1]? = some (.fin (k * pow2 (-10))) := by
  obtain ⟨d, r, h1, h2, h3, h4, h5⟩ := lag64_lags u y k hu h
  exact ⟨d, r, h1, h2, h3, h4, by rw [h5]; rfl⟩

/-- C78_binary64_partial: lags 2304 and 2305 units -/
example : ∃ (r r' : AcResult B) (v v' : ℚ), r.At 0 1 (.fin (2304 * pow2 (-10))) (.fin v) ∧ r'.At 0 1 (.fin (2305 * pow2 (-10))) (.fin v') ∧
    |v - v'| ≤ 1/200 := by
  obtain ⟨d, r, ht, hrow, hr, hα, hl⟩ := lag64_witness kτ wX' 2304 kτ_inc (by decide +kernel)
  obtain ⟨d', r', ht', hrow', hr', hα', hl'⟩ := lag64_witness kτ' wX' 2305 kτ'_inc (by decide +kernel)
  obtain ⟨v, v', h1, h2, h3⟩ := C78_binary64_partial ht ht' (A := 8) (V := pow2 (-51)) ⟨hrow, by decide +kernel, by decide +kernel,
    by decide +kernel, by decide +kernel, by decide +kernel, .inr (by decide +kernel), by decide +kernel⟩ hrow' _ _ "fractional" (.inl rfl) r r' hr hr' 1 hα hα'
    (by decide +kernel) 1 1 2304 2305 hl hl' (by decide +kernel) (by decide +kernel) 1 (by decide +kernel) kS (by
      unfold Selects IsNearest
      decide +kernel) (by decide +kernel) (by
      intro i hi
      have : i < 3 := by omega
      interval_cases i <;> decide +kernel) (by decide +kernel) (3/2) (by norm_num) (by decide +kernel)
  exact ⟨r, r', v, v', h1, h2, h3.trans (by decide +kernel)⟩

/-- values 1, 2, 6, 25/8 -/
def kZ (i : ℕ) : ℚ := [1, 2, 6, 25/8].getD i 0

/-- C79_binary64: values 1, 2, 6, 3 and 1, 2, 6, 3.125, lag 2304 units -/
example : ∃ (r r' : AcResult B) (v v' : ℚ), r.At 0 1 (.fin (2304 * pow2 (-10))) (.fin v) ∧ r'.At 0 1 (.fin (2304 * pow2 (-10))) (.fin v') ∧
    |v' - v| ≤ 7/20 := by
  obtain ⟨d, r, ht, hrow, hr, hα, hl⟩ := lag64_witness kτ wX' 2304 kτ_inc (by decide +kernel)
  obtain ⟨d', r', ht', hrow', hr', hα', hl'⟩ := lag64_witness kτ kZ 2304 kτ_inc (by decide +kernel)
  obtain ⟨v, v', h1, h2, h3⟩ := C79_binary64 ht ht' (A := 8) (V := pow2 (-51)) (A' := 8) (V' := pow2 (-51)) ⟨hrow, by decide +kernel, by decide +kernel,
    by decide +kernel, by decide +kernel, by decide +kernel, .inr (by decide +kernel), by decide +kernel⟩ ⟨hrow', by decide +kernel, by decide +kernel,
    by decide +kernel, by decide +kernel, by decide +kernel, .inr (by decide +kernel), by decide +kernel⟩ _ _ "fractional" (.inl rfl) r r' hr hr' 1 hα hα'
    (by decide +kernel) 1 1 2304 hl hl' (by decide +kernel) kS (by
      unfold Selects IsNearest
      decide +kernel) (3/2) (by norm_num) (by decide +kernel) (1/20) (by norm_num) (by norm_num) (by decide +kernel)
  exact ⟨r, r', v, v', h1, h2, h3.trans (by decide +kernel)⟩

/-- C79_binary64_regular: the same values at times 5, 8, 11, 14 -/
example : ∃ (d d' : DS B) (r r' : AcResult B), autocorrelation .fabs d = .ok r ∧ autocorrelation .fabs d' = .ok r' ∧
    ∃ v v' : ℚ, r.At 0 4 (.fin 3) (.fin v) ∧ r'.At 0 4 (.fin 3) (.fin v') ∧ |v' - v| ≤ 1/4 := by
  obtain ⟨d, hc, ht, hrow⟩ := signal_object wX'
  obtain ⟨d', hc', ht', hrow'⟩ := signal_object kZ
  obtain ⟨r, r', hr, hr', hv⟩ := C79_binary64_regular (signal_times hc ht) (signal_times hc' ht') (A := 8) (V := pow2 (-51)) (A' := 8) (V' := pow2 (-51))
    ⟨hrow, by decide +kernel, by decide +kernel, by decide +kernel, by decide +kernel, by decide +kernel, .inr (by decide +kernel), by decide +kernel⟩
    ⟨hrow', by decide +kernel, by decide +kernel, by decide +kernel, by decide +kernel, by decide +kernel, .inr (by decide +kernel), by decide +kernel⟩
    (1/20) (by norm_num) (by norm_num) (by decide +kernel)
  obtain ⟨v, v', h1, h2, h3⟩ := hv 1 (by norm_num)
  refine ⟨d, d', r, r', hr, hr', v, v', ?_, ?_, h3.trans (by decide +kernel)⟩
  · simpa [pow2_zero] using h1
  · simpa [pow2_zero] using h2

end Sacf
