import Verif.Props.Sampling
import Verif.Props.Classical
import Mathlib.Algebra.BigOperators.Field

/-!
# Samples of a smooth signal (C101) and of a sinusoid (C102)

In exact arithmetic and, with the error bound of C61, in binary64.
-/

set_option linter.unusedSectionVars false

namespace Sacf

open Finset

/-! ## C101: samples of a smooth signal -/

section
variable {K : Type} [Field K] [LinearOrder K] [IsStrictOrderedRing K] [FloorRing K]

/-- The weighted sum of the products of the deviations with what the signal `f` itself is at the shifted times, divided by the sum of squares: what `sacf` would be
if the signal were known between the samples. -/
def signalAcf (M : ℕ) (t x : ℕ → K) (w : K → K) (s : ℕ → ℕ) (f : K → K) (k : K) : K :=
  (∑ i ∈ range M with t i + k ≤ t (M - 1), w |t (s i) - (t i + k)| * dev M x i * (f (t i + k) - mean M x)) / sumSq M x

/-- `f` changes by at most `L` per unit of time -/
def Lipschitz (f : K → K) (L : K) : Prop := ∀ a b, |f a - f b| ≤ L * |a - b|

variable {M : ℕ} {t x : ℕ → K} {α : K} {ex : K → K} {wt : String}

/-- weight times distance is bounded by `alpha` -/
theorem weight_mul_le (hw : KnownWeight wt) (he : wt = "gaussian" → ∀ y ≤ 0, 0 ≤ ex y ∧ ex y ≤ 1 / (1 - y)) (hα : 0 < α) {δ : K} (hδ : 0 ≤ δ) :
    weight ex wt α δ * δ ≤ min α δ := by
  have hb : wt = "gaussian" → ∀ y ≤ 0, 0 ≤ ex y ∧ ex y ≤ 1 := fun h y hy => ⟨(he h y hy).1, (he h y hy).2.trans (by
    rw [div_le_one (by linarith)]; linarith)⟩
  refine le_min ?_ (mul_le_of_le_one_left hδ (weight_bounds hw hb hα hδ).2)
  unfold weight
  rcases hw with rfl | rfl | rfl
  · rw [if_pos rfl]
    have h2α : 0 < 2 * α ^ 2 := by positivity
    have h1 := (he rfl (-(δ ^ 2 / (2 * α ^ 2))) (neg_nonpos.2 (by positivity))).2
    refine (mul_le_mul_of_nonneg_right h1 hδ).trans ?_
    have h3 : 0 < 2 * α ^ 2 + δ ^ 2 := by positivity
    have e : 1 / (1 - -(δ ^ 2 / (2 * α ^ 2))) * δ = 2 * α ^ 2 * δ / (2 * α ^ 2 + δ ^ 2) := by
      have e1 : 1 - -(δ ^ 2 / (2 * α ^ 2)) = (2 * α ^ 2 + δ ^ 2) / (2 * α ^ 2) := by field_simp; ring
      rw [e1, one_div_div]
      ring
    rw [e, div_le_iff₀ h3]
    nlinarith [sq_nonneg (α - δ), mul_nonneg hα.le (sq_nonneg (α - δ)), pow_pos hα 3]
  · rw [if_neg (by decide), if_neg (by decide)]
    have h3 : 0 < α + δ := by positivity
    have e : 1 / (1 + δ / α) * δ = α * δ / (α + δ) := by field_simp
    rw [e, div_le_iff₀ h3]
    nlinarith [mul_pos hα hα]
  · rw [if_neg (by decide), if_pos rfl]
    have h3 : 0 < α ^ 2 + δ ^ 2 := by positivity
    have e : 1 / (1 + (δ / α) ^ 2) * δ = α ^ 2 * δ / (α ^ 2 + δ ^ 2) := by field_simp
    rw [e, div_le_iff₀ h3]
    nlinarith [sq_nonneg (α - δ), mul_nonneg hα.le (sq_nonneg (α - δ)), mul_nonneg hα.le (sq_nonneg δ), pow_pos hα 3]

/-- the mean absolute deviation is at most the mean square over any lower bound of the standard deviation -/
theorem sum_abs_dev_le {σ : K} (hσ : 0 < σ) (hs : σ ^ 2 * M ≤ sumSq M x) : ∑ i ∈ range M, |dev M x i| ≤ sumSq M x / σ := by
  have h1 : ∀ i ∈ range M, |dev M x i| ≤ (dev M x i ^ 2 / σ + σ) / 2 := fun i _ => by
    rw [le_div_iff₀ (by norm_num : (0 : K) < 2), div_add' _ _ _ hσ.ne', le_div_iff₀ hσ, ← sq_abs]
    nlinarith [sq_nonneg (|dev M x i| - σ)]
  refine (Finset.sum_le_sum h1).trans ?_
  rw [← Finset.sum_div, Finset.sum_add_distrib, ← Finset.sum_div, Finset.sum_const, Finset.card_range, nsmul_eq_mul]
  change (sumSq M x / σ + M * σ) / 2 ≤ sumSq M x / σ
  have h2 : M * σ ≤ sumSq M x / σ := by
    rw [le_div_iff₀ hσ]
    nlinarith
  linarith

theorem signal_close {w : K → K} {s : ℕ → ℕ} {f : K → K} {k L η ρ σ : K} (hL : 0 ≤ L) (hf : Lipschitz f L) (hx : ∀ i < M, |x i - f (t i)| ≤ η)
    (hs : ∀ i < M, t i + k ≤ t (M - 1) → s i < M) (hw : ∀ δ, 0 ≤ δ → 0 ≤ w δ ∧ w δ ≤ 1)
    (hρ0 : 0 ≤ ρ) (hρ : ∀ i < M, t i + k ≤ t (M - 1) → w |t (s i) - (t i + k)| * |t (s i) - (t i + k)| ≤ ρ)
    (hσ : 0 < σ) (hσs : σ ^ 2 * M ≤ sumSq M x) (hv : sumSq M x ≠ 0) :
    |sacf M t x w s (sumSq M x) k - signalAcf M t x w s f k| ≤ (L * ρ + η) / σ := by
  have hS : 0 < sumSq M x := lt_of_le_of_ne (Finset.sum_nonneg fun i _ => sq_nonneg _) (Ne.symm hv)
  unfold sacf signalAcf
  rw [← sub_div, abs_div, abs_of_pos hS, div_le_iff₀ hS, ← Finset.sum_sub_distrib]
  have h1 : ∀ i ∈ (range M).filter fun i => t i + k ≤ t (M - 1),
      |w |t (s i) - (t i + k)| * dev M x i * dev M x (s i) - w |t (s i) - (t i + k)| * dev M x i * (f (t i + k) - mean M x)|
        ≤ (L * ρ + η) * |dev M x i| := fun i hi => by
    rw [Finset.mem_filter, Finset.mem_range] at hi
    obtain ⟨w0, w1⟩ := hw _ (abs_nonneg (t (s i) - (t i + k)))
    have e : w |t (s i) - (t i + k)| * dev M x i * dev M x (s i) - w |t (s i) - (t i + k)| * dev M x i * (f (t i + k) - mean M x)
        = dev M x i * (w |t (s i) - (t i + k)| * (x (s i) - f (t i + k))) := by
      unfold dev; ring
    rw [e, abs_mul, mul_comm, abs_mul, abs_of_nonneg w0]
    refine mul_le_mul_of_nonneg_right ?_ (abs_nonneg _)
    have h2 : |x (s i) - f (t i + k)| ≤ η + L * |t (s i) - (t i + k)| := by
      have := abs_add_le (x (s i) - f (t (s i))) (f (t (s i)) - f (t i + k))
      rw [sub_add_sub_cancel] at this
      exact this.trans (add_le_add (hx _ (hs i hi.1 hi.2)) (hf _ _))
    have hη : 0 ≤ η := (abs_nonneg _).trans (hx i hi.1)
    calc w |t (s i) - (t i + k)| * |x (s i) - f (t i + k)|
        ≤ w |t (s i) - (t i + k)| * (η + L * |t (s i) - (t i + k)|) := mul_le_mul_of_nonneg_left h2 w0
      _ = w |t (s i) - (t i + k)| * η + L * (w |t (s i) - (t i + k)| * |t (s i) - (t i + k)|) := by ring
      _ ≤ 1 * η + L * ρ := add_le_add (mul_le_mul_of_nonneg_right w1 hη) (mul_le_mul_of_nonneg_left (hρ i hi.1 hi.2) hL)
      _ = L * ρ + η := by ring
  have hM : 0 < M := by
    rcases Nat.eq_zero_or_pos M with rfl | h
    · exact absurd (by simp [sumSq]) hv
    · exact h
  have hc : 0 ≤ L * ρ + η := add_nonneg (mul_nonneg hL hρ0) ((abs_nonneg _).trans (hx 0 hM))
  refine (Finset.abs_sum_le_sum_abs _ _).trans ((Finset.sum_le_sum h1).trans ?_)
  rw [← Finset.mul_sum]
  have h2 : ∑ i ∈ (range M).filter (fun i => t i + k ≤ t (M - 1)), |dev M x i| ≤ sumSq M x / σ :=
    (Finset.sum_le_sum_of_subset_of_nonneg (Finset.filter_subset _ _) fun _ _ _ => abs_nonneg _).trans (sum_abs_dev_le hσ hσs)
  refine (mul_le_mul_of_nonneg_left h2 hc).trans_eq ?_
  ring

/-- the weighted sum of squared deviations over the samples that count at lag `k`, divided by the sum of squares -/
def squaresAcf (M : ℕ) (t x : ℕ → K) (w : K → K) (s : ℕ → ℕ) (k : K) : K :=
  (∑ i ∈ range M with t i + k ≤ t (M - 1), w |t (s i) - (t i + k)| * dev M x i ^ 2) / sumSq M x

theorem period_close {w : K → K} {s : ℕ → ℕ} {f : K → K} {k η σ : K} (hp : ∀ a, f (a + k) = f a) (hx : ∀ i < M, |x i - f (t i)| ≤ η)
    (hw : ∀ δ, 0 ≤ δ → 0 ≤ w δ ∧ w δ ≤ 1) (hσ : 0 < σ) (hσs : σ ^ 2 * M ≤ sumSq M x) (hv : sumSq M x ≠ 0) :
    |signalAcf M t x w s f k - squaresAcf M t x w s k| ≤ η / σ := by
  have hS : 0 < sumSq M x := lt_of_le_of_ne (Finset.sum_nonneg fun i _ => sq_nonneg _) (Ne.symm hv)
  have hM : 0 < M := by
    rcases Nat.eq_zero_or_pos M with rfl | h
    · exact absurd (by simp [sumSq]) hv
    · exact h
  have hη : 0 ≤ η := (abs_nonneg _).trans (hx 0 hM)
  unfold signalAcf squaresAcf
  rw [← sub_div, abs_div, abs_of_pos hS, div_le_iff₀ hS, ← Finset.sum_sub_distrib]
  have h1 : ∀ i ∈ (range M).filter fun i => t i + k ≤ t (M - 1),
      |w |t (s i) - (t i + k)| * dev M x i * (f (t i + k) - mean M x) - w |t (s i) - (t i + k)| * dev M x i ^ 2| ≤ η * |dev M x i| := fun i hi => by
    rw [Finset.mem_filter, Finset.mem_range] at hi
    obtain ⟨w0, w1⟩ := hw _ (abs_nonneg (t (s i) - (t i + k)))
    have e : w |t (s i) - (t i + k)| * dev M x i * (f (t i + k) - mean M x) - w |t (s i) - (t i + k)| * dev M x i ^ 2
        = (w |t (s i) - (t i + k)| * (f (t i) - x i)) * dev M x i := by
      rw [hp]; unfold dev; ring
    rw [e, abs_mul, abs_mul, abs_of_nonneg w0, abs_sub_comm (f (t i))]
    refine mul_le_mul_of_nonneg_right ?_ (abs_nonneg _)
    exact (mul_le_mul w1 (hx i hi.1) (abs_nonneg _) zero_le_one).trans_eq (one_mul _)
  refine (Finset.abs_sum_le_sum_abs _ _).trans ((Finset.sum_le_sum h1).trans ?_)
  rw [← Finset.mul_sum]
  have h2 : ∑ i ∈ (range M).filter (fun i => t i + k ≤ t (M - 1)), |dev M x i| ≤ sumSq M x / σ :=
    (Finset.sum_le_sum_of_subset_of_nonneg (Finset.filter_subset _ _) fun _ _ _ => abs_nonneg _).trans (sum_abs_dev_le hσ hσs)
  refine (mul_le_mul_of_nonneg_left h2 hη).trans_eq ?_
  ring

variable {dm : K} {f32 : K → K} {d : DS (Exact dm f32 ex)} {g : LagArgs (Exact dm f32 ex)} {r : AcResult (Exact dm f32 ex)} {j : ℕ}

/-- **C101**: the values are samples of a signal `f` that changes by at most `L` per unit of time, with errors up to `η`, at any increasing times.  Then the
correlation at lag `k` is close to what it would be with the signal itself at the shifted times, though it is not known there.  The bound is
`(L min(alpha, D) + η) / σ`, where `σ` is the standard deviation (or less) and `D` the largest distance from a shifted time to the nearest sample: however large
the gaps are, mismatched samples cost no more than `L alpha / σ`. -/
theorem C101_signal (h : NaturalRun d g wt r M t j x α) (he : wt = "gaussian" → ∀ y ≤ 0, 0 ≤ ex y ∧ ex y ≤ 1 / (1 - y))
    (hf : ∀ i < M, f32 (x i) = x i) (hv : sumSq M x ≠ 0) (f : K → K) (L η : K) (hL : 0 ≤ L) (hfL : Lipschitz f L) (hx : ∀ i < M, |x i - f (t i)| ≤ η)
    (σ : K) (hσ : 0 < σ) (hσs : σ ^ 2 * M ≤ sumSq M x) (n : ℕ) (k : K) (hn : r.lags[n]? = some (.fin k)) (s : ℕ → ℕ) (hs : Selects M t k s)
    (D : K) (hD0 : 0 ≤ D) (hD : ∀ i < M, t i + k ≤ t (M - 1) → |t (s i) - (t i + k)| ≤ D) :
    ∃ v, r.At j n (.fin k) (.fin v) ∧ |v - signalAcf M t x (weight ex wt α) s f k| ≤ (L * min α D + η) / σ := by
  have hα := h.alpha_pos
  have hb : wt = "gaussian" → ∀ y ≤ 0, 0 ≤ ex y ∧ ex y ≤ 1 := fun h y hy => ⟨(he h y hy).1, (he h y hy).2.trans (by
    rw [div_le_one (by linarith)]; linarith)⟩
  exact ⟨_, C47_formula h hf hv n k hn s hs, signal_close hL hfL hx (fun i hi hk => (hs i hi hk).1)
    (fun y hy => weight_bounds h.wt_known hb hα hy) (le_min hα.le hD0)
    (fun i hi hk => (weight_mul_le h.wt_known he hα (abs_nonneg _)).trans (min_le_min le_rfl (hD i hi hk))) hσ hσs hv⟩

/-- **C101** for a signal with period `k`: at the lag of the period the correlation is close to the weighted share of the squared deviations, whether or not any two
samples are a period apart. -/
theorem C101_period (h : NaturalRun d g wt r M t j x α) (he : wt = "gaussian" → ∀ y ≤ 0, 0 ≤ ex y ∧ ex y ≤ 1 / (1 - y))
    (hf : ∀ i < M, f32 (x i) = x i) (hv : sumSq M x ≠ 0) (f : K → K) (L η : K) (hL : 0 ≤ L) (hfL : Lipschitz f L) (hx : ∀ i < M, |x i - f (t i)| ≤ η)
    (σ : K) (hσ : 0 < σ) (hσs : σ ^ 2 * M ≤ sumSq M x) (n : ℕ) (k : K) (hp : ∀ a, f (a + k) = f a) (hn : r.lags[n]? = some (.fin k))
    (s : ℕ → ℕ) (hs : Selects M t k s) (D : K) (hD0 : 0 ≤ D) (hD : ∀ i < M, t i + k ≤ t (M - 1) → |t (s i) - (t i + k)| ≤ D) :
    ∃ v, r.At j n (.fin k) (.fin v) ∧ |v - squaresAcf M t x (weight ex wt α) s k| ≤ (L * min α D + 2 * η) / σ := by
  have hα := h.alpha_pos
  have hb : wt = "gaussian" → ∀ y ≤ 0, 0 ≤ ex y ∧ ex y ≤ 1 := fun h y hy => ⟨(he h y hy).1, (he h y hy).2.trans (by
    rw [div_le_one (by linarith)]; linarith)⟩
  obtain ⟨v, h1, h2⟩ := C101_signal h he hf hv f L η hL hfL hx σ hσ hσs n k hn s hs D hD0 hD
  refine ⟨v, h1, ?_⟩
  have h3 := period_close (t := t) (s := s) hp hx (fun y hy => weight_bounds h.wt_known hb hα hy) hσ hσs hv
  calc |v - squaresAcf M t x (weight ex wt α) s k|
      = |(v - signalAcf M t x (weight ex wt α) s f k) + (signalAcf M t x (weight ex wt α) s f k - squaresAcf M t x (weight ex wt α) s k)| := by
        rw [sub_add_sub_cancel]
    _ ≤ (L * min α D + η) / σ + η / σ := (abs_add_le _ _).trans (add_le_add h2 h3)
    _ = (L * min α D + 2 * η) / σ := by ring

end

section binary64
variable {ex : ℚ → ℚ} {fu : Bool} {d : DS (D64 ex fu)} {M j : ℕ} {τ : ℕ → ℤ} {e : ℤ} {x : ℕ → ℚ} {A V α : ℚ}
  {ga : LagArgs (D64 ex fu)} {r : AcResult (D64 ex fu)} {wt : String}

theorem exp_inv_le {y : ℝ} (hy : y ≤ 0) : 0 ≤ Real.exp y ∧ Real.exp y ≤ 1 / (1 - y) := by
  refine ⟨(Real.exp_pos y).le, ?_⟩
  have h1 := Real.add_one_le_exp (-y)
  have h2 : 0 < 1 - y := by linarith
  rw [le_div_iff₀ h2]
  have h3 : Real.exp y * Real.exp (-y) = 1 := by rw [← Real.exp_add]; simp
  nlinarith [Real.exp_pos y]

/-- the time of sample `i` as a real number -/
noncomputable def realTime (τ : ℕ → ℤ) (e : ℤ) (i : ℕ) : ℝ := ((τ i * pow2 e : ℚ) : ℝ)

theorem realAcf_signal (hv0 : 0 < sumSq M x) (hr : Run64 d ga wt r α e) {k : ℤ} {s : ℕ → ℕ} (hs : Selects M (fun i => (τ i : ℚ) * pow2 e) (k * pow2 e) s)
    {f : ℝ → ℝ} {L η : ℝ} (hL : 0 ≤ L) (hfL : Lipschitz f L) (hx : ∀ i < M, |(x i : ℝ) - f (realTime τ e i)| ≤ η)
    {σ : ℝ} (hσ : 0 < σ) (hσs : σ ^ 2 * M ≤ (sumSq M x : ℚ)) {D : ℝ} (hD0 : 0 ≤ D)
    (hD : ∀ i < M, τ i + k ≤ τ (M - 1) → |realTime τ e (s i) - (realTime τ e i + (k * pow2 e : ℚ))| ≤ D) :
    |realAcf M τ e x wt α s k - signalAcf M (realTime τ e) (fun i => (x i : ℝ)) (weight Real.exp wt (α : ℝ)) s f (k * pow2 e : ℚ)|
      ≤ (L * min (α : ℝ) D + η) / σ := by
  have hα : (0 : ℝ) < α := by exact_mod_cast hr.alpha_pos
  have hb : wt = "gaussian" → ∀ y : ℝ, y ≤ 0 → 0 ≤ Real.exp y ∧ Real.exp y ≤ 1 := fun _ y hy => ⟨(Real.exp_pos y).le, Real.exp_le_one_iff.2 hy⟩
  have hcmp : ∀ i, realTime τ e i + (k * pow2 e : ℚ) ≤ realTime τ e (M - 1) → τ i + k ≤ τ (M - 1) := fun i h => by
    unfold realTime at h
    have h2 : (τ i : ℚ) * pow2 e + k * pow2 e ≤ τ (M - 1) * pow2 e := by exact_mod_cast h
    rw [← add_mul, mul_le_mul_iff_left₀ (pow2_pos e)] at h2
    exact_mod_cast h2
  have hcmp' : ∀ i, τ i + k ≤ τ (M - 1) → (τ i : ℚ) * pow2 e + k * pow2 e ≤ τ (M - 1) * pow2 e := fun i h => by
    rw [← add_mul, mul_le_mul_iff_left₀ (pow2_pos e)]
    exact_mod_cast h
  refine signal_close (t := realTime τ e) hL hfL hx (fun i hi hk => (hs i hi (hcmp' i (hcmp i hk))).1)
    (fun y hy => weight_bounds hr.known hb hα hy) (le_min hα.le hD0)
    (fun i hi hk => (weight_mul_le hr.known (fun _ y hy => exp_inv_le hy) hα (abs_nonneg _)).trans (min_le_min le_rfl (hD i hi (hcmp i hk)))) hσ ?_ ?_
  · rw [sumSq_cast]; exact hσs
  · rw [sumSq_cast]; exact_mod_cast hv0.ne'

/-- **C101 in binary64**, all three weights, for a real signal `f`. -/
theorem C101_binary64 (ht : Times64 d M τ e) (hv : Values64 d M j x A V) (hr : Run64 d ga wt r α e)
    (f : ℝ → ℝ) (L η : ℝ) (hL : 0 ≤ L) (hfL : Lipschitz f L) (hx : ∀ i < M, |(x i : ℝ) - f (realTime τ e i)| ≤ η)
    (σ : ℝ) (hσ : 0 < σ) (hσs : σ ^ 2 * M ≤ (sumSq M x : ℚ)) (n : ℕ) (k : ℤ) (hn : r.lags[n]? = some (.fin (k * pow2 e)))
    (hk : |k| + (τ (M - 1) - τ 0) ≤ 2 ^ 53) (s : ℕ → ℕ) (hs : Selects M (fun i => (τ i : ℚ) * pow2 e) (k * pow2 e) s)
    (D : ℝ) (hD0 : 0 ≤ D) (hD : ∀ i < M, τ i + k ≤ τ (M - 1) → |realTime τ e (s i) - (realTime τ e i + (k * pow2 e : ℚ))| ≤ D) (β : ℚ) (hβ : 0 ≤ β)
    (hB : ∀ i' < M, (((range M).filter fun i => (τ i : ℚ) * pow2 e + k * pow2 e ≤ (τ (M - 1) : ℚ) * pow2 e ∧ s i = i').card : ℚ) ≤ β ^ 2) :
    ∃ v : ℚ, r.At j n (.fin (k * pow2 e)) (.fin v) ∧
      |(v : ℝ) - signalAcf M (realTime τ e) (fun i => (x i : ℝ)) (weight Real.exp wt (α : ℝ)) s f (k * pow2 e : ℚ)|
        ≤ (L * min (α : ℝ) D + η) / σ + (250 * V * (M * A ^ 2 / sumSq M x) * (1 + β) : ℚ) := by
  obtain ⟨hN, hV0⟩ := hv.pos ht
  obtain ⟨v, h1, h2⟩ := real64_le ht hv hr hn hk hs hβ hB
  refine ⟨v, h1, ?_⟩
  have h3 := realAcf_signal hN hr hs hL hfL hx hσ hσs hD0 hD
  have := (abs_add_le _ _).trans (add_le_add h2 h3)
  rw [sub_add_sub_cancel] at this
  linarith

/-- **C101 in binary64** at the lag of a period of the signal. -/
theorem C101_binary64_period (ht : Times64 d M τ e) (hv : Values64 d M j x A V) (hr : Run64 d ga wt r α e)
    (f : ℝ → ℝ) (L η : ℝ) (hL : 0 ≤ L) (hfL : Lipschitz f L) (hx : ∀ i < M, |(x i : ℝ) - f (realTime τ e i)| ≤ η)
    (σ : ℝ) (hσ : 0 < σ) (hσs : σ ^ 2 * M ≤ (sumSq M x : ℚ)) (n : ℕ) (k : ℤ) (hp : ∀ a, f (a + (k * pow2 e : ℚ)) = f a)
    (hn : r.lags[n]? = some (.fin (k * pow2 e)))
    (hk : |k| + (τ (M - 1) - τ 0) ≤ 2 ^ 53) (s : ℕ → ℕ) (hs : Selects M (fun i => (τ i : ℚ) * pow2 e) (k * pow2 e) s)
    (D : ℝ) (hD0 : 0 ≤ D) (hD : ∀ i < M, τ i + k ≤ τ (M - 1) → |realTime τ e (s i) - (realTime τ e i + (k * pow2 e : ℚ))| ≤ D) (β : ℚ) (hβ : 0 ≤ β)
    (hB : ∀ i' < M, (((range M).filter fun i => (τ i : ℚ) * pow2 e + k * pow2 e ≤ (τ (M - 1) : ℚ) * pow2 e ∧ s i = i').card : ℚ) ≤ β ^ 2) :
    ∃ v : ℚ, r.At j n (.fin (k * pow2 e)) (.fin v) ∧
      |(v : ℝ) - squaresAcf M (realTime τ e) (fun i => (x i : ℝ)) (weight Real.exp wt (α : ℝ)) s (k * pow2 e : ℚ)|
        ≤ (L * min (α : ℝ) D + 2 * η) / σ + (250 * V * (M * A ^ 2 / sumSq M x) * (1 + β) : ℚ) := by
  obtain ⟨hN, hV0⟩ := hv.pos ht
  obtain ⟨v, h1, h2⟩ := C101_binary64 ht hv hr f L η hL hfL hx σ hσ hσs n k hn hk s hs D hD0 hD β hβ hB
  refine ⟨v, h1, ?_⟩
  have hα : (0 : ℝ) < α := by exact_mod_cast hr.alpha_pos
  have hb : wt = "gaussian" → ∀ y : ℝ, y ≤ 0 → 0 ≤ Real.exp y ∧ Real.exp y ≤ 1 := fun _ y hy => ⟨(Real.exp_pos y).le, Real.exp_le_one_iff.2 hy⟩
  have h3 := period_close (t := realTime τ e) (s := s) (x := fun i => (x i : ℝ)) hp hx (fun y hy => weight_bounds hr.known hb hα hy) hσ
    (by rw [sumSq_cast]; exact hσs) (by rw [sumSq_cast]; exact_mod_cast hN.ne')
  have := (abs_add_le _ _).trans (add_le_add h2 h3)
  rw [sub_add_sub_cancel] at this
  refine this.trans_eq ?_
  ring

end binary64

end Sacf
