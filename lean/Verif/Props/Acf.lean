import Verif.Lemmas.Round
import Verif.Lemmas.Result
import Verif.Spec.Rational
import Mathlib.Algebra.Order.BigOperators.Ring.Finset
import Mathlib.Algebra.BigOperators.Ring.Finset

/-!
# The correlation values in exact arithmetic (C25, C26, C30, C31, C33, C34, C35, C47)

Hypothesis `NaturalRun d g wt r M t j x α` (file `Spec/Acf.lean`): `autocorrelation` with natural selection and
weight function `wt` returned `r` for a data structure with strictly increasing times `t 0 … t (M-1)` whose row `j`
holds `x 0 … x (M-1)`; the `alpha` in force is `α > 0`.  `r.At j n k v`: the `n`-th lag is `k` and the `n`-th entry of
row `j` is `v`.
-/

set_option linter.unusedSectionVars false
set_option linter.unusedSimpArgs false

namespace Sacf

open Finset

variable {K : Type} [Field K] [LinearOrder K] [IsStrictOrderedRing K] [FloorRing K]
variable {dm : K} {f32 ex : K → K}
variable {d : DS (Exact dm f32 ex)} {g : LagArgs (Exact dm f32 ex)} {wt : String} {r : AcResult (Exact dm f32 ex)}
  {M : ℕ} {t : ℕ → K} {j : ℕ} {x : ℕ → K} {α : K}

/-! ## C47, C26 -/

/-- the normaliser as the code computes it: data narrowed to `float`, mean not -/
def narrowedSumSq (f32 : K → K) (M : ℕ) (x : ℕ → K) : K := ∑ i ∈ range M, (f32 (x i) - mean M x) ^ 2

/-- the formula with the normaliser the code uses -/
theorem formula_narrowed (h : NaturalRun d g wt r M t j x α) (hv : narrowedSumSq f32 M x ≠ 0)
    (n : ℕ) (k : K) (hn : r.lags[n]? = some (.fin k)) (s : ℕ → ℕ) (hs : Selects M t k s) :
    r.At j n (.fin k) (.fin (sacf M t x (weight ex wt α) s (narrowedSumSq f32 M x) k)) := by
  obtain ⟨hM, hnt, _⟩ := built_times h.built h.times
  obtain ⟨ps, h1, h2⟩ := result_at h.built h.run h.row hn
  rw [h.alpha, hnt] at h1
  rw [rowCorr_exact hM h.inc h.wt_known h.alpha_pos k x h1 hv s hs] at h2
  exact h2

theorem narrowed_eq (hf : ∀ i < M, f32 (x i) = x i) : narrowedSumSq f32 M x = sumSq M x := by
  unfold narrowedSumSq sumSq dev
  apply Finset.sum_congr rfl
  intro i hi
  rw [hf i (Finset.mem_range.1 hi)]

/-- **C47**: every correlation returned is the published formula. -/
theorem C47_formula (h : NaturalRun d g wt r M t j x α) (hf : ∀ i < M, f32 (x i) = x i) (hv : sumSq M x ≠ 0)
    (n : ℕ) (k : K) (hn : r.lags[n]? = some (.fin k)) (s : ℕ → ℕ) (hs : Selects M t k s) :
    r.At j n (.fin k) (.fin (sacf M t x (weight ex wt α) s (sumSq M x) k)) := by
  rw [← narrowed_eq hf] at hv ⊢
  exact formula_narrowed h hv n k hn s hs

/-- the selection the formula asks for exists for every lag -/
theorem selects_exists (M : ℕ) (t : ℕ → K) (k : K) : ∃ s, Selects M t k s := by
  have : ∀ i, ∃ s, i < M → t i + k ≤ t (M - 1) → IsNearest M t (t i + k) s := by
    intro i
    by_cases hi : i < M
    · obtain ⟨s, hs⟩ := exists_nearest M (by omega) t (t i + k)
      exact ⟨s, fun _ _ => hs⟩
    · exact ⟨0, fun h => absurd h hi⟩
  choose s hs using this
  exact ⟨s, fun i hi hk => hs i hi hk⟩

/-- **C47**: so every finite lag of every row has a value, given by the formula with the nearest samples. -/
theorem C47_value (h : NaturalRun d g wt r M t j x α) (hf : ∀ i < M, f32 (x i) = x i) (hv : sumSq M x ≠ 0)
    (n : ℕ) (k : K) (hn : r.lags[n]? = some (.fin k)) :
    ∃ s, Selects M t k s ∧ r.At j n (.fin k) (.fin (sacf M t x (weight ex wt α) s (sumSq M x) k)) := by
  obtain ⟨s, hs⟩ := selects_exists M t k
  exact ⟨s, hs, C47_formula h hf hv n k hn s hs⟩

/-- irregular times, default lags and weights -/
example : ((mkFlat (q [0, 1, 3]) (q [1, 2, 6])).bind fun d =>
    (autocorrelation .fabs d).bind fun r => .ok (r.lags, r.corrs))
      = .ok (q [-3, -2, -1, 0, 1, 2, 3], .flat (q [-13/42, -1/21, 17/28, 1, 1/28, -3/7, -3/7])) := by
  decide +kernel

/-- **C26**: what is returned is the formula times the ratio of the exact normaliser to the one of the
narrowed data. -/
theorem C26_ratio_partial (h : NaturalRun d g wt r M t j x α) (hv : sumSq M x ≠ 0) (hv' : narrowedSumSq f32 M x ≠ 0)
    (n : ℕ) (k : K) (hn : r.lags[n]? = some (.fin k)) (s : ℕ → ℕ) (hs : Selects M t k s) :
    r.At j n (.fin k) (.fin (sacf M t x (weight ex wt α) s (sumSq M x) k
      * (sumSq M x / narrowedSumSq f32 M x))) := by
  have := formula_narrowed h hv' n k hn s hs
  have e : sacf M t x (weight ex wt α) s (narrowedSumSq f32 M x) k
      = sacf M t x (weight ex wt α) s (sumSq M x) k * (sumSq M x / narrowedSumSq f32 M x) := by
    unfold sacf
    field_simp
  rwa [e] at this

/-! ## C25 -/

theorem weight_zero {wt : String} (hw : KnownWeight wt) (he : wt = "gaussian" → ex 0 = 1) (α : K) :
    weight ex wt α 0 = 1 := by
  unfold weight
  rcases hw with rfl | rfl | rfl
  · simp [he rfl]
  · simp
  · simp

theorem selects_zero (hinc : Increasing M t) : Selects M t 0 (fun i => i) := by
  intro i hi _
  refine ⟨hi, fun n hn => ?_⟩
  simp only [add_zero, sub_self, abs_zero]
  by_cases hc : n = i
  · right; subst hc; simp
  · left
    rw [abs_pos, sub_ne_zero]
    rcases Nat.lt_or_gt_of_ne hc with h | h
    · exact (hinc n i h hi).ne
    · exact (hinc i n h hn).ne'

theorem sacf_zero {w : K → K} (hw : w 0 = 1) (hinc : Increasing M t) (nrm : K) :
    sacf M t x w (fun i => i) nrm 0 = sumSq M x / nrm := by
  unfold sacf sumSq
  congr 1
  rw [Finset.sum_filter_of_ne]
  · apply Finset.sum_congr rfl
    intro i _
    simp [hw, pow_two]
  · intro i hi _
    have := Finset.mem_range.1 hi
    simpa using hinc.le (show i ≤ M - 1 by omega) (by omega)

/-- **C25**: the correlation at lag zero is one (values representable as `float`, not all equal). -/
theorem C25_zero_lag (h : NaturalRun d g wt r M t j x α) (hf : ∀ i < M, f32 (x i) = x i) (hv : sumSq M x ≠ 0)
    (he : wt = "gaussian" → ex 0 = 1) (n : ℕ) (hn : r.lags[n]? = some (.fin 0)) :
    r.At j n (.fin 0) (.fin 1) := by
  have := C47_formula h hf hv n 0 hn _ (selects_zero h.inc)
  rw [sacf_zero (weight_zero h.wt_known he α) h.inc, div_self hv] at this
  exact this

/-- **C26**: the value at lag zero is one exactly when the narrowed data have the same sum of squares. -/
theorem C26_zero_lag_partial (h : NaturalRun d g wt r M t j x α) (hv : narrowedSumSq f32 M x ≠ 0)
    (he : wt = "gaussian" → ex 0 = 1) (n : ℕ) (hn : r.lags[n]? = some (.fin 0)) :
    r.At j n (.fin 0) (.fin (sumSq M x / narrowedSumSq f32 M x)) := by
  have := formula_narrowed h hv n 0 hn _ (selects_zero h.inc)
  rw [sacf_zero (weight_zero h.wt_known he α) h.inc] at this
  exact this

/-! ## C30, C31 -/

theorem regular_increasing {t0 δ : K} (hδ : 0 < δ) (M : ℕ) : Increasing M (fun i : ℕ => t0 + i * δ) := by
  intro i j hij _
  have : (i : K) * δ < j * δ := by
    apply mul_lt_mul_of_pos_right _ hδ
    exact_mod_cast hij
  linarith

/-- on a regular grid the nearest sample to a grid point is that point -/
theorem nearest_regular {t0 δ : K} (hδ : 0 < δ) {M n : ℕ} (hn : n < M) :
    IsNearest M (fun i : ℕ => t0 + i * δ) (t0 + n * δ) n := by
  have := selects_zero (regular_increasing (t0 := t0) hδ M) n hn
  simp only [add_zero] at this
  exact this ((regular_increasing hδ M).le (show n ≤ M - 1 by omega) (by omega))

/-- on a regular grid the nearest sample to a point before the grid is the first one -/
theorem nearest_before {t0 δ : K} (hδ : 0 < δ) {M : ℕ} (hM : 0 < M) {y : K} (hy : y ≤ t0) :
    IsNearest M (fun i : ℕ => t0 + i * δ) y 0 := by
  refine ⟨hM, fun i hi => ?_⟩
  rcases Nat.eq_zero_or_pos i with rfl | h
  · right; simp
  · left
    have : (0 : K) < i * δ := by
      have : (0 : K) < i := by exact_mod_cast h
      positivity
    rw [abs_of_nonneg (by simp; linarith), abs_of_nonneg (by linarith)]
    simp only [Nat.cast_zero, zero_mul, add_zero]
    linarith

/-- the textbook estimate of the autocovariance at lag `m` (sum, not divided) -/
def autoCov (M : ℕ) (x : ℕ → K) (m : ℕ) : K := ∑ i ∈ range (M - m), dev M x i * dev M x (i + m)

/-- on a regular grid the shift by `m` steps matches sample `i` with sample `i + m`, and the formula is the textbook one -/
theorem sacf_regular {t0 δ : K} (hδ : 0 < δ) {w : K → K} (hw : w 0 = 1) (M m : ℕ) (hm : m < M) (x : ℕ → K) (nrm : K) :
    Selects M (fun i : ℕ => t0 + i * δ) (m * δ) (fun i => i + m) ∧
    sacf M (fun i : ℕ => t0 + i * δ) x w (fun i => i + m) nrm (m * δ) = autoCov M x m / nrm := by
  have hcond : ∀ i < M, (t0 + (i : K) * δ + m * δ ≤ t0 + ((M - 1 : ℕ) : K) * δ ↔ i < M - m) := by
    intro i hi
    have e : t0 + (i : K) * δ + m * δ = t0 + ((i + m : ℕ) : K) * δ := by push_cast; ring
    rw [e, add_le_add_iff_left, mul_le_mul_iff_left₀ hδ, Nat.cast_le]
    omega
  constructor
  · intro i hi hle
    have hlt := (hcond i hi).1 hle
    have e : t0 + (i : K) * δ + m * δ = t0 + ((i + m : ℕ) : K) * δ := by push_cast; ring
    simp only [e]
    exact nearest_regular hδ (by omega)
  · unfold sacf autoCov
    congr 1
    have hset : (range M).filter (fun i : ℕ => t0 + (i : K) * δ + m * δ ≤ t0 + ((M - 1 : ℕ) : K) * δ)
        = range (M - m) := by
      ext i
      simp only [Finset.mem_filter, Finset.mem_range]
      constructor
      · rintro ⟨hi, h⟩; exact (hcond i hi).1 h
      · intro hi; exact ⟨by omega, (hcond i (by omega)).2 hi⟩
    rw [hset]
    apply Finset.sum_congr rfl
    intro i _
    have e0 : t0 + ((i + m : ℕ) : K) * δ - (t0 + (i : K) * δ + m * δ) = 0 := by push_cast; ring
    rw [e0, abs_zero, hw]
    ring

/-- **C30**: for regularly spaced times and a lag of `m` steps the correlation is the textbook estimate, whatever
`alpha` and the weight function. -/
theorem C30_regular {t0 δ : K} (h : NaturalRun d g wt r M (fun i : ℕ => t0 + i * δ) j x α) (hδ : 0 < δ)
    (hf : ∀ i < M, f32 (x i) = x i) (hv : sumSq M x ≠ 0) (he : wt = "gaussian" → ex 0 = 1)
    (m n : ℕ) (hm : m < M) (hn : r.lags[n]? = some (.fin (m * δ))) :
    r.At j n (.fin (m * δ)) (.fin (autoCov M x m / sumSq M x)) := by
  obtain ⟨hsel, e⟩ := sacf_regular (t0 := t0) hδ (weight_zero h.wt_known he α) M m hm x (sumSq M x)
  have := C47_formula h hf hv n _ hn _ hsel
  rwa [e] at this

/-- `test_SACF_correlation` of the repository, exactly -/
example : ((mkFlat (q [0, 1, 2, 3, 4]) (q [1, 0, 2, 0, 2])).bind fun d =>
    (autocorrelation .fabs d { minLag := some (.fin 0) }).bind fun r => .ok (r.lags, r.corrs))
      = .ok (q [0, 1, 2, 3, 4], .flat (q [1, -3/4, 1/2, -1/4, 0])) := by decide +kernel

/-- at minus `m` steps on a regular grid -/
theorem sacf_regular_neg {t0 δ : K} (hδ : 0 < δ) {w : K → K} (hw : w 0 = 1) (M m : ℕ) (hm : m < M) (x : ℕ → K) (nrm : K) :
    Selects M (fun i : ℕ => t0 + i * δ) (-(m * δ)) (fun i => i - m) ∧
    sacf M (fun i : ℕ => t0 + i * δ) x w (fun i => i - m) nrm (-(m * δ))
      = (autoCov M x m + ∑ i ∈ range m, w ((m - i : ℕ) * δ) * dev M x i * dev M x 0) / nrm := by
  have hcond : ∀ i < M, t0 + (i : K) * δ + -(m * δ) ≤ t0 + ((M - 1 : ℕ) : K) * δ := by
    intro i hi
    have h1 : (i : K) * δ ≤ ((M - 1 : ℕ) : K) * δ := by
      apply mul_le_mul_of_nonneg_right _ hδ.le
      exact_mod_cast (by omega : i ≤ M - 1)
    have h2 : (0 : K) ≤ m * δ := by positivity
    linarith
  have hge : ∀ i : ℕ, m ≤ i → t0 + (i : K) * δ + -(m * δ) = t0 + ((i - m : ℕ) : K) * δ := by
    intro i hi
    rw [Nat.cast_sub hi]; ring
  have hlt : ∀ i : ℕ, i < m → t0 + (i : K) * δ + -(m * δ) = t0 - ((m - i : ℕ) : K) * δ := by
    intro i hi
    rw [Nat.cast_sub hi.le]; ring
  have hsel : Selects M (fun i : ℕ => t0 + i * δ) (-(m * δ)) (fun i => i - m) := by
    intro i hi _
    by_cases hc : m ≤ i
    · simp only [hge i hc]
      exact nearest_regular hδ (by omega)
    · have e : i - m = 0 := by omega
      simp only [e, hlt i (by omega)]
      apply nearest_before hδ (by omega)
      have : (0 : K) ≤ ((m - i : ℕ) : K) * δ := by positivity
      linarith
  refine ⟨hsel, ?_⟩
  unfold sacf autoCov
  congr 1
  rw [Finset.sum_filter_of_ne (fun i hi _ => hcond i (Finset.mem_range.1 hi))]
  have hM : M = m + (M - m) := by omega
  conv_lhs => rw [hM]
  rw [Finset.sum_range_add, add_comm]
  have hM' : m + (M - m) = M := hM.symm
  rw [hM']
  congr 1
  · apply Finset.sum_congr rfl
    intro i _
    beta_reduce
    have e1 : m + i - m = i := by omega
    have e2 := hge (m + i) (by omega)
    rw [e1] at e2
    rw [e1, e2, sub_self, abs_zero, hw, add_comm m i]
    ring
  · apply Finset.sum_congr rfl
    intro i hi
    have hi := Finset.mem_range.1 hi
    beta_reduce
    have e1 : i - m = 0 := by omega
    rw [e1, hlt i hi]
    have e3 : t0 + ((0 : ℕ) : K) * δ - (t0 - ((m - i : ℕ) : K) * δ) = ((m - i : ℕ) : K) * δ := by simp
    have : (0 : K) ≤ ((m - i : ℕ) : K) * δ := by positivity
    rw [e3, abs_of_nonneg this]

/-- **C31**: the exact amount by which the estimate fails to be even on a regular grid. -/
theorem C31_surplus_partial {t0 δ : K} (h : NaturalRun d g wt r M (fun i : ℕ => t0 + i * δ) j x α) (hδ : 0 < δ)
    (hf : ∀ i < M, f32 (x i) = x i) (hv : sumSq M x ≠ 0) (he : wt = "gaussian" → ex 0 = 1)
    (m n : ℕ) (hm : m < M) (hn : r.lags[n]? = some (.fin (-(m * δ)))) :
    r.At j n (.fin (-(m * δ))) (.fin ((autoCov M x m
      + ∑ i ∈ range m, weight ex wt α ((m - i : ℕ) * δ) * dev M x i * dev M x 0) / sumSq M x)) := by
  obtain ⟨hsel, e⟩ := sacf_regular_neg (t0 := t0) hδ (weight_zero h.wt_known he α) M m hm x (sumSq M x)
  have := C47_formula h hf hv n _ hn _ hsel
  rwa [e] at this

/-- **C31 is false of the code**: lags -1 and 1 of a regular series. -/
theorem C31_false : ((mkFlat (q [0, 1, 2, 3]) (q [1, 0, 2, 5])).bind fun d =>
    (autocorrelation .fabs d ⟨some (.fin (-1)), some (.fin 1), none, none⟩).bind fun r => .ok (r.lags, r.corrs))
      = .ok (q [-1, 0, 1], .flat (q [13/70, 1, 1/7])) := by decide +kernel

/-! ## C33 -/

/-- all the weights are in [0,1] (with an exponential that is, on non-positive arguments) -/
theorem weight_bounds {wt : String} (hw : KnownWeight wt) (he : wt = "gaussian" → ∀ y ≤ 0, 0 ≤ ex y ∧ ex y ≤ 1)
    (hα : 0 < α) {δ : K} (hδ : 0 ≤ δ) : 0 ≤ weight ex wt α δ ∧ weight ex wt α δ ≤ 1 := by
  unfold weight
  rcases hw with rfl | rfl | rfl
  · simp only [if_true]
    apply he rfl
    have : 0 ≤ δ ^ 2 / (2 * α ^ 2) := by positivity
    linarith
  · have h1 : 0 ≤ δ / α := by positivity
    rw [if_neg (by decide), if_neg (by decide)]
    refine ⟨by positivity, ?_⟩
    rw [div_le_one (by linarith)]; linarith
  · have h1 : 0 ≤ (δ / α) ^ 2 := by positivity
    rw [if_neg (by decide), if_pos rfl]
    refine ⟨by positivity, ?_⟩
    rw [div_le_one (by linarith)]; linarith

/-- Cauchy–Schwarz bound of the formula -/
theorem sacf_bound {w : K → K} (hw : ∀ y, 0 ≤ y → 0 ≤ w y ∧ w y ≤ 1) {s : ℕ → ℕ} {k : K} {B : ℕ}
    (hs : ∀ i < M, t i + k ≤ t (M - 1) → s i < M)
    (hB : ∀ n < M, ((range M).filter fun i => t i + k ≤ t (M - 1) ∧ s i = n).card ≤ B)
    (hv : sumSq M x ≠ 0) :
    sacf M t x w s (sumSq M x) k ^ 2 ≤ B := by
  have hSS : 0 < sumSq M x := lt_of_le_of_ne (Finset.sum_nonneg fun i _ => sq_nonneg _) (Ne.symm hv)
  unfold sacf
  set A := (range M).filter fun i => t i + k ≤ t (M - 1) with hA
  have hAm : ∀ i ∈ A, i < M ∧ t i + k ≤ t (M - 1) := by
    intro i hi
    rw [hA, Finset.mem_filter, Finset.mem_range] at hi
    exact hi
  have hcs := Finset.sum_mul_sq_le_sq_mul_sq A
    (fun i => w |t (s i) - (t i + k)| * dev M x i) (fun i => dev M x (s i))
  have h1 : ∑ i ∈ A, (w |t (s i) - (t i + k)| * dev M x i) ^ 2 ≤ sumSq M x := by
    calc ∑ i ∈ A, (w |t (s i) - (t i + k)| * dev M x i) ^ 2 ≤ ∑ i ∈ A, dev M x i ^ 2 := by
            apply Finset.sum_le_sum
            intro i _
            obtain ⟨h0, h1⟩ := hw _ (abs_nonneg (t (s i) - (t i + k)))
            rw [mul_pow]
            have : w |t (s i) - (t i + k)| ^ 2 ≤ 1 := pow_le_one₀ h0 h1
            nlinarith [sq_nonneg (dev M x i)]
      _ ≤ sumSq M x := by
            apply Finset.sum_le_sum_of_subset_of_nonneg
            · exact Finset.filter_subset _ _
            · intro i _ _; exact sq_nonneg _
  have h2 : ∑ i ∈ A, dev M x (s i) ^ 2 ≤ B * sumSq M x := by
    have hmaps : ∀ i ∈ A, s i ∈ range M := fun i hi => Finset.mem_range.2 (hs i (hAm i hi).1 (hAm i hi).2)
    rw [← Finset.sum_fiberwise_of_maps_to hmaps]
    unfold sumSq
    rw [Finset.mul_sum]
    apply Finset.sum_le_sum
    intro n hn
    have : ∀ i ∈ A.filter (fun i => s i = n), dev M x (s i) ^ 2 = dev M x n ^ 2 := by
      intro i hi
      rw [(Finset.mem_filter.1 hi).2]
    rw [Finset.sum_congr rfl this, Finset.sum_const, nsmul_eq_mul]
    apply mul_le_mul_of_nonneg_right _ (sq_nonneg _)
    have hc := hB n (Finset.mem_range.1 hn)
    rw [hA, Finset.filter_filter]
    exact_mod_cast hc
  have h3 : 0 ≤ ∑ i ∈ A, dev M x (s i) ^ 2 := Finset.sum_nonneg fun i _ => sq_nonneg _
  rw [div_pow, div_le_iff₀ (by positivity)]
  calc (∑ i ∈ A, w |t (s i) - (t i + k)| * dev M x i * dev M x (s i)) ^ 2
      ≤ _ := hcs
    _ ≤ sumSq M x * (B * sumSq M x) := mul_le_mul h1 h2 h3 hSS.le
    _ = B * sumSq M x ^ 2 := by ring

open scoped Classical in
/-- **C33**: what holds in general: the square of a correlation is at most the largest number `B` of samples
matched with one and the same sample at that lag. -/
theorem C33_bound_partial (h : NaturalRun d g wt r M t j x α) (hf : ∀ i < M, f32 (x i) = x i) (hv : sumSq M x ≠ 0)
    (he : wt = "gaussian" → ∀ y ≤ 0, 0 ≤ ex y ∧ ex y ≤ 1) (n : ℕ) (k : K) (hn : r.lags[n]? = some (.fin k))
    (B : ℕ) (hB : ∀ i' < M, ((range M).filter fun i =>
      t i + k ≤ t (M - 1) ∧ IsNearest M t (t i + k) i').card ≤ B) :
    ∃ v, r.At j n (.fin k) (.fin v) ∧ v ^ 2 ≤ B := by
  obtain ⟨s, hs⟩ := selects_exists M t k
  refine ⟨_, C47_formula h hf hv n k hn s hs, ?_⟩
  apply sacf_bound (fun y hy => weight_bounds h.wt_known he h.alpha_pos hy) (fun i hi hk => (hs i hi hk).1) _ hv
  intro n' hn'
  refine le_trans (Finset.card_le_card ?_) (hB n' hn')
  intro i hi
  rw [Finset.mem_filter, Finset.mem_range] at hi ⊢
  obtain ⟨h1, h2, h3⟩ := hi
  exact ⟨h1, h2, h3 ▸ hs i h1 h2⟩

open scoped Classical in
/-- **C33**: on a regular grid all correlations at non-negative whole lags are in [-1, 1]. -/
theorem C33_regular_partial {t0 δ : K} (h : NaturalRun d g wt r M (fun i : ℕ => t0 + i * δ) j x α) (hδ : 0 < δ)
    (hf : ∀ i < M, f32 (x i) = x i) (hv : sumSq M x ≠ 0) (he : wt = "gaussian" → ∀ y ≤ 0, 0 ≤ ex y ∧ ex y ≤ 1)
    (m n : ℕ) (hn : r.lags[n]? = some (.fin (m * δ))) :
    ∃ v, r.At j n (.fin (m * δ)) (.fin v) ∧ |v| ≤ 1 := by
  obtain ⟨v, h1, h2⟩ := C33_bound_partial h hf hv he n _ hn 1 (by
    intro i' hi'
    rw [Finset.card_le_one]
    intro a ha b hb
    rw [Finset.mem_filter, Finset.mem_range] at ha hb
    have key : ∀ a, a < M ∧ t0 + (a : K) * δ + m * δ ≤ t0 + ((M - 1 : ℕ) : K) * δ ∧
        IsNearest M (fun i : ℕ => t0 + i * δ) (t0 + (a : K) * δ + m * δ) i' → i' = a + m := by
      rintro a ⟨haM, hle, hnear⟩
      have e : t0 + (a : K) * δ + m * δ = t0 + ((a + m : ℕ) : K) * δ := by push_cast; ring
      rw [e] at hle hnear
      rw [add_le_add_iff_left, mul_le_mul_iff_left₀ hδ, Nat.cast_le] at hle
      exact hnear.unique (nearest_regular hδ (by omega))
    have := key a ha
    have := key b hb
    omega)
  refine ⟨v, h1, ?_⟩
  rw [abs_le_one_iff_mul_self_le_one]
  rw [pow_two] at h2
  simpa using h2

/-- **C33 is false of the code**: a correlation above 1, at lag 20. -/
theorem C33_false : ((mkFlat (q [0, 1, 2, 21, 100, 101, 102, 122]) (q [1, 1, 1, 2, -1, -1, -1, -2])).bind fun d =>
    (autocorrelation .fabs d ⟨some (.fin 20), some (.fin 20), none, some (.fin 1000)⟩).bind fun r =>
      .ok (r.lags, r.corrs)) = .ok (q [0, 20], .flat (q [1, 22609078/19892873])) := by decide +kernel

/-! ## C34 -/

/-- a row all of whose values are `c` -/
theorem const_mean {c : K} (hM : 0 < M) (hx : ∀ i < M, x i = c) : mean M x = c := by
  unfold mean
  rw [Finset.sum_congr rfl (fun i hi => hx i (Finset.mem_range.1 hi)), Finset.sum_const, Finset.card_range,
    nsmul_eq_mul]
  have : (M : K) ≠ 0 := by exact_mod_cast hM.ne'
  field_simp

/-- zero or NaN times infinity -/
theorem corrValue_zero (ys : List (Exact dm f32 ex)) (hy : ∀ y ∈ ys, y = .fin 0) (ps : List (Exact dm f32 ex × ℕ)) :
    corrValue ys (.fin 0) ps = .nan := by
  have hget : ∀ i, ys.getD i (Arith.zero : Exact dm f32 ex) = .fin 0 := by
    intro i
    rw [List.getD_eq_getElem?_getD]
    cases h : ys[i]? with
    | none => rfl
    | some y => simp [hy y (List.mem_iff_getElem?.2 ⟨i, h⟩)]
  have hterm : ∀ w : Exact dm f32 ex, Arith.mul (Arith.mul w (.fin 0)) (.fin 0) = .fin 0 ∨
      Arith.mul (Arith.mul w (.fin 0)) (.fin 0) = (.nan : Exact dm f32 ex) := by
    intro w
    cases w with
    | nan => right; rfl
    | ninf => right; show XF.mul (XF.infSign _) _ = _; simp [XF.infSign, XF.mul]
    | pinf => right; show XF.mul (XF.infSign _) _ = _; simp [XF.infSign, XF.mul]
    | fin w => left; simp
  have hfold : ∀ (l : List ((Exact dm f32 ex × ℕ) × ℕ)) (acc : Exact dm f32 ex), (acc = .fin 0 ∨ acc = .nan) →
      (l.foldl (fun acc p => Arith.addMul acc (Arith.mul p.1.1 (ys.getD p.2 Arith.zero))
        (ys.getD p.1.2 Arith.zero)) acc = .fin 0 ∨
       l.foldl (fun acc p => Arith.addMul acc (Arith.mul p.1.1 (ys.getD p.2 Arith.zero))
        (ys.getD p.1.2 Arith.zero)) acc = .nan) := by
    intro l
    induction l with
    | nil => intro acc h; exact h
    | cons p l ih =>
      intro acc hacc
      rw [List.foldl_cons]
      apply ih
      rw [hget, hget]
      rcases hacc with rfl | rfl
      · rcases hterm p.1.1 with h | h
        · left; rw [ex_addMul, h]; simp
        · right; rw [ex_addMul, h]; rfl
      · right; rfl
  unfold corrValue
  have hdiv : Arith.div (Arith.one : Exact dm f32 ex) (.fin 0) = .pinf := by
    show XF.div _ _ = _
    simp [XF.div, XF.infSign]
  rw [hdiv]
  rcases hfold ps.zipIdx Arith.zero (Or.inl rfl) with h | h
  · rw [h]; show XF.mul _ _ = _; simp [XF.mul, XF.infSign]
  · rw [h]; rfl

/-- **C34** (exact arithmetic), for every selection function, weight function, `alpha` and overload of `abs`: if all
values of a row equal a number `c` that is representable as `float`, every entry of that row of the result is
NaN. -/
theorem C34_constant_partial (a : AbsFn) (d : DS (Exact dm f32 ex)) (hd : Constructed d) (g : LagArgs (Exact dm f32 ex))
    (sel wt : String) (r : AcResult (Exact dm f32 ex)) (hr : autocorrelation a d g sel wt = .ok r)
    (M j : ℕ) (c : K) (hrow : d.HasRow j (List.replicate M (.fin c))) (hc : f32 c = c) :
    ∃ row, r.corrs.rows[j]? = some row ∧ row = List.replicate r.lags.length .nan := by
  obtain ⟨L, _, h1, h2, _⟩ := result_row hd hr hrow
  have hM : 0 < M := by
    obtain ⟨t, data, err, N, _, hb⟩ := hd.built
    obtain ⟨hj, he⟩ := hb.row hrow
    have := congrArg List.length he
    rw [rowOf_length hb.hsize hj, List.length_replicate] at this
    have := List.length_pos_iff.2 hb.tne
    omega
  refine ⟨_, h2, ?_⟩
  have hs : (List.replicate M (.fin c) : List (Exact dm f32 ex)) = samples M (fun _ => c) := by
    unfold samples; simp
  have hmean : mean M (fun _ => c) = c := const_mean hM (fun _ _ => rfl)
  unfold rowCorr
  rw [hs, meanOf_samples hM, hmean, normOfRow_samples]
  have hz : ∑ i ∈ range M, (f32 c - c) ^ 2 = 0 := by rw [hc]; simp
  rw [hz]
  rw [h1, List.length_map]
  apply List.ext_getElem
  · simp
  · intro i hi1 hi2
    simp only [List.getElem_map, List.getElem_replicate]
    apply corrValue_zero
    intro y hy
    obtain ⟨v, hv, rfl⟩ := List.mem_map.1 hy
    obtain ⟨_, _, rfl⟩ := samples_mem.1 hv
    simp

/-- **C34**: if the constant is not representable as `float`, the row is zero instead of NaN (natural selection). -/
theorem C34_constant_narrowed_partial {c : K} (h : NaturalRun d g wt r M t j x α) (hx : ∀ i < M, x i = c) (hc : f32 c ≠ c)
    (n : ℕ) (k : K) (hn : r.lags[n]? = some (.fin k)) : r.At j n (.fin k) (.fin 0) := by
  obtain ⟨hM, _, _⟩ := built_times h.built h.times
  obtain ⟨s, hs⟩ := selects_exists M t k
  have hmean := const_mean hM hx
  have hv : narrowedSumSq f32 M x ≠ 0 := by
    unfold narrowedSumSq
    rw [hmean, Finset.sum_congr rfl (fun i hi => by rw [hx i (Finset.mem_range.1 hi)]), Finset.sum_const,
      Finset.card_range, nsmul_eq_mul]
    have h1 : (M : K) ≠ 0 := by exact_mod_cast hM.ne'
    have h2 : (f32 c - c) ^ 2 ≠ 0 := pow_ne_zero _ (sub_ne_zero.2 hc)
    exact mul_ne_zero h1 h2
  have := formula_narrowed h hv n k hn s hs
  have e : sacf M t x (weight ex wt α) s (narrowedSumSq f32 M x) k = 0 := by
    unfold sacf
    rw [Finset.sum_eq_zero, zero_div]
    intro i hi
    have hi := (Finset.mem_filter.1 hi).1
    have : dev M x i = 0 := by unfold dev; rw [hmean, hx i (Finset.mem_range.1 hi), sub_self]
    rw [this]; simp
  rwa [e] at this

example : ((mkTable (q [0, 1, 3]) [q [2, 2, 2], q [1, 2, 6]]).bind fun d =>
    (autocorrelation .fabs d ⟨some (.fin 0), some (.fin 1), none, none⟩).bind fun r => .ok (r.lags, r.corrs))
      = .ok (q [0, 1], .table [[.nan, .nan], q [1, 1/28]]) := by decide +kernel

/-! ## C35 -/

theorem mul_nan_left {R : Rnd K} (x : XF R) : Arith.mul (.nan : XF R) x = .nan := by cases x <;> rfl
theorem mul_nan_right {R : Rnd K} (x : XF R) : Arith.mul x (.nan : XF R) = .nan := by cases x <;> rfl
theorem add_nan_left {R : Rnd K} (x : XF R) : Arith.add (.nan : XF R) x = .nan := by cases x <;> rfl
theorem add_nan_right {R : Rnd K} (x : XF R) : Arith.add x (.nan : XF R) = .nan := by cases x <;> rfl
theorem sub_nan_left {R : Rnd K} (x : XF R) : Arith.sub (.nan : XF R) x = .nan := by cases x <;> rfl

/-- a NaN among the factors used makes the value NaN -/
theorem corrValue_nan {R : Rnd K} (ys : List (XF R)) (nrm : XF R) (ps : List (XF R × ℕ)) (i : ℕ) (p : XF R × ℕ)
    (hp : ps[i]? = some p) (hy : ys[i]? = some .nan ∨ ys[p.2]? = some .nan) : corrValue ys nrm ps = .nan := by
  have hfold : ∀ (l : List ((XF R × ℕ) × ℕ)) (acc : XF R),
      (acc = .nan ∨ ∃ q ∈ l, ys[q.2]? = some .nan ∨ ys[q.1.2]? = some .nan) →
      l.foldl (fun acc p => Arith.addMul acc (Arith.mul p.1.1 (ys.getD p.2 Arith.zero))
        (ys.getD p.1.2 Arith.zero)) acc = .nan := by
    intro l
    induction l with
    | nil => rintro acc (h | ⟨q, hq, _⟩)
             · exact h
             · simp at hq
    | cons q l ih =>
      rintro acc h
      rw [List.foldl_cons]
      apply ih
      rcases h with rfl | ⟨q', hq', h⟩
      · left; exact addMul_nan _ _ _ (Or.inl rfl)
      · rcases List.mem_cons.1 hq' with rfl | hq'
        · left
          rcases h with h | h
          · have : ys.getD q'.2 (Arith.zero : XF R) = .nan := by rw [List.getD_eq_getElem?_getD, h]; rfl
            rw [this, mul_nan_right]; exact addMul_nan _ _ _ (Or.inr (Or.inl rfl))
          · have : ys.getD q'.1.2 (Arith.zero : XF R) = .nan := by rw [List.getD_eq_getElem?_getD, h]; rfl
            rw [this]; exact addMul_nan _ _ _ (Or.inr (Or.inr rfl))
        · right; exact ⟨q', hq', h⟩
  unfold corrValue
  rw [hfold ps.zipIdx _ (Or.inr ⟨(p, i), by
    rw [List.mem_iff_getElem?]
    exact ⟨i, by simp [hp]⟩, hy⟩), mul_nan_left]

/-- **C35 is false of the code**: at every lag where the sample `i₀` with value NaN takes part – its shifted time is
not beyond the last time, or some other sample that takes part is nearest to it – the correlation of that row
is NaN (whatever the other values). -/
theorem C35_poisoned (d : DS (Exact dm f32 ex)) (hd : Constructed d) (g : LagArgs (Exact dm f32 ex)) (wt : String)
    (r : AcResult (Exact dm f32 ex)) (hr : autocorrelation .fabs d g "natural" wt = .ok r)
    (hw : KnownWeight wt) (M : ℕ) (t : ℕ → K) (ht : d.timeseries = samples M t) (hinc : Increasing M t)
    (α : K) (hα : 0 < α) (ha : r.corr.alpha = .fin α)
    (j : ℕ) (row : List (Exact dm f32 ex)) (hrow : d.HasRow j row) (i₀ : ℕ) (hi₀ : row[i₀]? = some .nan)
    (n : ℕ) (k : K) (hn : r.lags[n]? = some (.fin k))
    (huse : ∃ i < M, t i + k ≤ t (M - 1) ∧ (i = i₀ ∨ IsNearest M t (t i + k) i₀)) :
    r.At j n (.fin k) .nan := by
  obtain ⟨hM, hnt, _⟩ := built_times hd ht
  obtain ⟨ps, h1, h2⟩ := result_at hd hr hrow hn
  rw [ha, hnt] at h1
  obtain ⟨m, s, h3, h4, h5, h6⟩ := lagPlan_exact (dm := dm) (f32 := f32) (ex := ex) hM (hinc.sub_const (t 0)) hw hα k
  rw [h6] at h1
  simp only [Res.ok.injEq] at h1
  subst h1
  obtain ⟨i, hi, hle, hor⟩ := huse
  have him : i < m := by
    rw [h4 i hi]; linarith
  rw [corrValue_nan _ _ _ i (_, s i) (by simp [him]; rfl)] at h2
  · exact h2
  · rcases hor with rfl | hnear
    · left; rw [List.getElem?_map, hi₀]; simp [sub_nan_left]
    · right
      have a1 := h5 i him
      have e2 : t i - t 0 + k = (t i + k) - t 0 := by ring
      rw [e2, IsNearest.sub_const] at a1
      rw [a1.unique hnear, List.getElem?_map, hi₀]; simp [sub_nan_left]

/-- **C35**: in particular the value at lag zero (and at every negative lag) is NaN as soon as the row contains one
NaN. -/
theorem C35_nonpositive_lags (d : DS (Exact dm f32 ex)) (hd : Constructed d) (g : LagArgs (Exact dm f32 ex)) (wt : String)
    (r : AcResult (Exact dm f32 ex)) (hr : autocorrelation .fabs d g "natural" wt = .ok r)
    (hw : KnownWeight wt) (M : ℕ) (t : ℕ → K) (ht : d.timeseries = samples M t) (hinc : Increasing M t)
    (α : K) (hα : 0 < α) (ha : r.corr.alpha = .fin α)
    (j : ℕ) (row : List (Exact dm f32 ex)) (hrow : d.HasRow j row) (hnan : .nan ∈ row)
    (n : ℕ) (k : K) (hk : k ≤ 0) (hn : r.lags[n]? = some (.fin k)) : r.At j n (.fin k) .nan := by
  obtain ⟨i₀, hi₀⟩ := List.mem_iff_getElem?.1 hnan
  obtain ⟨hM, _, hdM⟩ := built_times hd ht
  have hlen : row.length = M := by
    obtain ⟨t', data, err, N, _, hb⟩ := hd.built
    obtain ⟨hj, he⟩ := hb.row hrow
    have := congrArg List.length he
    rw [rowOf_length hb.hsize hj] at this
    rw [← this, ← hb.hM, hdM]
  have hi : i₀ < M := by
    rw [List.getElem?_eq_some_iff] at hi₀
    obtain ⟨h, _⟩ := hi₀
    omega
  refine C35_poisoned d hd g wt r hr hw M t ht hinc α hα ha j row hrow i₀ hi₀ n k hn ⟨i₀, hi, ?_, Or.inl rfl⟩
  have := hinc.le (show i₀ ≤ M - 1 by omega) (by omega)
  linarith

/-- one NaN in five samples: every lag up to 2 is NaN -/
example : ((mkFlat (q [0, 1, 2, 3, 4]) [.fin 1, .fin 0, .nan, .fin 0, .fin 2]).bind fun d =>
    (autocorrelation .fabs d { minLag := some (.fin (-2)) }).bind fun r => .ok (r.lags, r.corrs))
      = .ok (q [-2, -1, 0, 1, 2, 3, 4],
        .flat [.nan, .nan, .nan, .nan, .nan, .fin (-9/22), .fin (5/44)]) := by
  decide +kernel

end Sacf
