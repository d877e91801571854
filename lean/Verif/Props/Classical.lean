import Verif.Props.Shapes
import Mathlib.Analysis.SpecialFunctions.Trigonometric.Basic

/-!
# Sums of signals (C94), padding and interleaving with the mean (C95), the structure function (C96), bounds by the number of lags that fit (C97)

In exact arithmetic and, with the error bound of C61, in binary64.
-/

set_option linter.unusedSectionVars false

namespace Sacf

open Finset

section exact
variable {K : Type} [Field K] [LinearOrder K] [IsStrictOrderedRing K] [FloorRing K]
variable {dm : K} {f32 ex : K → K}
variable {d₁ d₂ d₃ d₄ : DS (Exact dm f32 ex)} {g₁ g₂ g₃ g₄ : LagArgs (Exact dm f32 ex)} {wt wt' : String} {r₁ r₂ r₃ r₄ : AcResult (Exact dm f32 ex)}
  {M M' : ℕ} {t : ℕ → K} {j₁ j₂ j₃ j₄ : ℕ} {x y z u : ℕ → K} {α α' : K}

/-! ## C94: sums of signals -/

theorem dev_add (hz : ∀ i < M, z i = x i + y i) {i : ℕ} (hi : i < M) : dev M z i = dev M x i + dev M y i := by
  have e : mean M z = mean M x + mean M y := by
    unfold mean
    rw [Finset.sum_congr rfl fun i hi => hz i (Finset.mem_range.1 hi), Finset.sum_add_distrib, add_div]
  unfold dev
  rw [e, hz i hi]
  ring

theorem dev_sub (hz : ∀ i < M, z i = x i - y i) {i : ℕ} (hi : i < M) : dev M z i = dev M x i - dev M y i := by
  have e : mean M z = mean M x - mean M y := by
    unfold mean
    rw [Finset.sum_congr rfl fun i hi => hz i (Finset.mem_range.1 hi), Finset.sum_sub_distrib, sub_div]
  unfold dev
  rw [e, hz i hi]
  ring

/-- what two series have in common at lag `k`: each sample of one with the selected sample of the other -/
def crossSum (M : ℕ) (t x y : ℕ → K) (w : K → K) (s : ℕ → ℕ) (k : K) : K :=
  ∑ i ∈ range M with t i + k ≤ t (M - 1), w |t (s i) - (t i + k)| * (dev M x i * dev M y (s i) + dev M y i * dev M x (s i))

theorem sacf_one_mul {w : K → K} {s : ℕ → ℕ} {k nrm : K} (hn : nrm ≠ 0) : sacf M t x w s nrm k * nrm = sacf M t x w s 1 k := by
  unfold sacf
  rw [div_mul_cancel₀ _ hn, div_one]

theorem sacf_add {w : K → K} {s : ℕ → ℕ} {k : K} (hs : Selects M t k s) (hz : ∀ i < M, z i = x i + y i) :
    sacf M t z w s 1 k = sacf M t x w s 1 k + sacf M t y w s 1 k + crossSum M t x y w s k := by
  unfold sacf crossSum
  rw [div_one, div_one, div_one, ← Finset.sum_add_distrib, ← Finset.sum_add_distrib]
  refine Finset.sum_congr rfl fun i hi => ?_
  rw [Finset.mem_filter, Finset.mem_range] at hi
  rw [dev_add hz hi.1, dev_add hz (hs i hi.1 hi.2).1]
  ring

theorem sacf_difference {w : K → K} {s : ℕ → ℕ} {k : K} (hs : Selects M t k s) (hz : ∀ i < M, z i = x i - y i) :
    sacf M t z w s 1 k = sacf M t x w s 1 k + sacf M t y w s 1 k - crossSum M t x y w s k := by
  unfold sacf crossSum
  rw [div_one, div_one, div_one, ← Finset.sum_add_distrib, ← Finset.sum_sub_distrib]
  refine Finset.sum_congr rfl fun i hi => ?_
  rw [Finset.mem_filter, Finset.mem_range] at hi
  rw [dev_sub hz hi.1, dev_sub hz (hs i hi.1 hi.2).1]
  ring

/-- **C94**: the sum of two series, on any times, with any weight function.  Correlations times sums of squares add up, but for what the two series have in common
at the lag; so without anything in common at the lag and at lag 0 the correlation of the sum is the mean of the two, weighted by the sums of squares. -/
theorem C94_sum (h₁ : NaturalRun d₁ g₁ wt r₁ M t j₁ x α) (h₂ : NaturalRun d₂ g₂ wt r₂ M t j₂ y α) (h₃ : NaturalRun d₃ g₃ wt r₃ M t j₃ z α)
    (hz : ∀ i < M, z i = x i + y i) (f₁ : ∀ i < M, f32 (x i) = x i) (f₂ : ∀ i < M, f32 (y i) = y i) (f₃ : ∀ i < M, f32 (z i) = z i)
    (v₁ : sumSq M x ≠ 0) (v₂ : sumSq M y ≠ 0) (v₃ : sumSq M z ≠ 0) (k : K) (n₁ n₂ n₃ : ℕ) (l₁ : r₁.lags[n₁]? = some (.fin k))
    (l₂ : r₂.lags[n₂]? = some (.fin k)) (l₃ : r₃.lags[n₃]? = some (.fin k)) (s : ℕ → ℕ) (hs : Selects M t k s) :
    ∃ a b c, r₁.At j₁ n₁ (.fin k) (.fin a) ∧ r₂.At j₂ n₂ (.fin k) (.fin b) ∧ r₃.At j₃ n₃ (.fin k) (.fin c) ∧
      c * sumSq M z = a * sumSq M x + b * sumSq M y
        + ∑ i ∈ range M with t i + k ≤ t (M - 1), weight ex wt α |t (s i) - (t i + k)| * (dev M x i * dev M y (s i) + dev M y i * dev M x (s i)) ∧
      ((∑ i ∈ range M with t i + k ≤ t (M - 1),
          weight ex wt α |t (s i) - (t i + k)| * (dev M x i * dev M y (s i) + dev M y i * dev M x (s i))) = 0 →
        ∑ i ∈ range M, dev M x i * dev M y i = 0 → c = (a * sumSq M x + b * sumSq M y) / (sumSq M x + sumSq M y)) := by
  have e : sacf M t z (weight ex wt α) s (sumSq M z) k * sumSq M z = sacf M t x (weight ex wt α) s (sumSq M x) k * sumSq M x
      + sacf M t y (weight ex wt α) s (sumSq M y) k * sumSq M y + crossSum M t x y (weight ex wt α) s k := by
    rw [sacf_one_mul v₁, sacf_one_mul v₂, sacf_one_mul v₃, sacf_add hs hz]
  refine ⟨_, _, _, C47_formula h₁ f₁ v₁ n₁ k l₁ s hs, C47_formula h₂ f₂ v₂ n₂ k l₂ s hs, C47_formula h₃ f₃ v₃ n₃ k l₃ s hs, e, fun h0 h00 => ?_⟩
  have e3 : sumSq M z = sumSq M x + sumSq M y := by
    unfold sumSq
    have : ∀ i ∈ range M, dev M z i ^ 2 = dev M x i ^ 2 + dev M y i ^ 2 + 2 * (dev M x i * dev M y i) := fun i hi => by
      rw [dev_add hz (Finset.mem_range.1 hi)]; ring
    rw [Finset.sum_congr rfl this, Finset.sum_add_distrib, Finset.sum_add_distrib, ← Finset.mul_sum, h00, mul_zero, add_zero]
  rw [← e3, eq_div_iff v₃, e]
  unfold crossSum
  rw [h0, add_zero]

/-- **C94**: sum and difference of two series (parallelogram law). -/
theorem C94_parallelogram (h₁ : NaturalRun d₁ g₁ wt r₁ M t j₁ x α) (h₂ : NaturalRun d₂ g₂ wt r₂ M t j₂ y α) (h₃ : NaturalRun d₃ g₃ wt r₃ M t j₃ z α)
    (h₄ : NaturalRun d₄ g₄ wt r₄ M t j₄ u α) (hz : ∀ i < M, z i = x i + y i) (hu : ∀ i < M, u i = x i - y i)
    (f₁ : ∀ i < M, f32 (x i) = x i) (f₂ : ∀ i < M, f32 (y i) = y i) (f₃ : ∀ i < M, f32 (z i) = z i) (f₄ : ∀ i < M, f32 (u i) = u i)
    (v₁ : sumSq M x ≠ 0) (v₂ : sumSq M y ≠ 0) (v₃ : sumSq M z ≠ 0) (v₄ : sumSq M u ≠ 0) (k : K) (n₁ n₂ n₃ n₄ : ℕ)
    (l₁ : r₁.lags[n₁]? = some (.fin k)) (l₂ : r₂.lags[n₂]? = some (.fin k)) (l₃ : r₃.lags[n₃]? = some (.fin k)) (l₄ : r₄.lags[n₄]? = some (.fin k)) :
    ∃ a b c e, r₁.At j₁ n₁ (.fin k) (.fin a) ∧ r₂.At j₂ n₂ (.fin k) (.fin b) ∧ r₃.At j₃ n₃ (.fin k) (.fin c) ∧ r₄.At j₄ n₄ (.fin k) (.fin e) ∧
      c * sumSq M z + e * sumSq M u = 2 * (a * sumSq M x + b * sumSq M y) := by
  obtain ⟨s, hs⟩ := selects_exists M t k
  refine ⟨_, _, _, _, C47_formula h₁ f₁ v₁ n₁ k l₁ s hs, C47_formula h₂ f₂ v₂ n₂ k l₂ s hs, C47_formula h₃ f₃ v₃ n₃ k l₃ s hs,
    C47_formula h₄ f₄ v₄ n₄ k l₄ s hs, ?_⟩
  rw [sacf_one_mul v₁, sacf_one_mul v₂, sacf_one_mul v₃, sacf_one_mul v₄, sacf_add hs hz, sacf_difference hs hu]
  ring

/-! ## C95: padding and interleaving with the mean -/

/-- `z` is `x` placed at the indices `a`, `a + b`, `a + 2 b`, … of `M'` samples, with the mean of `x` everywhere else -/
structure Placed (M M' a b : ℕ) (x z : ℕ → K) : Prop where
  step : 0 < b
  pos : 0 < M
  fits : a + b * (M - 1) < M'
  value : ∀ i < M, z (a + b * i) = x i
  rest : ∀ i' < M', (∀ i < M, i' ≠ a + b * i) → z i' = mean M x

theorem sum_placed {a b L N : ℕ} {f : ℕ → K} (hb : 0 < b) (hL : ∀ i < L, a + b * i < N) (h0 : ∀ i' < N, (∀ i < L, i' ≠ a + b * i) → f i' = 0) :
    ∑ i ∈ range N, f i = ∑ i ∈ range L, f (a + b * i) := by
  rw [← Finset.sum_image (s := range L) (g := fun i => a + b * i) (f := f) fun i _ i' _ h => Nat.eq_of_mul_eq_mul_left hb (by simpa using h)]
  refine (Finset.sum_subset ?_ ?_).symm
  · intro i' hi'
    obtain ⟨i, hi, rfl⟩ := Finset.mem_image.1 hi'
    exact Finset.mem_range.2 (hL i (Finset.mem_range.1 hi))
  · intro i' hi' hn
    refine h0 i' (Finset.mem_range.1 hi') fun i hi he => hn ?_
    exact Finset.mem_image.2 ⟨i, Finset.mem_range.2 hi, he.symm⟩

section placed
variable {a b : ℕ} (hp : Placed M M' a b x z)
include hp

theorem Placed.lt {i : ℕ} (hi : i < M) : a + b * i < M' := by
  have h1 : b * i ≤ b * (M - 1) := Nat.mul_le_mul_left b (by omega)
  have := hp.fits
  omega

theorem Placed.mean : mean M' z = mean M x := by
  have hM : (M : K) ≠ 0 := by exact_mod_cast hp.pos.ne'
  have hM' : (M' : K) ≠ 0 := by exact_mod_cast (by have := hp.fits; omega : M' ≠ 0)
  have h1 : ∑ i ∈ range M', (z i - Sacf.mean M x) = ∑ i ∈ range M, (x i - Sacf.mean M x) := by
    rw [sum_placed hp.step (fun i => hp.lt) (fun i' hi' hn => by rw [hp.rest i' hi' hn, sub_self])]
    exact Finset.sum_congr rfl fun i hi => by rw [hp.value i (Finset.mem_range.1 hi)]
  have h2 : ∑ i ∈ range M, (x i - Sacf.mean M x) = 0 := by
    rw [Finset.sum_sub_distrib, Finset.sum_const, Finset.card_range, nsmul_eq_mul]
    unfold Sacf.mean
    field_simp
    ring
  rw [h2, Finset.sum_sub_distrib, Finset.sum_const, Finset.card_range, nsmul_eq_mul, sub_eq_zero] at h1
  have e : Sacf.mean M' z = (∑ i ∈ range M', z i) / M' := rfl
  rw [e, h1]
  field_simp

theorem Placed.dev {i : ℕ} (hi : i < M) : dev M' z (a + b * i) = dev M x i := by
  unfold Sacf.dev
  rw [hp.mean, hp.value i hi]

theorem Placed.dev_rest {i' : ℕ} (hi' : i' < M') (hn : ∀ i < M, i' ≠ a + b * i) : Sacf.dev M' z i' = 0 := by
  unfold Sacf.dev
  rw [hp.mean, hp.rest i' hi' hn, sub_self]

theorem Placed.sumSq : sumSq M' z = sumSq M x := by
  unfold Sacf.sumSq
  rw [sum_placed hp.step (fun i => hp.lt) (fun i' hi' hn => by rw [hp.dev_rest hi' hn]; ring)]
  exact Finset.sum_congr rfl fun i hi => by rw [hp.dev (Finset.mem_range.1 hi)]

theorem Placed.autoCov {m : ℕ} (hm : m < M) : autoCov M' z (m * b) = autoCov M x m := by
  unfold Sacf.autoCov
  rw [sum_placed (L := M - m) hp.step]
  · refine Finset.sum_congr rfl fun i hi => ?_
    have hi := Finset.mem_range.1 hi
    have e : a + b * i + m * b = a + b * (i + m) := by ring
    rw [hp.dev (by omega), e, hp.dev (by omega)]
  · intro i hi
    have := hp.lt (i := i + m) (by omega)
    have e : b * (i + m) = b * i + m * b := by ring
    omega
  · intro i' hi' hn
    by_cases h1 : ∃ i < M, i' = a + b * i
    · obtain ⟨i, hi, rfl⟩ := h1
      have hi2 : M - m ≤ i := by
        by_contra hc
        exact hn i (by omega) rfl
      rw [hp.dev_rest (i' := a + b * i + m * b) (by omega), mul_zero]
      intro i2 hi2' he
      have e : a + b * i + m * b = a + b * (i + m) := by ring
      rw [e] at he
      have := Nat.eq_of_mul_eq_mul_left hp.step (Nat.add_left_cancel he)
      omega
    · push Not at h1
      rw [hp.dev_rest (by omega) h1, zero_mul]

theorem Placed.autoCov_rest {m' : ℕ} (hm' : ∀ m < M, m' ≠ m * b) : Sacf.autoCov M' z m' = 0 := by
  unfold Sacf.autoCov
  refine Finset.sum_eq_zero fun i' hi' => ?_
  have hi' := Finset.mem_range.1 hi'
  by_cases h1 : ∃ i < M, i' = a + b * i
  · obtain ⟨i, hi, rfl⟩ := h1
    rw [hp.dev_rest (i' := a + b * i + m') (by omega), mul_zero]
    intro i2 hi2 he
    have hle : i ≤ i2 := by
      by_contra hc
      have : b * i2 ≤ b * i := Nat.mul_le_mul_left b (by omega)
      have h0 : m' = 0 := by omega
      exact hm' 0 hp.pos (by omega)
    refine hm' (i2 - i) (by omega) ?_
    have e : b * i2 = b * i + (i2 - i) * b := by
      obtain ⟨c, rfl⟩ := Nat.exists_eq_add_of_le hle
      rw [Nat.add_sub_cancel_left]
      ring
    omega
  · push Not at h1
    rw [hp.dev_rest (by omega) h1, zero_mul]

end placed

/-- **C95**: padding a regular series with its mean, before and after, and placing it on a grid `b` times as fine with the mean in between, does not change the
correlations at the lags of the series; those at all other lags `≥ 0` of the finer and longer grid are zero. -/
theorem C95_padding {t0 t0' δ : K} {a b : ℕ} (h₁ : NaturalRun d₁ g₁ wt r₁ M (fun i : ℕ => t0 + i * (b * δ)) j₁ x α)
    (h₂ : NaturalRun d₂ g₂ wt' r₂ M' (fun i : ℕ => t0' + i * δ) j₂ z α') (hδ : 0 < δ) (hp : Placed M M' a b x z)
    (f₁ : ∀ i < M, f32 (x i) = x i) (f₂ : ∀ i < M', f32 (z i) = z i) (hv : sumSq M x ≠ 0)
    (he : wt = "gaussian" → ex 0 = 1) (he' : wt' = "gaussian" → ex 0 = 1) :
    (∀ m n n', m < M → r₁.lags[n]? = some (.fin (m * (b * δ))) → r₂.lags[n']? = some (.fin ((m * b : ℕ) * δ)) →
      ∃ v, r₁.At j₁ n (.fin (m * (b * δ))) (.fin v) ∧ r₂.At j₂ n' (.fin ((m * b : ℕ) * δ)) (.fin v)) ∧
    ∀ m' n', m' < M' → (∀ m < M, m' ≠ m * b) → r₂.lags[n']? = some (.fin (m' * δ)) → r₂.At j₂ n' (.fin (m' * δ)) (.fin 0) := by
  have hb : (0 : K) < b := by exact_mod_cast hp.step
  have hv' : sumSq M' z ≠ 0 := by rw [hp.sumSq]; exact hv
  constructor
  · intro m n n' hm hn hn'
    refine ⟨_, C30_regular h₁ (mul_pos hb hδ) f₁ hv he m n hm hn, ?_⟩
    have h1 : m * b < M' := by
      have := hp.lt hm
      rw [Nat.mul_comm] at this
      omega
    have := C30_regular h₂ hδ f₂ hv' he' (m * b) n' h1 hn'
    rwa [hp.autoCov hm, hp.sumSq] at this
  · intro m' n' hm' hne hn'
    have := C30_regular h₂ hδ f₂ hv' he' m' n' hm' hn'
    rwa [hp.autoCov_rest hne, zero_div] at this

/-! ## C96: the structure function -/

theorem structure_quotient {m : ℕ} (hm : m < M) (hv : sumSq M x ≠ 0) :
    autoCov M x m / sumSq M x = 1 - (∑ i ∈ range (M - m), (x (i + m) - x i) ^ 2 + (∑ i ∈ range m, dev M x i ^ 2 + ∑ i ∈ range m, dev M x (M - m + i) ^ 2))
      / (2 * sumSq M x) := by
  have e0 : ∀ i ∈ range (M - m), (x (i + m) - x i) ^ 2 = dev M x (i + m) ^ 2 + dev M x i ^ 2 - 2 * (dev M x i * dev M x (i + m)) := fun i _ => by
    unfold dev; ring
  have e1 : sumSq M x = ∑ i ∈ range (M - m), dev M x i ^ 2 + ∑ i ∈ range m, dev M x (M - m + i) ^ 2 := by
    unfold sumSq
    rw [← Finset.sum_range_add (fun i => dev M x i ^ 2)]
    congr 2
    omega
  have e2 : sumSq M x = ∑ i ∈ range m, dev M x i ^ 2 + ∑ i ∈ range (M - m), dev M x (i + m) ^ 2 := by
    unfold sumSq
    have : ∀ i ∈ range (M - m), dev M x (i + m) ^ 2 = dev M x (m + i) ^ 2 := fun i _ => by rw [Nat.add_comm]
    rw [Finset.sum_congr rfl this, ← Finset.sum_range_add (fun i => dev M x i ^ 2)]
    congr 2
    omega
  rw [Finset.sum_congr rfl e0, Finset.sum_sub_distrib, Finset.sum_add_distrib, ← Finset.mul_sum]
  change _ = 1 - (_ - 2 * autoCov M x m + _) / _
  rw [eq_sub_iff_add_eq, div_add_div _ _ hv (mul_ne_zero two_ne_zero hv), div_eq_one_iff_eq (mul_ne_zero hv (mul_ne_zero two_ne_zero hv))]
  have e3 : ∑ i ∈ range (M - m), dev M x (i + m) ^ 2 + ∑ i ∈ range (M - m), dev M x i ^ 2
      + (∑ i ∈ range m, dev M x i ^ 2 + ∑ i ∈ range m, dev M x (M - m + i) ^ 2) = 2 * sumSq M x := by linarith
  have e4 : ∑ i ∈ range (M - m), dev M x (i + m) ^ 2 + ∑ i ∈ range (M - m), dev M x i ^ 2 - 2 * autoCov M x m
      + (∑ i ∈ range m, dev M x i ^ 2 + ∑ i ∈ range m, dev M x (M - m + i) ^ 2) = 2 * sumSq M x - 2 * autoCov M x m := by linarith
  rw [e4]
  ring

/-- **C96**: regular grid.  The correlation at `m` steps is 1 less half the relative mean square difference over `m` steps, less half the share of the first and
the last `m` samples in the sum of squares; so the differences `x (i + m) - x i` are small where the correlation is near 1. -/
theorem C96_structure {t0 δ : K} (h : NaturalRun d₁ g₁ wt r₁ M (fun i : ℕ => t0 + i * δ) j₁ x α) (hδ : 0 < δ)
    (hf : ∀ i < M, f32 (x i) = x i) (hv : sumSq M x ≠ 0) (he : wt = "gaussian" → ex 0 = 1)
    (m n : ℕ) (hm : m < M) (hn : r₁.lags[n]? = some (.fin (m * δ))) :
    ∃ v, r₁.At j₁ n (.fin (m * δ)) (.fin v) ∧
      v = 1 - (∑ i ∈ range (M - m), (x (i + m) - x i) ^ 2 + (∑ i ∈ range m, dev M x i ^ 2 + ∑ i ∈ range m, dev M x (M - m + i) ^ 2)) / (2 * sumSq M x) ∧
      ∑ i ∈ range (M - m), (x (i + m) - x i) ^ 2 ≤ 2 * (1 - v) * sumSq M x := by
  refine ⟨_, C30_regular h hδ hf hv he m n hm hn, structure_quotient hm hv, ?_⟩
  rw [structure_quotient hm hv, sub_sub_cancel]
  have h1 : 0 ≤ ∑ i ∈ range m, dev M x i ^ 2 := Finset.sum_nonneg fun i _ => sq_nonneg _
  have h2 : 0 ≤ ∑ i ∈ range m, dev M x (M - m + i) ^ 2 := Finset.sum_nonneg fun i _ => sq_nonneg _
  set D := ∑ i ∈ range (M - m), (x (i + m) - x i) ^ 2
  set E := ∑ i ∈ range m, dev M x i ^ 2 + ∑ i ∈ range m, dev M x (M - m + i) ^ 2
  have e : 2 * ((D + E) / (2 * sumSq M x)) * sumSq M x = D + E := by field_simp
  rw [e]
  linarith

/-! ## C97: bounds by the number of lags that fit -/

theorem sum_ite_before {m : ℕ} (f : ℕ → K) : ∑ i ∈ range M, (if i + m < M then f i else 0) = ∑ i ∈ range (M - m), f i := by
  rw [← Finset.sum_filter]
  congr 1
  ext i
  simp only [Finset.mem_filter, Finset.mem_range]
  omega

theorem sum_ite_after {m : ℕ} (hm : m ≤ M) (f : ℕ → K) : ∑ i ∈ range M, (if m ≤ i then f i else 0) = ∑ i ∈ range (M - m), f (i + m) := by
  have e : range M = range (m + (M - m)) := by congr 1; omega
  rw [e, Finset.sum_range_add, Finset.sum_eq_zero fun i hi => if_neg (not_le.2 (Finset.mem_range.1 hi)), zero_add]
  exact Finset.sum_congr rfl fun i _ => by rw [if_pos (Nat.le_add_right m i), Nat.add_comm]

theorem chain_bound {m : ℕ} {c : K} (hm : m ≤ M) (hu : ∀ i < M, 0 < u i)
    (hrec : ∀ i < M, (if i + m < M then u (i + m) else 0) + (if m ≤ i then u (i - m) else 0) ≤ 2 * c * u i) :
    |∑ i ∈ range (M - m), y i * y (i + m)| ≤ c * ∑ i ∈ range M, y i ^ 2 := by
  have h1 : ∀ i ∈ range (M - m), |y i * y (i + m)| ≤ 1 / 2 * (u (i + m) / u i * y i ^ 2 + u i / u (i + m) * y (i + m) ^ 2) := by
    intro i hi
    have hi := Finset.mem_range.1 hi
    have p := hu i (by omega)
    have q := hu (i + m) (by omega)
    have e : u (i + m) / u i * y i ^ 2 + u i / u (i + m) * y (i + m) ^ 2 - 2 * |y i * y (i + m)|
        = (u (i + m) * |y i| - u i * |y (i + m)|) ^ 2 / (u i * u (i + m)) := by
      rw [abs_mul, sub_sq, mul_pow, mul_pow, sq_abs, sq_abs]
      field_simp
      ring
    have : 0 ≤ (u (i + m) * |y i| - u i * |y (i + m)|) ^ 2 / (u i * u (i + m)) := div_nonneg (sq_nonneg _) (mul_pos p q).le
    linarith
  refine (Finset.abs_sum_le_sum_abs _ _).trans ((Finset.sum_le_sum h1).trans ?_)
  rw [← Finset.mul_sum, Finset.sum_add_distrib]
  rw [← sum_ite_before (fun i => u (i + m) / u i * y i ^ 2)]
  have e2 : ∀ i ∈ range (M - m), u i / u (i + m) * y (i + m) ^ 2 = (fun i => u (i - m) / u i * y i ^ 2) (i + m) := fun i _ => by
    simp only [Nat.add_sub_cancel]
  rw [Finset.sum_congr rfl e2, ← sum_ite_after hm (fun i => u (i - m) / u i * y i ^ 2), ← Finset.sum_add_distrib, Finset.mul_sum, Finset.mul_sum]
  refine Finset.sum_le_sum fun i hi => ?_
  have hi := Finset.mem_range.1 hi
  have p := hu i hi
  have e3 : ((if i + m < M then u (i + m) / u i * y i ^ 2 else 0) + if m ≤ i then u (i - m) / u i * y i ^ 2 else 0)
      = ((if i + m < M then u (i + m) else 0) + (if m ≤ i then u (i - m) else 0)) / u i * y i ^ 2 := by
    split <;> split <;> ring
  rw [e3]
  have h2 : ((if i + m < M then u (i + m) else 0) + (if m ≤ i then u (i - m) else 0)) / u i ≤ 2 * c := (div_le_iff₀ p).2 (hrec i hi)
  have h3 := mul_le_mul_of_nonneg_right h2 (sq_nonneg (y i))
  linarith

theorem half_quotient {m : ℕ} (hm : m < M) (h2 : M ≤ 2 * m) (hv : sumSq M x ≠ 0) : |autoCov M x m / sumSq M x| ≤ 1 / 2 := by
  have hS : 0 < sumSq M x := lt_of_le_of_ne (Finset.sum_nonneg fun i _ => sq_nonneg _) (Ne.symm hv)
  rw [abs_div, abs_of_pos hS, div_le_iff₀ hS]
  refine chain_bound (u := fun _ => 1) (c := 1 / 2) hm.le (fun _ _ => one_pos) fun i hi => ?_
  by_cases h1 : i + m < M
  · rw [if_pos h1, if_neg (by omega)]; norm_num
  · rw [if_neg h1]
    split <;> norm_num

/-- **C97**: regular grid.  At lags of half the series and more no correlation exceeds 1/2 in size, whatever the values. -/
theorem C97_half {t0 δ : K} (h : NaturalRun d₁ g₁ wt r₁ M (fun i : ℕ => t0 + i * δ) j₁ x α) (hδ : 0 < δ)
    (hf : ∀ i < M, f32 (x i) = x i) (hv : sumSq M x ≠ 0) (he : wt = "gaussian" → ex 0 = 1)
    (m n : ℕ) (hm : m < M) (h2 : M ≤ 2 * m) (hn : r₁.lags[n]? = some (.fin (m * δ))) :
    ∃ v, r₁.At j₁ n (.fin (m * δ)) (.fin v) ∧ |v| ≤ 1 / 2 :=
  ⟨_, C30_regular h hδ hf hv he m n hm hn, half_quotient hm h2 hv⟩

/-- The bound is attained: values 1, 0, 0, -1 (and any with the first and last the only ones off the mean) at the longest lag. -/
theorem C97_attained {t0 δ : K} (h : NaturalRun d₁ g₁ wt r₁ M (fun i : ℕ => t0 + i * δ) j₁ x α) (hδ : 0 < δ) (hM : 2 ≤ M) (c b : K) (hb : b ≠ 0)
    (hx : ∀ i < M, x i = if i = 0 then c + b else if i = M - 1 then c - b else c)
    (hf : ∀ i < M, f32 (x i) = x i) (he : wt = "gaussian" → ex 0 = 1) (n : ℕ) (hn : r₁.lags[n]? = some (.fin ((M - 1 : ℕ) * δ))) :
    r₁.At j₁ n (.fin ((M - 1 : ℕ) * δ)) (.fin (-(1 / 2))) := by
  have hM0 : (M : K) ≠ 0 := by exact_mod_cast (by omega : M ≠ 0)
  have e0 : ∀ i ∈ range M, x i = c + ((if i = 0 then b else 0) - if i = M - 1 then b else 0) := by
    intro i hi
    rw [hx i (Finset.mem_range.1 hi)]
    by_cases h0 : i = 0
    · rw [if_pos h0, if_pos h0, if_neg (by omega)]; ring
    · rw [if_neg h0, if_neg h0]
      split <;> ring
  have hmean : mean M x = c := by
    unfold mean
    rw [Finset.sum_congr rfl e0, Finset.sum_add_distrib, Finset.sum_sub_distrib, Finset.sum_ite_eq', Finset.sum_ite_eq', if_pos (Finset.mem_range.2 (by omega)),
      if_pos (Finset.mem_range.2 (by omega)), sub_self, add_zero, Finset.sum_const, Finset.card_range, nsmul_eq_mul]
    field_simp
  have e1 : ∀ i < M, dev M x i = (if i = 0 then b else 0) - if i = M - 1 then b else 0 := by
    intro i hi
    unfold dev
    rw [hmean, e0 i (Finset.mem_range.2 hi)]
    ring
  have hs : sumSq M x = 2 * b ^ 2 := by
    unfold sumSq
    have e2 : ∀ i ∈ range M, dev M x i ^ 2 = (if i = 0 then b ^ 2 else 0) + if i = M - 1 then b ^ 2 else 0 := by
      intro i hi
      rw [e1 i (Finset.mem_range.1 hi)]
      by_cases h0 : i = 0
      · rw [if_pos h0, if_pos h0, if_neg (by omega), if_neg (by omega)]; ring
      · rw [if_neg h0, if_neg h0]
        split <;> ring
    rw [Finset.sum_congr rfl e2, Finset.sum_add_distrib, Finset.sum_ite_eq', Finset.sum_ite_eq', if_pos (Finset.mem_range.2 (by omega)),
      if_pos (Finset.mem_range.2 (by omega))]
    ring
  have hc : autoCov M x (M - 1) = -b ^ 2 := by
    unfold autoCov
    have : M - (M - 1) = 1 := by omega
    rw [this, Finset.sum_range_one, Nat.zero_add, e1 0 (by omega), e1 (M - 1) (by omega), if_pos rfl, if_neg (by omega), if_neg (by omega), if_pos rfl]
    ring
  have := C30_regular h hδ hf (by rw [hs]; exact mul_ne_zero two_ne_zero (pow_ne_zero 2 hb)) he (M - 1) n (by omega) hn
  rw [hc, hs] at this
  have e3 : -b ^ 2 / (2 * b ^ 2) = -(1 / 2) := by field_simp
  rwa [e3] at this

end exact

section trig

/-- the bound at lag `m` of `M` samples: `cos (π / (L + 1))`, with `L` the largest number of samples in steps of `m` -/
noncomputable def lagBound (M m : ℕ) : ℝ := Real.cos (Real.pi / (((M - 1) / m + 1 : ℕ) + 1))

theorem cos_quotient {x : ℕ → ℚ} {M m : ℕ} (hm0 : 0 < m) (hm : m < M) (hv : sumSq M x ≠ 0) :
    |((autoCov M x m / sumSq M x : ℚ) : ℝ)| ≤ lagBound M m := by
  set L := (M - 1) / m + 1 with hL
  set θ := Real.pi / ((L : ℝ) + 1) with hθ
  have hL0 : (0 : ℝ) < (L : ℝ) + 1 := by positivity
  have hθL : ((L : ℝ) + 1) * θ = Real.pi := by rw [hθ]; field_simp
  have hθ0 : 0 < θ := div_pos Real.pi_pos hL0
  have hidx : ∀ i < M, i / m + 1 ≤ L := fun i hi => Nat.succ_le_succ (Nat.div_le_div_right (by omega))
  have hS : 0 < sumSq M x := lt_of_le_of_ne (Finset.sum_nonneg fun i _ => sq_nonneg _) (Ne.symm hv)
  have hS' : (0 : ℝ) < (sumSq M x : ℚ) := by exact_mod_cast hS
  have key := chain_bound (K := ℝ) (y := fun i => ((dev M x i : ℚ) : ℝ)) (u := fun i => Real.sin (((i / m : ℕ) + 1 : ℝ) * θ)) (c := lagBound M m) hm.le
    (by
      intro i hi
      refine Real.sin_pos_of_pos_of_lt_pi (by positivity) ?_
      have h1 : ((i / m : ℕ) + 1 : ℝ) ≤ L := by exact_mod_cast hidx i hi
      rw [← hθL]
      nlinarith)
    (by
      intro i hi
      have e1 : (i + m) / m = i / m + 1 := Nat.add_div_right i hm0
      have hsum : Real.sin (((i / m : ℕ) + 1 + 1 : ℝ) * θ) + Real.sin (((i / m : ℕ) : ℝ) * θ) = 2 * lagBound M m * Real.sin (((i / m : ℕ) + 1 : ℝ) * θ) := by
        have a1 : ((i / m : ℕ) + 1 + 1 : ℝ) * θ = ((i / m : ℕ) + 1 : ℝ) * θ + θ := by ring
        have a2 : ((i / m : ℕ) : ℝ) * θ = ((i / m : ℕ) + 1 : ℝ) * θ - θ := by ring
        rw [a1, a2, Real.sin_add, Real.sin_sub]
        have : lagBound M m = Real.cos θ := rfl
        rw [this]
        ring
      rw [← hsum]
      refine add_le_add ?_ ?_
      · split
        · rw [e1]; push_cast; exact le_rfl
        · refine Real.sin_nonneg_of_nonneg_of_le_pi (by positivity) ?_
          have h1 : ((i / m : ℕ) + 1 : ℝ) ≤ L := by exact_mod_cast hidx i hi
          rw [← hθL]
          nlinarith
      · split
        · rename_i hmi
          have e2 : (i - m) / m + 1 = i / m := by
            conv_rhs => rw [← Nat.sub_add_cancel hmi]
            rw [Nat.add_div_right _ hm0]
          have e3 : (((i - m) / m : ℕ) + 1 : ℝ) = ((i / m : ℕ) : ℝ) := by exact_mod_cast e2
          rw [e3]
        · have e2 : i / m = 0 := Nat.div_eq_of_lt (by omega)
          rw [e2]
          simp)
  have e1 : ((autoCov M x m : ℚ) : ℝ) = ∑ i ∈ range (M - m), ((dev M x i : ℚ) : ℝ) * ((dev M x (i + m) : ℚ) : ℝ) := by
    unfold autoCov
    push_cast
    rfl
  have e2 : ((sumSq M x : ℚ) : ℝ) = ∑ i ∈ range M, ((dev M x i : ℚ) : ℝ) ^ 2 := by
    unfold sumSq
    push_cast
    rfl
  rw [Rat.cast_div, abs_div, abs_of_pos hS', div_le_iff₀ hS', e1, e2]
  exact key

variable {dm : ℚ} {f32 ex : ℚ → ℚ} {d : DS (Exact dm f32 ex)} {g : LagArgs (Exact dm f32 ex)} {wt : String} {r : AcResult (Exact dm f32 ex)}
  {M j : ℕ} {x : ℕ → ℚ} {α : ℚ}

/-- **C97**: regular grid of rational times, rational values.  At `m > 0` steps no correlation exceeds `cos (π / (⌊(M - 1) / m⌋ + 2))` in size: `cos (π / (M + 1))`
at one step, `1/2` from half the series on. -/
theorem C97_bound {t0 δ : ℚ} (h : NaturalRun d g wt r M (fun i : ℕ => t0 + i * δ) j x α) (hδ : 0 < δ)
    (hf : ∀ i < M, f32 (x i) = x i) (hv : sumSq M x ≠ 0) (he : wt = "gaussian" → ex 0 = 1)
    (m n : ℕ) (hm0 : 0 < m) (hm : m < M) (hn : r.lags[n]? = some (.fin (m * δ))) :
    ∃ v, r.At j n (.fin (m * δ)) (.fin v) ∧ |(v : ℝ)| ≤ Real.cos (Real.pi / (((M - 1) / m : ℕ) + 2)) := by
  refine ⟨_, C30_regular h hδ hf hv he m n hm hn, (cos_quotient hm0 hm hv).trans (le_of_eq ?_)⟩
  unfold lagBound
  congr 2
  push_cast
  ring

end trig

section binary64
variable {ex : ℚ → ℚ} {fu : Bool} {d₁ d₂ d₃ : DS (D64 ex fu)} {M M' j₁ j₂ j₃ : ℕ} {e e' : ℤ} {x y z : ℕ → ℚ} {A₁ A₂ A₃ V₁ V₂ V₃ : ℚ}

theorem autoCov_add (hz : ∀ i < M, z i = x i + y i) {m : ℕ} (hm : m < M) :
    autoCov M z m = autoCov M x m + autoCov M y m + ∑ i ∈ range (M - m), (dev M x i * dev M y (i + m) + dev M y i * dev M x (i + m)) := by
  unfold autoCov
  rw [← Finset.sum_add_distrib, ← Finset.sum_add_distrib]
  refine Finset.sum_congr rfl fun i hi => ?_
  have hi := Finset.mem_range.1 hi
  rw [dev_add hz (by omega), dev_add hz (by omega)]
  ring

theorem scaled_error {v c S E : ℚ} (hS : 0 < S) (h : |v - c / S| ≤ 500 * E * (1 / S)) : |v * S - c| ≤ 500 * E := by
  have e1 : v * S - c = (v - c / S) * S := by field_simp
  rw [e1, abs_mul, abs_of_pos hS]
  have := mul_le_mul_of_nonneg_right h hS.le
  have e2 : 500 * E * (1 / S) * S = 500 * E := by field_simp
  linarith

/-- **C94 in binary64**: default call on a regular grid. -/
theorem C94_binary64 {a p : ℤ} (t₁ : Regular64 d₁ M a p e) (t₂ : Regular64 d₂ M a p e) (t₃ : Regular64 d₃ M a p e) (v₁ : Values64 d₁ M j₁ x A₁ V₁)
    (v₂ : Values64 d₂ M j₂ y A₂ V₂) (v₃ : Values64 d₃ M j₃ z A₃ V₃) (hz : ∀ i < M, z i = x i + y i) :
    ∃ r₁ r₂ r₃, autocorrelation .fabs d₁ {} "natural" "fractional" = .ok r₁ ∧ autocorrelation .fabs d₂ {} "natural" "fractional" = .ok r₂ ∧
      autocorrelation .fabs d₃ {} "natural" "fractional" = .ok r₃ ∧ ∀ m < M, ∃ a b c : ℚ,
        r₁.At j₁ (M - 1 + m) (.fin ((m * p : ℤ) * pow2 e)) (.fin a) ∧ r₂.At j₂ (M - 1 + m) (.fin ((m * p : ℤ) * pow2 e)) (.fin b) ∧
        r₃.At j₃ (M - 1 + m) (.fin ((m * p : ℤ) * pow2 e)) (.fin c) ∧
        |c * sumSq M z - (a * sumSq M x + b * sumSq M y + ∑ i ∈ range (M - m), (dev M x i * dev M y (i + m) + dev M y i * dev M x (i + m)))|
          ≤ 500 * M * (V₁ * A₁ ^ 2 + V₂ * A₂ ^ 2 + V₃ * A₃ ^ 2) := by
  obtain ⟨S₁, _, r₁, hr₁, h₁⟩ := t₁.result v₁
  obtain ⟨S₂, _, r₂, hr₂, h₂⟩ := t₂.result v₂
  obtain ⟨S₃, _, r₃, hr₃, h₃⟩ := t₃.result v₃
  refine ⟨r₁, r₂, r₃, hr₁, hr₂, hr₃, fun m hm => ?_⟩
  obtain ⟨a, p₁, q₁⟩ := h₁ m hm
  obtain ⟨b, p₂, q₂⟩ := h₂ m hm
  obtain ⟨c, p₃, q₃⟩ := h₃ m hm
  refine ⟨a, b, c, p₁, p₂, p₃, ?_⟩
  have e1 : ∀ V A S : ℚ, 500 * V * (M * A ^ 2 / S) = 500 * (V * (M * A ^ 2)) * (1 / S) := fun V A S => by ring
  rw [e1] at q₁ q₂ q₃
  have k₁ := scaled_error S₁ q₁
  have k₂ := scaled_error S₂ q₂
  have k₃ := scaled_error S₃ q₃
  rw [autoCov_add hz hm] at k₃
  rw [abs_le] at *
  constructor <;> linarith [k₁.1, k₁.2, k₂.1, k₂.2, k₃.1, k₃.2]

/-- **C95 in binary64**: default calls; up to the error bounds of the two. -/
theorem C95_binary64 {a b : ℕ} {a₁ a₂ p₁ p₂ : ℤ} (t₁ : Regular64 d₁ M a₁ p₁ e) (t₂ : Regular64 d₂ M' a₂ p₂ e') (v₁ : Values64 d₁ M j₁ x A₁ V₁)
    (v₂ : Values64 d₂ M' j₂ z A₂ V₂) (hp : Placed M M' a b x z) :
    ∃ r₁ r₂, autocorrelation .fabs d₁ {} "natural" "fractional" = .ok r₁ ∧ autocorrelation .fabs d₂ {} "natural" "fractional" = .ok r₂ ∧
      (∀ m < M, ∃ v v' : ℚ, r₁.At j₁ (M - 1 + m) (.fin ((m * p₁ : ℤ) * pow2 e)) (.fin v) ∧
        r₂.At j₂ (M' - 1 + m * b) (.fin (((m * b : ℕ) * p₂ : ℤ) * pow2 e')) (.fin v') ∧
        |v - v'| ≤ 500 * (V₁ * (M * A₁ ^ 2) + V₂ * (M' * A₂ ^ 2)) / sumSq M x) ∧
      ∀ m' < M', (∀ m < M, m' ≠ m * b) → ∃ v' : ℚ,
        r₂.At j₂ (M' - 1 + m') (.fin ((m' * p₂ : ℤ) * pow2 e')) (.fin v') ∧ |v'| ≤ 500 * V₂ * (M' * A₂ ^ 2 / sumSq M x) := by
  obtain ⟨S₁, _, r₁, hr₁, h₁⟩ := t₁.result v₁
  obtain ⟨S₂, _, r₂, hr₂, h₂⟩ := t₂.result v₂
  refine ⟨r₁, r₂, hr₁, hr₂, fun m hm => ?_, fun m' hm' hne => ?_⟩
  · have h1 : m * b < M' := by
      have := hp.lt hm
      rw [Nat.mul_comm] at this
      omega
    obtain ⟨v, k₁, q₁⟩ := h₁ m hm
    obtain ⟨v', k₂, q₂⟩ := h₂ (m * b) h1
    rw [hp.autoCov hm, hp.sumSq] at q₂
    refine ⟨v, v', k₁, k₂, ?_⟩
    have e1 : 500 * (V₁ * (M * A₁ ^ 2) + V₂ * (M' * A₂ ^ 2)) / sumSq M x
        = 500 * V₁ * (M * A₁ ^ 2 / sumSq M x) + 500 * V₂ * (M' * A₂ ^ 2 / sumSq M x) := by ring
    rw [e1]
    rw [abs_le] at *
    constructor <;> linarith [q₁.1, q₁.2, q₂.1, q₂.2]
  · obtain ⟨v', k₂, q₂⟩ := h₂ m' hm'
    rw [hp.autoCov_rest hne, zero_div, sub_zero, hp.sumSq] at q₂
    exact ⟨v', k₂, q₂⟩

/-- **C96 in binary64**: default call. -/
theorem C96_binary64 {a p : ℤ} (ht : Regular64 d₁ M a p e) (hv : Values64 d₁ M j₁ x A₁ V₁) :
    ∃ r, autocorrelation .fabs d₁ {} "natural" "fractional" = .ok r ∧ ∀ m < M, ∃ v : ℚ,
      r.At j₁ (M - 1 + m) (.fin ((m * p : ℤ) * pow2 e)) (.fin v) ∧
      |v - (1 - (∑ i ∈ range (M - m), (x (i + m) - x i) ^ 2 + (∑ i ∈ range m, dev M x i ^ 2 + ∑ i ∈ range m, dev M x (M - m + i) ^ 2)) / (2 * sumSq M x))|
        ≤ 500 * V₁ * (M * A₁ ^ 2 / sumSq M x) := by
  obtain ⟨hN, _, r, hr, h1⟩ := ht.result hv
  refine ⟨r, hr, fun m hm => ?_⟩
  rw [← structure_quotient hm hN.ne']
  exact h1 m hm

/-- **C97 in binary64**: default call. -/
theorem C97_binary64 {a p : ℤ} (ht : Regular64 d₁ M a p e) (hv : Values64 d₁ M j₁ x A₁ V₁) :
    ∃ r, autocorrelation .fabs d₁ {} "natural" "fractional" = .ok r ∧ ∀ m, 0 < m → m < M → ∃ v : ℚ,
      r.At j₁ (M - 1 + m) (.fin ((m * p : ℤ) * pow2 e)) (.fin v) ∧
      |(v : ℝ)| ≤ Real.cos (Real.pi / (((M - 1) / m : ℕ) + 2)) + (500 * V₁ * (M * A₁ ^ 2 / sumSq M x) : ℚ) := by
  obtain ⟨hN, _, r, hr, h1⟩ := ht.result hv
  refine ⟨r, hr, fun m hm0 hm => ?_⟩
  obtain ⟨v, h2, h3⟩ := h1 m hm
  refine ⟨v, h2, ?_⟩
  have h4 := cos_quotient hm0 hm hN.ne'
  have e1 : lagBound M m = Real.cos (Real.pi / (((M - 1) / m : ℕ) + 2)) := by
    unfold lagBound
    congr 2
    push_cast
    ring
  rw [e1] at h4
  set ρ := autoCov M x m / sumSq M x
  have h5 : |(v : ℝ)| ≤ |(ρ : ℝ)| + |((v - ρ : ℚ) : ℝ)| := by
    have := abs_add_le (ρ : ℝ) ((v - ρ : ℚ) : ℝ)
    have e2 : (ρ : ℝ) + ((v - ρ : ℚ) : ℝ) = v := by push_cast; ring
    rwa [e2] at this
  have h6 : |((v - ρ : ℚ) : ℝ)| ≤ ((500 * V₁ * (M * A₁ ^ 2 / sumSq M x) : ℚ) : ℝ) := by
    rw [← Rat.cast_abs]
    exact Rat.cast_le.2 h3
  linarith

end binary64

end Sacf
