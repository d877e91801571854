import Verif.Props.Stability

/-!
# Correlations of a regular series are positive semidefinite (C80)

So a power spectrum computed from them is nowhere negative.
-/

set_option linter.unusedSectionVars false

namespace Sacf

open Finset

section exact
variable {K : Type} [Field K] [LinearOrder K] [IsStrictOrderedRing K] [FloorRing K]
variable {dm : K} {f32 ex : K → K}
variable {d : DS (Exact dm f32 ex)} {g : LagArgs (Exact dm f32 ex)} {wt : String} {r : AcResult (Exact dm f32 ex)}
  {M : ℕ} {j : ℕ} {x : ℕ → K} {α : K}

/-- `f`, moved to start at `n` and zero elsewhere -/
def shifted0 (f : ℕ → K) (M n u : ℕ) : K := if n ≤ u ∧ u < n + M then f (u - n) else 0

theorem shifted0_sum (f : ℕ → K) {M n a m : ℕ} (h : a + m ≤ n) :
    ∑ u ∈ range (M + n), shifted0 f M n (u + a) * shifted0 f M n (u + (a + m)) = ∑ i ∈ range (M - m), f i * f (i + m) := by
  symm
  apply Finset.sum_of_injOn (fun i => i + (n - a))
  · intro i _ i' _ h; simpa using h
  · intro i hi
    have hi : i < M - m := by simpa using hi
    simp only [Finset.coe_range, Set.mem_Iio]
    omega
  · intro u hu hnot
    have hu := Finset.mem_range.1 hu
    unfold shifted0
    by_cases h1 : n ≤ u + a ∧ u + a < n + M
    · by_cases h2 : n ≤ u + (a + m) ∧ u + (a + m) < n + M
      · exfalso
        apply hnot
        refine ⟨u - (n - a), ?_, ?_⟩
        · simp only [Finset.coe_range, Set.mem_Iio]; omega
        · dsimp only; omega
      · rw [if_neg h2, mul_zero]
    · rw [if_neg h1, zero_mul]
  · intro i hi
    have hi := Finset.mem_range.1 hi
    unfold shifted0
    rw [if_pos (by omega), if_pos (by omega)]
    congr 2 <;> omega

/-- the matrix of the sums at all distances is a Gram matrix -/
theorem gram_nonneg (f : ℕ → K) (M n : ℕ) (c : ℕ → K) :
    0 ≤ ∑ a ∈ range n, ∑ b ∈ range n, c a * c b * ∑ i ∈ range (M - ((a - b) + (b - a))), f i * f (i + ((a - b) + (b - a))) := by
  have e : ∑ a ∈ range n, ∑ b ∈ range n, c a * c b * ∑ i ∈ range (M - ((a - b) + (b - a))), f i * f (i + ((a - b) + (b - a)))
      = ∑ u ∈ range (M + n), (∑ a ∈ range n, c a * shifted0 f M n (u + a)) ^ 2 := by
    have e1 : ∀ a ∈ range n, ∀ b ∈ range n, c a * c b * ∑ i ∈ range (M - ((a - b) + (b - a))), f i * f (i + ((a - b) + (b - a)))
        = ∑ u ∈ range (M + n), (c a * shifted0 f M n (u + a)) * (c b * shifted0 f M n (u + b)) := by
      intro a ha b hb
      have ha := Finset.mem_range.1 ha
      have hb := Finset.mem_range.1 hb
      have e2 : ∑ i ∈ range (M - ((a - b) + (b - a))), f i * f (i + ((a - b) + (b - a)))
          = ∑ u ∈ range (M + n), shifted0 f M n (u + a) * shifted0 f M n (u + b) := by
        rcases Nat.le_total a b with h | h
        · have := shifted0_sum f (M := M) (n := n) (a := a) (m := b - a) (by omega)
          rw [show a + (b - a) = b by omega] at this
          rw [this, show a - b + (b - a) = b - a by omega]
        · have := shifted0_sum f (M := M) (n := n) (a := b) (m := a - b) (by omega)
          rw [show b + (a - b) = a by omega] at this
          rw [show a - b + (b - a) = a - b by omega, ← this]
          exact Finset.sum_congr rfl fun u _ => mul_comm _ _
      rw [e2, Finset.mul_sum]
      exact Finset.sum_congr rfl fun u _ => by ring
    rw [Finset.sum_congr rfl fun a ha => Finset.sum_congr rfl fun b hb => e1 a ha b hb]
    rw [Finset.sum_congr rfl fun a _ => Finset.sum_comm, Finset.sum_comm]
    apply Finset.sum_congr rfl
    intro u _
    rw [pow_two, Finset.sum_mul_sum]
  rw [e]
  exact Finset.sum_nonneg fun u _ => sq_nonneg _

theorem autoCov_psd (x : ℕ → K) (M n : ℕ) (c : ℕ → K) :
    0 ≤ ∑ a ∈ range n, ∑ b ∈ range n, c a * c b * (autoCov M x ((a - b) + (b - a)) / sumSq M x) := by
  have h := gram_nonneg (dev M x) M n c
  have hS : 0 ≤ sumSq M x := Finset.sum_nonneg fun i _ => sq_nonneg _
  have e : ∑ a ∈ range n, ∑ b ∈ range n, c a * c b * (autoCov M x ((a - b) + (b - a)) / sumSq M x)
      = (∑ a ∈ range n, ∑ b ∈ range n, c a * c b * autoCov M x ((a - b) + (b - a))) * (sumSq M x)⁻¹ := by
    simp only [Finset.sum_mul]
    exact Finset.sum_congr rfl fun a _ => Finset.sum_congr rfl fun b _ => by rw [div_eq_mul_inv]; ring
  rw [e]
  exact mul_nonneg h (inv_nonneg.2 hS)

/-- **C80**: on a regular grid the matrix with the correlation at `|a - b|` steps in place `(a, b)` is positive semidefinite. -/
theorem C80_semidefinite {t0 δ : K} (h : NaturalRun d g wt r M (fun i : ℕ => t0 + i * δ) j x α) (hδ : 0 < δ)
    (hf : ∀ i < M, f32 (x i) = x i) (hv : sumSq M x ≠ 0) (he : wt = "gaussian" → ex 0 = 1)
    (pos : ℕ → ℕ) (hpos : ∀ m < M, r.lags[pos m]? = some (.fin (m * δ))) :
    ∃ v : ℕ → K, (∀ m < M, r.At j (pos m) (.fin (m * δ)) (.fin (v m))) ∧
      ∀ n ≤ M, ∀ c : ℕ → K, 0 ≤ ∑ a ∈ range n, ∑ b ∈ range n, c a * c b * v ((a - b) + (b - a)) :=
  ⟨fun m => autoCov M x m / sumSq M x, fun m hm => C30_regular h hδ hf hv he m _ hm (hpos m hm), fun n _ c => autoCov_psd x M n c⟩

end exact

/-- Regular spacing is needed: here the correlation at lag 20 is above 1, so that the matrix for the steps 0 and 20 has a negative value for `c = (1, -1)`. -/
theorem C80_irregular : ∃ v0 v1 : ℚ, ((mkFlat (q [0, 1, 2, 21, 100, 101, 102, 122]) (q [1, 1, 1, 2, -1, -1, -1, -2])).bind fun d =>
    (autocorrelation .fabs d ⟨some (.fin 20), some (.fin 20), none, some (.fin 1000)⟩).bind fun r =>
      .ok (r.lags, r.corrs)) = .ok (q [0, 20], .flat (q [v0, v1])) ∧ 1 * 1 * v0 + 1 * (-1) * v1 + (-1) * 1 * v1 + (-1) * (-1) * v0 < 0 :=
  ⟨1, 22609078/19892873, by decide +kernel, by norm_num⟩

section binary64
variable {ex : ℚ → ℚ} {fu : Bool} {d : DS (D64 ex fu)} {M j : ℕ} {e : ℤ} {x : ℕ → ℚ} {A V : ℚ}

/-- **C80 in binary64**: the default call for a regular series; the quadratic form is not below minus the square of `Σ |c|` times the error bound. -/
theorem C80_binary64 {a p : ℤ} (ht : Regular64 d M a p e) (hv : Values64 d M j x A V) :
    ∃ r, autocorrelation .fabs d {} "natural" "fractional" = .ok r ∧ ∃ v : ℕ → ℚ,
      (∀ m < M, r.At j (M - 1 + m) (.fin ((m * p : ℤ) * pow2 e)) (.fin (v m))) ∧
      ∀ n ≤ M, ∀ c : ℕ → ℚ, -(500 * V * (M * A ^ 2 / sumSq M x)) * (∑ a ∈ range n, |c a|) ^ 2
        ≤ ∑ a ∈ range n, ∑ b ∈ range n, c a * c b * v ((a - b) + (b - a)) := by
  obtain ⟨hN, hV0, r, hr, h1⟩ := ht.result hv
  choose! v h2 using h1
  refine ⟨r, hr, v, fun m hm => (h2 m hm).1, fun n hn c => ?_⟩
  have h := autoCov_psd x M n c
  set E := 500 * V * (M * A ^ 2 / sumSq M x) with hE
  have e1 : ∑ a ∈ range n, ∑ b ∈ range n, c a * c b * v ((a - b) + (b - a))
      = ∑ a ∈ range n, ∑ b ∈ range n, c a * c b * (autoCov M x ((a - b) + (b - a)) / sumSq M x)
        + ∑ a ∈ range n, ∑ b ∈ range n, c a * c b * (v ((a - b) + (b - a)) - autoCov M x ((a - b) + (b - a)) / sumSq M x) := by
    rw [← Finset.sum_add_distrib]
    refine Finset.sum_congr rfl fun a _ => ?_
    rw [← Finset.sum_add_distrib]
    exact Finset.sum_congr rfl fun b _ => by ring
  have e2 : E * (∑ a ∈ range n, |c a|) ^ 2 = ∑ a ∈ range n, ∑ b ∈ range n, |c a| * |c b| * E := by
    rw [pow_two, Finset.sum_mul_sum, Finset.mul_sum]
    refine Finset.sum_congr rfl fun a _ => ?_
    rw [Finset.mul_sum]
    exact Finset.sum_congr rfl fun b _ => by ring
  have h3 : |∑ a ∈ range n, ∑ b ∈ range n, c a * c b * (v ((a - b) + (b - a)) - autoCov M x ((a - b) + (b - a)) / sumSq M x)|
      ≤ E * (∑ a ∈ range n, |c a|) ^ 2 := by
    rw [e2]
    refine (Finset.abs_sum_le_sum_abs _ _).trans (Finset.sum_le_sum fun a ha => ?_)
    refine (Finset.abs_sum_le_sum_abs _ _).trans (Finset.sum_le_sum fun b hb => ?_)
    have ha := Finset.mem_range.1 ha
    have hb := Finset.mem_range.1 hb
    rw [abs_mul, abs_mul]
    exact mul_le_mul_of_nonneg_left (h2 _ (by omega)).2 (by positivity)
  have h4 := neg_le_of_abs_le h3
  rw [e1]
  linarith

end binary64

/-! ### cases -/

/-- C80_semidefinite: values 1, 2, 6, 3 at times 0, 1, 2, 3; with `c = (1, 2, -1, 1)` -/
example : ∃ (r : AcResult Q) (v : ℕ → ℚ), (∀ m < 4, r.At 0 (3 + m) (.fin (m * 1)) (.fin (v m))) ∧
    0 ≤ ∑ a ∈ range 4, ∑ b ∈ range 4, ([1, 2, -1, 1].getD a 0 : ℚ) * [1, 2, -1, 1].getD b 0 * v ((a - b) + (b - a)) := by
  obtain ⟨d, r, h, hl⟩ := regular_witness wX' 1 one_pos (by decide +kernel)
  obtain ⟨v, h1, h2⟩ := C80_semidefinite h one_pos (fun _ _ => rfl) (by decide +kernel) (by decide) (fun m => 3 + m) (by
    intro m hm
    rw [hl]
    interval_cases m <;> decide +kernel)
  exact ⟨r, v, h1, h2 4 le_rfl _⟩

/-- C80_binary64: the same values at times 5, 8, 11, 14 -/
example : ∃ (d : DS B) (r : AcResult B), autocorrelation .fabs d = .ok r ∧ ∃ v : ℕ → ℚ,
    (∀ m < 4, r.At 0 (3 + m) (.fin ((m * 3 : ℤ) * pow2 0)) (.fin (v m))) ∧
    -pow2 (-30) ≤ ∑ a ∈ range 4, ∑ b ∈ range 4, ([1, 2, -1, 1].getD a 0 : ℚ) * [1, 2, -1, 1].getD b 0 * v ((a - b) + (b - a)) := by
  obtain ⟨d, hc, ht, hrow⟩ := signal_object wX'
  obtain ⟨r, hr, v, h1, h2⟩ := C80_binary64 (signal_times hc ht) (A := 8) (V := pow2 (-51)) ⟨hrow, by decide +kernel, by decide +kernel,
    by decide +kernel, by decide +kernel, by decide +kernel, .inr (by decide +kernel), by decide +kernel⟩
  exact ⟨d, r, hr, v, h1, le_trans (by decide +kernel) (h2 4 le_rfl _)⟩

end Sacf
