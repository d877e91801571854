import Verif.Props.GridAny

/-!
# The spectrum of the correlations is the periodogram of the values (C107)
-/

set_option linter.unusedSectionVars false

namespace Sacf

open Finset Real

theorem sq_sum_cos_sin (f : ℕ → ℝ) (M : ℕ) (ω : ℝ) :
    (∑ i ∈ range M, f i * cos (ω * i)) ^ 2 + (∑ i ∈ range M, f i * sin (ω * i)) ^ 2
      = ∑ i ∈ range M, f i ^ 2 + 2 * ∑ m ∈ Ico 1 M, (∑ i ∈ range (M - m), f i * f (i + m)) * cos (ω * m) := by
  rw [sq_sum_range (fun i => f i * cos (ω * i)) M, sq_sum_range (fun i => f i * sin (ω * i)) M]
  have e1 : ∑ i ∈ range M, (f i * cos (ω * i)) ^ 2 + ∑ i ∈ range M, (f i * sin (ω * i)) ^ 2 = ∑ i ∈ range M, f i ^ 2 := by
    rw [← sum_add_distrib]
    exact sum_congr rfl fun i _ => by linear_combination f i ^ 2 * cos_sq_add_sin_sq (ω * i)
  have e2 : ∑ m ∈ Ico 1 M, ∑ i ∈ range (M - m), f i * cos (ω * i) * (f (i + m) * cos (ω * (i + m : ℕ)))
      + ∑ m ∈ Ico 1 M, ∑ i ∈ range (M - m), f i * sin (ω * i) * (f (i + m) * sin (ω * (i + m : ℕ)))
      = ∑ m ∈ Ico 1 M, (∑ i ∈ range (M - m), f i * f (i + m)) * cos (ω * m) := by
    rw [← sum_add_distrib]
    refine sum_congr rfl fun m _ => ?_
    rw [← sum_add_distrib, sum_mul]
    refine sum_congr rfl fun i _ => ?_
    have e3 : ω * m = ω * (i + m : ℕ) - ω * i := by push_cast; ring
    rw [e3, cos_sub]
    ring
  rw [← e1, ← e2]
  ring

variable {M : ℕ} {x : ℕ → ℝ}

theorem autoCov_spectrum (hv : sumSq M x ≠ 0) (ω : ℝ) :
    1 + 2 * ∑ m ∈ Ico 1 M, autoCov M x m / sumSq M x * cos (ω * m)
      = ((∑ i ∈ range M, dev M x i * cos (ω * i)) ^ 2 + (∑ i ∈ range M, dev M x i * sin (ω * i)) ^ 2) / sumSq M x := by
  rw [sq_sum_cos_sin, eq_div_iff hv, add_mul, one_mul, mul_assoc, sum_mul]
  congr 2
  refine sum_congr rfl fun m _ => ?_
  unfold autoCov
  field_simp

/-- a harmonic of the series has no mean -/
theorem sum_cos_harmonic {k : ℕ} (hk : 0 < k) (hkM : k < M) (θ : ℝ) : ∑ i ∈ range M, cos (2 * π * k / M * i + θ) = 0 := by
  have hM : (0 : ℝ) < M := by exact_mod_cast hk.trans hkM
  have hk' : (0 : ℝ) < k := by exact_mod_cast hk
  have hkM' : (k : ℝ) < M := by exact_mod_cast hkM
  have hs : 0 < sin (π * k / M) := sin_pos_of_pos_of_lt_pi (by positivity) (by
    rw [div_lt_iff₀ hM]
    exact mul_lt_mul_of_pos_left hkM' pi_pos)
  have h := two_sin_mul_sum_cos (π * k / M) θ M
  rw [show 2 * (π * k / M) * (M : ℝ) + θ - π * k / M = θ - π * k / M + k * (2 * π) by field_simp; ring, sin_add_nat_mul_two_pi, sub_self] at h
  have e : ∀ i : ℕ, 2 * π * k / M * i + θ = 2 * (π * k / M) * i + θ := fun i => by ring
  rw [sum_congr rfl fun i _ => by rw [e i]]
  exact (mul_eq_zero.1 h).resolve_left (by positivity)

theorem sum_dev_cos_harmonic {k : ℕ} (hk : 0 < k) (hkM : k < M) (x : ℕ → ℝ) (θ : ℝ) :
    ∑ i ∈ range M, dev M x i * cos (2 * π * k / M * i + θ) = ∑ i ∈ range M, x i * cos (2 * π * k / M * i + θ) := by
  unfold dev
  simp only [sub_mul]
  rw [sum_sub_distrib, ← mul_sum, sum_cos_harmonic hk hkM, mul_zero, sub_zero]

section exact
variable {dm : ℝ} {f32 ex : ℝ → ℝ}
variable {d : DS (Exact dm f32 ex)} {g : LagArgs (Exact dm f32 ex)} {wt : String} {r : AcResult (Exact dm f32 ex)} {j : ℕ} {α t0 δ : ℝ}

/-- **C107**: on a regular grid the cosine sum over the correlations is the periodogram of the values with their mean removed, at every frequency `ω` (angle per step). -/
theorem C107_spectrum (h : NaturalRun d g wt r M (fun i : ℕ => t0 + i * δ) j x α) (hδ : 0 < δ)
    (hf : ∀ i < M, f32 (x i) = x i) (hv : sumSq M x ≠ 0) (he : wt = "gaussian" → ex 0 = 1)
    (pos : ℕ → ℕ) (hpos : ∀ m < M, r.lags[pos m]? = some (.fin (m * δ))) :
    ∃ v : ℕ → ℝ, (∀ m < M, r.At j (pos m) (.fin (m * δ)) (.fin (v m))) ∧
      ∀ ω, 1 + 2 * ∑ m ∈ Ico 1 M, v m * cos (ω * m)
        = ((∑ i ∈ range M, dev M x i * cos (ω * i)) ^ 2 + (∑ i ∈ range M, dev M x i * sin (ω * i)) ^ 2) / sumSq M x :=
  ⟨fun m => autoCov M x m / sumSq M x, fun m hm => C30_regular h hδ hf hv he m _ hm (hpos m hm), autoCov_spectrum hv⟩

/-- **C107** at the frequencies of a discrete Fourier transform: the mean need not be removed. -/
theorem C107_fourier (h : NaturalRun d g wt r M (fun i : ℕ => t0 + i * δ) j x α) (hδ : 0 < δ)
    (hf : ∀ i < M, f32 (x i) = x i) (hv : sumSq M x ≠ 0) (he : wt = "gaussian" → ex 0 = 1)
    (pos : ℕ → ℕ) (hpos : ∀ m < M, r.lags[pos m]? = some (.fin (m * δ))) :
    ∃ v : ℕ → ℝ, (∀ m < M, r.At j (pos m) (.fin (m * δ)) (.fin (v m))) ∧
      ∀ k, 0 < k → k < M → 1 + 2 * ∑ m ∈ Ico 1 M, v m * cos (2 * π * k / M * m)
        = ((∑ i ∈ range M, x i * cos (2 * π * k / M * i)) ^ 2 + (∑ i ∈ range M, x i * sin (2 * π * k / M * i)) ^ 2) / sumSq M x := by
  obtain ⟨v, h1, h2⟩ := C107_spectrum h hδ hf hv he pos hpos
  refine ⟨v, h1, fun k hk hkM => ?_⟩
  have e1 := sum_dev_cos_harmonic hk hkM x 0
  have e2 := sum_dev_cos_harmonic hk hkM x (-(π / 2))
  simp only [add_zero] at e1
  simp only [← sub_eq_add_neg, cos_sub_pi_div_two] at e2
  rw [h2, e1, e2]

end exact

section binary64
variable {ex : ℚ → ℚ} {fu : Bool} {d : DS (D64 ex fu)} {ga : LagArgs (D64 ex fu)} {wt : String} {r : AcResult (D64 ex fu)}
  {j : ℕ} {e : ℤ} {z : ℕ → ℚ} {A V α : ℚ}

theorem spectrum_error (hS : sumSq M z ≠ 0) {v : ℕ → ℚ} {E : ℚ} (h : ∀ m < M, |v m - autoCov M z m / sumSq M z| ≤ E) (ω : ℝ) :
    |1 + 2 * ∑ m ∈ Ico 1 M, (v m : ℝ) * cos (ω * m)
      - ((∑ i ∈ range M, ((dev M z i : ℚ) : ℝ) * cos (ω * i)) ^ 2 + (∑ i ∈ range M, ((dev M z i : ℚ) : ℝ) * sin (ω * i)) ^ 2) / (sumSq M z : ℚ)|
      ≤ 2 * ((M - 1 : ℕ) : ℝ) * (E : ℝ) := by
  have hS' : sumSq M (fun i => (z i : ℝ)) ≠ 0 := by rw [sumSq_cast]; exact_mod_cast hS
  have h1 := autoCov_spectrum hS' ω
  simp only [sumSq_cast, autoCov_cast, dev_cast] at h1
  rw [← h1]
  have e1 : 1 + 2 * ∑ m ∈ Ico 1 M, (v m : ℝ) * cos (ω * m) - (1 + 2 * ∑ m ∈ Ico 1 M, ((autoCov M z m : ℚ) : ℝ) / ((sumSq M z : ℚ) : ℝ) * cos (ω * m))
      = 2 * ∑ m ∈ Ico 1 M, ((v m - autoCov M z m / sumSq M z : ℚ) : ℝ) * cos (ω * m) := by
    rw [add_sub_add_left_eq_sub, ← mul_sub, ← sum_sub_distrib]
    congr 1
    exact sum_congr rfl fun m _ => by push_cast; ring
  rw [e1, abs_mul, abs_two, mul_assoc]
  refine mul_le_mul_of_nonneg_left ?_ zero_le_two
  refine (abs_sum_le_sum_abs _ _).trans ?_
  have h2 : ∀ m ∈ Ico 1 M, |((v m - autoCov M z m / sumSq M z : ℚ) : ℝ) * cos (ω * m)| ≤ (E : ℝ) := fun m hm => by
    have h3 : ((|v m - autoCov M z m / sumSq M z| : ℚ) : ℝ) ≤ E := by exact_mod_cast h m (mem_Ico.1 hm).2
    rw [Rat.cast_abs] at h3
    rw [abs_mul]
    exact (mul_le_of_le_one_right (abs_nonneg _) (abs_cos_le_one _)).trans h3
  refine (sum_le_card_nsmul _ _ _ h2).trans ?_
  rw [Nat.card_Ico, nsmul_eq_mul]

/-- **C107 in binary64**: any of the weights, any lags, any `alpha`. -/
theorem C107_binary64_any_weight {b0 p : ℤ} (ht : Regular64 d M b0 p e) (hv : Values64 d M j z A V) (hr : Run64 d ga wt r α e) (n : ℕ → ℕ)
    (hn : ∀ m < M, r.lags[n m]? = some (.fin ((m * p : ℤ) * pow2 e))) :
    ∃ v : ℕ → ℚ, (∀ m < M, r.At j (n m) (.fin ((m * p : ℤ) * pow2 e)) (.fin (v m))) ∧
      ∀ ω : ℝ, |1 + 2 * ∑ m ∈ Ico 1 M, (v m : ℝ) * cos (ω * m)
        - ((∑ i ∈ range M, ((dev M z i : ℚ) : ℝ) * cos (ω * i)) ^ 2 + (∑ i ∈ range M, ((dev M z i : ℚ) : ℝ) * sin (ω * i)) ^ 2) / (sumSq M z : ℚ)|
        ≤ 2 * ((M - 1 : ℕ) : ℝ) * ((500 * V * (M * A ^ 2 / sumSq M z) : ℚ) : ℝ) := by
  obtain ⟨hN, _⟩ := hv.pos ht.toTimes
  have h1 := fun m hm => C30_binary64_any_weight ht hv hr (n m) m hm (hn m hm)
  choose! v h2 using h1
  exact ⟨v, fun m hm => (h2 m hm).1, spectrum_error hN.ne' fun m hm => (h2 m hm).2⟩

/-- **C107 in binary64**, with the default arguments. -/
theorem C107_binary64 {b0 p : ℤ} (ht : Regular64 d M b0 p e) (hv : Values64 d M j z A V) :
    ∃ r, autocorrelation .fabs d {} "natural" "fractional" = .ok r ∧ ∃ v : ℕ → ℚ,
      (∀ m < M, r.At j (M - 1 + m) (.fin ((m * p : ℤ) * pow2 e)) (.fin (v m))) ∧
      ∀ ω : ℝ, |1 + 2 * ∑ m ∈ Ico 1 M, (v m : ℝ) * cos (ω * m)
        - ((∑ i ∈ range M, ((dev M z i : ℚ) : ℝ) * cos (ω * i)) ^ 2 + (∑ i ∈ range M, ((dev M z i : ℚ) : ℝ) * sin (ω * i)) ^ 2) / (sumSq M z : ℚ)|
        ≤ 2 * ((M - 1 : ℕ) : ℝ) * ((500 * V * (M * A ^ 2 / sumSq M z) : ℚ) : ℝ) := by
  obtain ⟨hN, _, r, hr, h1⟩ := ht.result hv
  choose! v h2 using h1
  exact ⟨r, hr, v, fun m hm => (h2 m hm).1, spectrum_error hN.ne' fun m hm => (h2 m hm).2⟩

end binary64

end Sacf
