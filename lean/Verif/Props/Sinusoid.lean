import Verif.Props.Smooth
import Mathlib.Analysis.SpecialFunctions.Trigonometric.Bounds

/-!
# A sinusoid on a regular grid (C102)

In exact arithmetic over the reals and, with the error bound of C61 and noise, in binary64.
-/

set_option linter.unusedSectionVars false

namespace Sacf

open Finset Real

/-- the sum of the cosines of `n` angles `2 ω` apart -/
theorem two_sin_mul_sum_cos (ω θ : ℝ) (n : ℕ) :
    2 * sin ω * ∑ i ∈ range n, cos (2 * ω * i + θ) = sin (2 * ω * n + θ - ω) - sin (θ - ω) := by
  induction n with
  | zero => simp
  | succ n ih =>
    rw [Finset.sum_range_succ, mul_add, ih]
    have e1 : 2 * ω * ((n + 1 : ℕ) : ℝ) + θ - ω = (2 * ω * n + θ) + ω := by push_cast; ring
    rw [e1, sin_add (2 * ω * n + θ) ω, sin_sub (2 * ω * n + θ) ω]
    ring

theorem abs_sum_cos_le {ω : ℝ} (h : 0 < sin ω) (θ : ℝ) (n : ℕ) : |∑ i ∈ range n, cos (2 * ω * i + θ)| ≤ 1 / sin ω := by
  have h1 := two_sin_mul_sum_cos ω θ n
  rw [le_div_iff₀ h]
  have e0 : |∑ i ∈ range n, cos (2 * ω * i + θ)| * sin ω = |(∑ i ∈ range n, cos (2 * ω * i + θ)) * sin ω| := by rw [abs_mul, abs_of_pos h]
  rw [e0]
  have h2 : (∑ i ∈ range n, cos (2 * ω * i + θ)) * sin ω = (sin (2 * ω * n + θ - ω) - sin (θ - ω)) / 2 := by linarith
  rw [h2, abs_le]
  constructor <;> linarith [sin_le_one (2 * ω * n + θ - ω), neg_one_le_sin (2 * ω * n + θ - ω), sin_le_one (θ - ω), neg_one_le_sin (θ - ω)]

/-- products of cosines that are `m` steps apart -/
theorem two_mul_sum_cos_mul (ω φ : ℝ) (m n : ℕ) :
    2 * ∑ i ∈ range n, cos (ω * i + φ) * cos (ω * (i + m : ℕ) + φ) = n * cos (ω * m) + ∑ i ∈ range n, cos (2 * ω * i + (ω * m + 2 * φ)) := by
  rw [Finset.mul_sum]
  have h : ∀ i ∈ range n, 2 * (cos (ω * i + φ) * cos (ω * (i + m : ℕ) + φ)) = cos (ω * m) + cos (2 * ω * i + (ω * m + 2 * φ)) := fun i _ => by
    have e1 : ω * m = (ω * (i + m : ℕ) + φ) - (ω * i + φ) := by push_cast; ring
    have e2 : 2 * ω * i + (ω * m + 2 * φ) = (ω * (i + m : ℕ) + φ) + (ω * i + φ) := by push_cast; ring
    rw [e2, e1, cos_sub, cos_add (ω * (i + m : ℕ) + φ)]
    ring
  rw [Finset.sum_congr rfl h, Finset.sum_add_distrib, Finset.sum_const, Finset.card_range, nsmul_eq_mul]

variable {M : ℕ} {x y : ℕ → ℝ} {c a ω φ : ℝ}

theorem dev_affine_real (hx : ∀ i < M, x i = c + a * y i) (hM : 0 < M) {i : ℕ} (hi : i < M) : dev M x i = a * dev M y i := by
  have hM' : (M : ℝ) ≠ 0 := by exact_mod_cast hM.ne'
  have e : mean M x = c + a * mean M y := by
    unfold mean
    rw [Finset.sum_congr rfl fun i hi => hx i (Finset.mem_range.1 hi), Finset.sum_add_distrib, Finset.sum_const, Finset.card_range, nsmul_eq_mul,
      ← Finset.mul_sum]
    field_simp
  unfold dev
  rw [e, hx i hi]
  ring

theorem autoCov_affine_real (hx : ∀ i < M, x i = c + a * y i) (hM : 0 < M) (m : ℕ) : autoCov M x m = a ^ 2 * autoCov M y m := by
  unfold autoCov
  rw [Finset.mul_sum]
  refine Finset.sum_congr rfl fun i hi => ?_
  have := Finset.mem_range.1 hi
  rw [dev_affine_real hx hM (by omega), dev_affine_real hx hM (by omega)]
  ring

theorem sumSq_eq_autoCov (M : ℕ) (x : ℕ → ℝ) : sumSq M x = autoCov M x 0 := by
  unfold sumSq autoCov
  exact Finset.sum_congr rfl fun i _ => by rw [add_zero]; ring

/-- how far the sums over `M` samples can be from what they would be over whole periods, times two -/
noncomputable def sineErr (M : ℕ) (ω : ℝ) : ℝ := 1 / sin ω + 6 / (M * sin (ω / 2) ^ 2)

theorem autoCov_cos (h0 : 0 < ω) (hπ : ω < π) (hM : 0 < M) {m : ℕ} (hm : m < M) :
    |2 * autoCov M (fun i : ℕ => cos (ω * i + φ)) m - (M - m) * cos (ω * m)| ≤ sineErr M ω := by
  unfold sineErr
  have hs : 0 < sin ω := sin_pos_of_pos_of_lt_pi h0 hπ
  have hs2 : 0 < sin (ω / 2) := sin_pos_of_pos_of_lt_pi (by linarith) (by linarith)
  have hMr : (0 : ℝ) < M := by exact_mod_cast hM
  set y : ℕ → ℝ := fun i => cos (ω * i + φ) with hy
  set S := 1 / sin (ω / 2) with hSdef
  have hS : 0 < S := by positivity
  have hsum : ∀ (θ : ℝ) (n : ℕ), |∑ i ∈ range n, cos (ω * i + θ)| ≤ S := fun θ n => by
    have := abs_sum_cos_le hs2 θ n
    have e : ∀ i ∈ range n, cos (2 * (ω / 2) * i + θ) = cos (ω * i + θ) := fun i _ => by congr 1; ring
    rwa [Finset.sum_congr rfl e] at this
  have hmu : |mean M y| ≤ S / M := by
    unfold mean
    rw [abs_div, abs_of_pos hMr]
    exact (div_le_div_iff_of_pos_right hMr).2 (hsum φ M)
  set μ := mean M y with hμ
  have hA : ∑ i ∈ range (M - m), y i = ∑ i ∈ range (M - m), cos (ω * i + φ) := rfl
  have hB : ∑ i ∈ range (M - m), y (i + m) = ∑ i ∈ range (M - m), cos (ω * i + (ω * m + φ)) :=
    Finset.sum_congr rfl fun i _ => by rw [hy]; push_cast; ring_nf
  have e : autoCov M y m = ∑ i ∈ range (M - m), y i * y (i + m) - μ * (∑ i ∈ range (M - m), y i + ∑ i ∈ range (M - m), y (i + m)) + (M - m) * μ ^ 2 := by
    unfold autoCov dev
    rw [← hμ, ← Finset.sum_add_distrib, Finset.mul_sum, ← Finset.sum_sub_distrib]
    have : ((M : ℝ) - m) * μ ^ 2 = ∑ i ∈ range (M - m), μ ^ 2 := by
      rw [Finset.sum_const, Finset.card_range, nsmul_eq_mul, Nat.cast_sub hm.le]
    rw [this, ← Finset.sum_add_distrib]
    exact Finset.sum_congr rfl fun i _ => by ring
  have h1 := two_mul_sum_cos_mul ω φ m (M - m)
  rw [Nat.cast_sub hm.le] at h1
  have h2 := abs_sum_cos_le hs (ω * m + 2 * φ) (M - m)
  have h3 : |∑ i ∈ range (M - m), y i + ∑ i ∈ range (M - m), y (i + m)| ≤ 2 * S := by
    refine (abs_add_le _ _).trans ?_
    rw [hB]
    have := hsum φ (M - m)
    have := hsum (ω * m + φ) (M - m)
    linarith
  have h4 : |μ * (∑ i ∈ range (M - m), y i + ∑ i ∈ range (M - m), y (i + m))| ≤ 2 * S ^ 2 / M := by
    rw [abs_mul]
    exact (mul_le_mul hmu h3 (abs_nonneg _) (by positivity)).trans_eq (by ring)
  have hmr : (m : ℝ) ≤ M := by exact_mod_cast hm.le
  have h5 : |((M : ℝ) - m) * μ ^ 2| ≤ S ^ 2 / M := by
    rw [abs_mul, abs_of_nonneg (by linarith), abs_of_nonneg (sq_nonneg _), ← sq_abs]
    have h6 : |μ| ^ 2 ≤ (S / M) ^ 2 := pow_le_pow_left₀ (abs_nonneg _) hmu 2
    have h7 : (M : ℝ) - m ≤ M := by have : (0 : ℝ) ≤ m := Nat.cast_nonneg m
                                    linarith
    refine (mul_le_mul h7 h6 (by positivity) hMr.le).trans_eq ?_
    field_simp
  have hS2 : S ^ 2 / M = 1 / (M * sin (ω / 2) ^ 2) := by rw [hSdef]; field_simp
  have hS6 : 6 / (M * sin (ω / 2) ^ 2) = 6 * (S ^ 2 / M) := by rw [hS2]; ring
  have hS2' : 2 * S ^ 2 / M = 2 * (S ^ 2 / M) := by ring
  rw [hS2'] at h4
  rw [hS6]
  have e2 : 2 * autoCov M y m - (M - m) * cos (ω * m) = ∑ i ∈ range (M - m), cos (2 * ω * i + (ω * m + 2 * φ))
      - 2 * (μ * (∑ i ∈ range (M - m), y i + ∑ i ∈ range (M - m), y (i + m))) + 2 * (((M : ℝ) - m) * μ ^ 2) := by
    have h1' : 2 * ∑ i ∈ range (M - m), y i * y (i + m) = (M - m) * cos (ω * m) + ∑ i ∈ range (M - m), cos (2 * ω * i + (ω * m + 2 * φ)) := h1
    rw [e]
    linarith
  rw [e2]
  generalize μ * (∑ i ∈ range (M - m), y i + ∑ i ∈ range (M - m), y (i + m)) = P at *
  generalize ((M : ℝ) - m) * μ ^ 2 = Q at *
  generalize ∑ i ∈ range (M - m), cos (2 * ω * i + (ω * m + 2 * φ)) = R at *
  rw [abs_le] at *
  constructor <;> linarith [h2.1, h2.2, h4.1, h4.2, h5.1, h5.2]

theorem sumSq_cos (h0 : 0 < ω) (hπ : ω < π) (hM : 0 < M) : |2 * sumSq M (fun i : ℕ => cos (ω * i + φ)) - M| ≤ sineErr M ω := by
  have := autoCov_cos (φ := φ) h0 hπ hM hM
  rw [sumSq_eq_autoCov]
  simpa using this

/-- the textbook estimate of a sinusoid with angle `ω` per step -/
theorem acf_cos (ha : a ≠ 0) (h0 : 0 < ω) (hπ : ω < π) (hE : sineErr M ω < M) (hx : ∀ i < M, x i = c + a * cos (ω * i + φ)) {m : ℕ} (hm : m < M) :
    a ^ 2 * (M - sineErr M ω) ≤ 2 * sumSq M x ∧
    |autoCov M x m / sumSq M x - (1 - m / M) * cos (ω * m)| ≤ 2 * sineErr M ω / (M - sineErr M ω) := by
  have hM : 0 < M := by omega
  have hMr : (0 : ℝ) < M := by exact_mod_cast hM
  have h1 := autoCov_cos (φ := φ) h0 hπ hM hm
  have h2 := sumSq_cos (φ := φ) h0 hπ hM
  have e1 := autoCov_affine_real (y := fun i : ℕ => cos (ω * i + φ)) hx hM m
  have e2 : sumSq M x = a ^ 2 * sumSq M (fun i : ℕ => cos (ω * i + φ)) := by
    rw [sumSq_eq_autoCov, sumSq_eq_autoCov, autoCov_affine_real (y := fun i : ℕ => cos (ω * i + φ)) hx hM 0]
  have ha2 : 0 < a ^ 2 := by positivity
  rw [e1, e2, mul_div_mul_left _ _ ha2.ne']
  generalize autoCov M (fun i : ℕ => cos (ω * i + φ)) m = C at *
  generalize sumSq M (fun i : ℕ => cos (ω * i + φ)) = S at *
  have hEn : 0 ≤ sineErr M ω := (abs_nonneg _).trans h1
  generalize sineErr M ω = E at *
  have hS : M - E ≤ 2 * S := by rw [abs_le] at h2; linarith [h2.1]
  have hS0 : 0 < S := by linarith
  refine ⟨by nlinarith, ?_⟩
  have e3 : C / S - (1 - m / M) * cos (ω * m) = ((2 * C - (M - m) * cos (ω * m)) - (1 - m / M) * cos (ω * m) * (2 * S - M)) / (2 * S) := by
    field_simp
    ring
  rw [e3, abs_div, abs_of_pos (by linarith : 0 < 2 * S), div_le_div_iff₀ (by linarith) (by linarith)]
  have hf : |(1 - (m : ℝ) / M) * cos (ω * m)| ≤ 1 := by
    rw [abs_mul]
    have hmr : (m : ℝ) / M ≤ 1 := by rw [div_le_one hMr]; exact_mod_cast hm.le
    have hm0 : (0 : ℝ) ≤ (m : ℝ) / M := by positivity
    have := abs_cos_le_one (ω * m)
    rw [abs_of_nonneg (by linarith)]
    nlinarith [abs_nonneg (cos (ω * m))]
  have h3 : |(2 * C - (M - m) * cos (ω * m)) - (1 - m / M) * cos (ω * m) * (2 * S - M)| ≤ 2 * E := by
    refine (abs_sub _ _).trans ?_
    rw [abs_mul ((1 - (m : ℝ) / M) * cos (ω * m))]
    have := mul_le_mul hf h2 (abs_nonneg _) zero_le_one
    linarith
  exact mul_le_mul h3 hS (by linarith) (by linarith)

/-- over whole periods, exactly -/
theorem acf_cos_whole (ha : a ≠ 0) {p : ℕ} (hp : 0 < p) (hpM : 2 * p < M) (hω : ω = 2 * π * p / M) (hx : ∀ i < M, x i = c + a * cos (ω * i + φ)) {m : ℕ} (hm : m < M) :
    sumSq M x = a ^ 2 * M / 2 ∧
    autoCov M x m / sumSq M x = (1 - m / M) * cos (ω * m) - sin (ω * m) * cos (2 * φ - ω) / (M * sin ω) := by
  have hM : 0 < M := by omega
  have hMr : (0 : ℝ) < M := by exact_mod_cast hM
  have hpr : (0 : ℝ) < p := by exact_mod_cast hp
  have hpMr : 2 * (p : ℝ) < M := by exact_mod_cast hpM
  have hωM : ω * M = p * (2 * π) := by rw [hω]; field_simp
  have h0 : 0 < ω := by rw [hω]; positivity
  have hπ : ω < π := by
    rw [hω, div_lt_iff₀ hMr]
    nlinarith [pi_pos]
  have hs : 0 < sin ω := sin_pos_of_pos_of_lt_pi h0 hπ
  have hs2 : 0 < sin (ω / 2) := sin_pos_of_pos_of_lt_pi (by linarith) (by linarith)
  set y : ℕ → ℝ := fun i => cos (ω * i + φ) with hy
  have hmean : mean M y = 0 := by
    have h1 := two_sin_mul_sum_cos (ω / 2) φ M
    have e1 : 2 * (ω / 2) * M + φ - ω / 2 = (φ - ω / 2) + p * (2 * π) := by rw [← hωM]; ring
    rw [e1, sin_add_nat_mul_two_pi, sub_self] at h1
    have e : ∀ i ∈ range M, cos (2 * (ω / 2) * i + φ) = y i := fun i _ => by rw [hy]; ring_nf
    rw [Finset.sum_congr rfl e] at h1
    unfold mean
    rcases mul_eq_zero.1 h1 with h | h
    · linarith
    · rw [h, zero_div]
  have hcov : ∀ m < M, 2 * autoCov M y m = (M - m) * cos (ω * m) - sin (ω * m) * cos (2 * φ - ω) / sin ω := fun m hm => by
    have h1 := two_mul_sum_cos_mul ω φ m (M - m)
    rw [Nat.cast_sub hm.le] at h1
    have h2 := two_sin_mul_sum_cos ω (ω * m + 2 * φ) (M - m)
    rw [Nat.cast_sub hm.le] at h2
    have e1 : 2 * ω * ((M : ℝ) - m) + (ω * m + 2 * φ) - ω = ((2 * φ - ω) - ω * m) + ((2 * p : ℕ) : ℝ) * (2 * π) := by
      push_cast
      linear_combination 2 * hωM
    have e2 : ω * m + 2 * φ - ω = (2 * φ - ω) + ω * m := by ring
    rw [e1, sin_add_nat_mul_two_pi, e2, sin_sub (2 * φ - ω), sin_add (2 * φ - ω)] at h2
    have h3 : ∑ i ∈ range (M - m), cos (2 * ω * i + (ω * m + 2 * φ)) = -(sin (ω * m) * cos (2 * φ - ω) / sin ω) := by
      field_simp
      linarith
    have e3 : autoCov M y m = ∑ i ∈ range (M - m), y i * y (i + m) := by
      unfold autoCov dev
      rw [hmean]
      simp only [sub_zero]
    have h1' : 2 * ∑ i ∈ range (M - m), y i * y (i + m) = (M - m) * cos (ω * m) + ∑ i ∈ range (M - m), cos (2 * ω * i + (ω * m + 2 * φ)) := h1
    rw [e3, h1', h3]
    ring
  have hS : sumSq M y = M / 2 := by
    have := hcov 0 hM
    rw [sumSq_eq_autoCov]
    simp at this
    linarith
  have e2 : sumSq M x = a ^ 2 * sumSq M y := by
    rw [sumSq_eq_autoCov, sumSq_eq_autoCov, autoCov_affine_real hx hM 0]
  have ha2 : a ^ 2 ≠ 0 := pow_ne_zero 2 ha
  refine ⟨by rw [e2, hS]; ring, ?_⟩
  rw [e2, autoCov_affine_real hx hM m, mul_div_mul_left _ _ ha2, hS]
  have := hcov m hm
  have e4 : autoCov M y m = ((M - m) * cos (ω * m) - sin (ω * m) * cos (2 * φ - ω) / sin ω) / 2 := by linarith
  rw [e4]
  field_simp

section exact
variable {dm : ℝ} {f32 ex : ℝ → ℝ} {d : DS (Exact dm f32 ex)} {g : LagArgs (Exact dm f32 ex)} {wt : String} {r : AcResult (Exact dm f32 ex)} {j : ℕ} {α t0 δ : ℝ}

/-- **C102**: a sinusoid with mean level `c`, amplitude `a` and the angle `ω` per step (less than half a turn), sampled `M` times on a regular grid; it need not fit the
span.  The correlation at `m` steps is the cosine `(1 - m / M) cos (ω m)`, up to an error of the order of `1 / M`. -/
theorem C102_sinusoid (h : NaturalRun d g wt r M (fun i : ℕ => t0 + i * δ) j x α) (hδ : 0 < δ) (hf : ∀ i < M, f32 (x i) = x i)
    (he : wt = "gaussian" → ex 0 = 1) (ha : a ≠ 0) (h0 : 0 < ω) (hπ : ω < π) (hx : ∀ i < M, x i = c + a * cos (ω * i + φ))
    (hE : 1 / sin ω + 6 / (M * sin (ω / 2) ^ 2) < M) (m n : ℕ) (hm : m < M) (hn : r.lags[n]? = some (.fin (m * δ))) :
    ∃ v, r.At j n (.fin (m * δ)) (.fin v) ∧ |v - (1 - m / M) * cos (ω * m)|
      ≤ 2 * (1 / sin ω + 6 / (M * sin (ω / 2) ^ 2)) / (M - (1 / sin ω + 6 / (M * sin (ω / 2) ^ 2))) := by
  obtain ⟨h1, h2⟩ := acf_cos ha h0 hπ hE hx hm
  have hv : sumSq M x ≠ 0 := by
    have : 0 < a ^ 2 * (M - sineErr M ω) := mul_pos (by positivity) (sub_pos.2 hE)
    intro h3
    rw [h3] at h1
    linarith
  exact ⟨_, C30_regular h hδ hf hv he m n hm hn, h2⟩

/-- **C102** over a whole number of periods, exactly. -/
theorem C102_whole_periods (h : NaturalRun d g wt r M (fun i : ℕ => t0 + i * δ) j x α) (hδ : 0 < δ) (hf : ∀ i < M, f32 (x i) = x i)
    (he : wt = "gaussian" → ex 0 = 1) (ha : a ≠ 0) (p : ℕ) (hp : 0 < p) (hpM : 2 * p < M)
    (hx : ∀ i < M, x i = c + a * cos (2 * π * p / M * i + φ)) (m n : ℕ) (hm : m < M) (hn : r.lags[n]? = some (.fin (m * δ))) :
    r.At j n (.fin (m * δ)) (.fin ((1 - m / M) * cos (2 * π * p / M * m)
      - sin (2 * π * p / M * m) * cos (2 * φ - 2 * π * p / M) / (M * sin (2 * π * p / M)))) := by
  obtain ⟨h1, h2⟩ := acf_cos_whole ha hp hpM rfl hx hm
  have hv : sumSq M x ≠ 0 := by
    have : (0 : ℝ) < M := by exact_mod_cast (by omega : 0 < M)
    rw [h1]
    positivity
  rw [← h2]
  exact C30_regular h hδ hf hv he m n hm hn

end exact

section binary64
variable {ex : ℚ → ℚ} {fu : Bool} {d : DS (D64 ex fu)} {j : ℕ} {e : ℤ} {z : ℕ → ℚ} {A V : ℚ}

/-- **C102 in binary64**, with the default arguments and with errors up to `η` in the values. -/
theorem C102_binary64 {b p : ℤ} (ht : Regular64 d M b p e) (hv : Values64 d M j z A V) (ha : a ≠ 0) (h0 : 0 < ω) (hπ : ω < π)
    (η : ℝ) (hz : ∀ i < M, |(z i : ℝ) - (c + a * cos (ω * i + φ))| ≤ η) (hE : 1 / sin ω + 6 / (M * sin (ω / 2) ^ 2) < M)
    (q : ℝ) (hq : 0 ≤ q) (hq1 : q < 1) (hηq : 2 * M * η ^ 2 ≤ q ^ 2 * (a ^ 2 * (M - (1 / sin ω + 6 / (M * sin (ω / 2) ^ 2))))) :
    ∃ r, autocorrelation .fabs d {} "natural" "fractional" = .ok r ∧ ∀ m < M, ∃ v : ℚ,
      r.At j (M - 1 + m) (.fin ((m * p : ℤ) * pow2 e)) (.fin v) ∧
      |(v : ℝ) - (1 - m / M) * cos (ω * m)| ≤ 2 * (1 / sin ω + 6 / (M * sin (ω / 2) ^ 2)) / (M - (1 / sin ω + 6 / (M * sin (ω / 2) ^ 2)))
        + (4 * q + 2 * q ^ 2) / (1 - q) ^ 2 + (500 * V * (M * A ^ 2 / sumSq M z) : ℚ) := by
  obtain ⟨r, hr, h⟩ := C61_binary64 e ht.emin ht.emax d ht.built M b p ht.step ht.times ht.two_le ht.le ht.span A V hv.amin hv.amax hv.unit hv.small
    j z hv.row hv.bound hv.float hv.spread
  refine ⟨r, hr, fun m hm => ?_⟩
  obtain ⟨v, h1, h2⟩ := h m hm
  refine ⟨v, h1, ?_⟩
  set x : ℕ → ℝ := fun i => c + a * cos (ω * i + φ) with hxdef
  obtain ⟨h3, h4⟩ := acf_cos (x := x) ha h0 hπ hE (fun _ _ => rfl) hm
  have hpos : 0 < a ^ 2 * (M - sineErr M ω) := mul_pos (by positivity) (sub_pos.2 hE)
  have hS : sumSq M x ≠ 0 := by intro h5; rw [h5] at h3; linarith
  have hM : 0 < M := by omega
  have hη : 0 ≤ η := (abs_nonneg _).trans (hz 0 hM)
  have hnoise : ∑ i ∈ range M, ((z i : ℝ) - x i) ^ 2 ≤ q ^ 2 * sumSq M x := by
    have h5 : ∑ i ∈ range M, ((z i : ℝ) - x i) ^ 2 ≤ ∑ _i ∈ range M, η ^ 2 := Finset.sum_le_sum fun i hi => by
      rw [← sq_abs]
      exact pow_le_pow_left₀ (abs_nonneg _) (hz i (Finset.mem_range.1 hi)) 2
    rw [Finset.sum_const, Finset.card_range, nsmul_eq_mul] at h5
    have h6 : q ^ 2 * (a ^ 2 * (M - sineErr M ω)) ≤ q ^ 2 * (2 * sumSq M x) := mul_le_mul_of_nonneg_left h3 (sq_nonneg q)
    have h7 : 2 * M * η ^ 2 ≤ q ^ 2 * (a ^ 2 * (M - sineErr M ω)) := hηq
    linarith
  have h8 := autoCov_noise (y := fun i => (z i : ℝ)) hS hq hq1 hnoise hm
  rw [autoCov_cast, sumSq_cast] at h8
  have h9 : |(v : ℝ) - ((autoCov M z m : ℚ) : ℝ) / ((sumSq M z : ℚ) : ℝ)| ≤ (500 * V * (M * A ^ 2 / sumSq M z) : ℚ) := by
    have h9' : ((|v - autoCov M z m / sumSq M z| : ℚ) : ℝ) ≤ (500 * V * (M * A ^ 2 / sumSq M z) : ℚ) := by exact_mod_cast h2
    rw [Rat.cast_abs, Rat.cast_sub, Rat.cast_div] at h9'
    exact h9'
  have h10 := (abs_add_le _ _).trans (add_le_add h9 ((abs_add_le _ _).trans (add_le_add h8 h4)))
  rw [sub_add_sub_cancel, sub_add_sub_cancel] at h10
  refine h10.trans_eq ?_
  unfold sineErr
  ring

end binary64

end Sacf
