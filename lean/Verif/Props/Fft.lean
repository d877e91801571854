import Verif.Props.Periodogram
import Mathlib.RingTheory.RootsOfUnity.Complex

/-!
# The method of the fast Fourier transform (C109)
-/

set_option linter.unusedSectionVars false

namespace Sacf

open Finset

/-- the discrete Fourier transform of `f 0, …, f (M - 1)`, padded with zeros to the length `L` -/
noncomputable def dft (M L : ℕ) (f : ℕ → ℝ) (k : ℕ) : ℂ := ∑ i ∈ range M, (f i : ℂ) * Complex.exp (-(2 * Real.pi * Complex.I * k * i / L))

/-- the inverse transform of length `L` -/
noncomputable def idft (L : ℕ) (G : ℕ → ℂ) (s : ℕ) : ℂ := (∑ k ∈ range L, G k * Complex.exp (2 * Real.pi * Complex.I * k * s / L)) / L

/-- the autocorrelation by transforms of length `L`: the inverse transform of the squared modulus of the transform, divided by the sum of squares -/
noncomputable def fftAcf (M L : ℕ) (x : ℕ → ℝ) (s : ℕ) : ℂ := idft L (fun k => ((‖dft M L (dev M x) k‖ ^ 2 : ℝ) : ℂ)) s / (sumSq M x : ℝ)

/-! ### orthogonality -/

variable {M L : ℕ} {x : ℕ → ℝ}

theorem exp_pow_root (k i : ℕ) : Complex.exp (2 * Real.pi * Complex.I * k * i / L) = (Complex.exp (2 * Real.pi * Complex.I / L) ^ i) ^ k := by
  rw [← pow_mul, ← Complex.exp_nat_mul]
  congr 1
  push_cast
  ring

theorem sum_root (hL : L ≠ 0) (a b : ℕ) :
    ∑ k ∈ range L, Complex.exp (2 * Real.pi * Complex.I * k * a / L) * Complex.exp (-(2 * Real.pi * Complex.I * k * b / L))
      = if a % L = b % L then (L : ℂ) else 0 := by
  have hz := Complex.isPrimitiveRoot_exp L hL
  set ζ := Complex.exp (2 * Real.pi * Complex.I / L) with hζ
  have hz0 : ζ ≠ 0 := Complex.exp_ne_zero _
  have e1 : ∀ k ∈ range L, Complex.exp (2 * Real.pi * Complex.I * k * a / L) * Complex.exp (-(2 * Real.pi * Complex.I * k * b / L))
      = (ζ ^ a / ζ ^ b) ^ k := fun k _ => by
    rw [Complex.exp_neg, exp_pow_root, exp_pow_root, ← hζ, div_pow, div_eq_mul_inv]
  rw [sum_congr rfl e1]
  have hpow : ∀ n : ℕ, ζ ^ (n % L) = ζ ^ n := fun n => by
    conv_rhs => rw [← Nat.mod_add_div n L, pow_add, pow_mul, hz.pow_eq_one, one_pow, mul_one]
  split_ifs with h
  · have : ζ ^ a / ζ ^ b = 1 := by rw [← hpow a, h, hpow b, div_self (pow_ne_zero _ hz0)]
    simp [this]
  · have hw : ζ ^ a / ζ ^ b ≠ 1 := fun hw => h (by
      rw [div_eq_one_iff_eq (pow_ne_zero _ hz0), ← hpow a, ← hpow b] at hw
      exact hz.pow_inj (Nat.mod_lt _ (Nat.pos_of_ne_zero hL)) (Nat.mod_lt _ (Nat.pos_of_ne_zero hL)) hw)
    have hwL : (ζ ^ a / ζ ^ b) ^ L = 1 := by
      rw [div_pow, ← pow_mul, ← pow_mul, mul_comm a, mul_comm b, pow_mul, pow_mul, hz.pow_eq_one, one_pow, one_pow, div_one]
    have := mul_neg_geom_sum (ζ ^ a / ζ ^ b) L
    rw [hwL, sub_self] at this
    exact (mul_eq_zero.1 this).resolve_left (sub_ne_zero.2 (Ne.symm hw))

theorem normSq_dft (f : ℕ → ℝ) (k : ℕ) :
    ((‖dft M L f k‖ ^ 2 : ℝ) : ℂ) = ∑ i ∈ range M, ∑ j ∈ range M, ((f i * f j : ℝ) : ℂ)
      * (Complex.exp (2 * Real.pi * Complex.I * k * j / L) * Complex.exp (-(2 * Real.pi * Complex.I * k * i / L))) := by
  have h1 : ((‖dft M L f k‖ ^ 2 : ℝ) : ℂ) = dft M L f k * (starRingEnd ℂ) (dft M L f k) := by
    rw [Complex.mul_conj, Complex.normSq_eq_norm_sq]
  rw [h1]
  unfold dft
  rw [map_sum, sum_mul_sum]
  refine sum_congr rfl fun i _ => sum_congr rfl fun j _ => ?_
  rw [map_mul, ← Complex.exp_conj]
  simp only [map_neg, map_div₀, map_mul, Complex.conj_ofReal, Complex.conj_I, map_ofNat, map_natCast]
  push_cast
  rw [show -(2 * (Real.pi : ℂ) * -Complex.I * k * j / L) = 2 * Real.pi * Complex.I * k * j / L by ring]
  ring

/-- the squared modulus of the transform transforms back to the sum over pairs at distance `s`, cyclically -/
theorem idft_normSq (hL : L ≠ 0) (f : ℕ → ℝ) (s : ℕ) :
    idft L (fun k => ((‖dft M L f k‖ ^ 2 : ℝ) : ℂ)) s = ((∑ i ∈ range M, ∑ j ∈ range M, if (s + j) % L = i % L then f i * f j else 0 : ℝ) : ℂ) := by
  unfold idft
  rw [div_eq_iff (by exact_mod_cast hL)]
  simp only [normSq_dft, sum_mul]
  push_cast
  rw [Finset.sum_comm, sum_mul]
  refine sum_congr rfl fun i _ => ?_
  rw [Finset.sum_comm, sum_mul]
  refine sum_congr rfl fun j _ => ?_
  have e : ∀ k ∈ range L, ((f i : ℂ) * f j) * (Complex.exp (2 * Real.pi * Complex.I * k * j / L) * Complex.exp (-(2 * Real.pi * Complex.I * k * i / L)))
      * Complex.exp (2 * Real.pi * Complex.I * k * s / L)
      = ((f i : ℂ) * f j) * (Complex.exp (2 * Real.pi * Complex.I * k * (s + j : ℕ) / L) * Complex.exp (-(2 * Real.pi * Complex.I * k * i / L))) := fun k _ => by
    rw [show 2 * (Real.pi : ℂ) * Complex.I * k * (s + j : ℕ) / L = 2 * Real.pi * Complex.I * k * s / L + 2 * Real.pi * Complex.I * k * j / L by push_cast; ring,
      Complex.exp_add]
    ring
  rw [sum_congr rfl e, ← mul_sum, sum_root hL]
  split_ifs <;> simp

theorem cyclic_eq (f : ℕ → ℝ) (hM : M ≤ L) {s : ℕ} (hs : s < L) :
    ∑ i ∈ range M, ∑ j ∈ range M, (if (s + j) % L = i % L then f i * f j else 0)
      = ∑ i ∈ range (M - s), f i * f (i + s) + if s = 0 then 0 else ∑ i ∈ range (M - (L - s)), f i * f (i + (L - s)) := by
  have shift : ∀ m : ℕ, ∑ i ∈ range M, ∑ j ∈ range M, (if m + j = i then f i * f j else 0) = ∑ i ∈ range (M - m), f i * f (i + m) := fun m => by
    rw [sum_comm]
    have e : ∀ j ∈ range M, ∑ i ∈ range M, (if m + j = i then f i * f j else 0) = if j < M - m then f j * f (j + m) else 0 := fun j hj => by
      rw [sum_ite_eq]
      by_cases h : j < M - m
      · rw [if_pos (by simp; omega), if_pos h, add_comm m, mul_comm]
      · rw [if_neg (by simp; omega), if_neg h]
    rw [sum_congr rfl e, ← sum_filter]
    refine sum_congr ?_ fun _ _ => rfl
    ext j
    simp
    omega
  have e : ∀ i ∈ range M, ∀ j ∈ range M, (if (s + j) % L = i % L then f i * f j else 0)
      = (if s + j = i then f i * f j else 0) + if s = 0 then 0 else if (L - s) + i = j then f i * f j else 0 := fun i hi j hj => by
    have hi := mem_range.1 hi
    have hj := mem_range.1 hj
    rw [Nat.mod_eq_of_lt (by omega : i < L)]
    rcases lt_or_ge (s + j) L with h | h
    · rw [Nat.mod_eq_of_lt h]
      have : ¬ (s ≠ 0 ∧ (L - s) + i = j) := by omega
      split_ifs <;> simp_all
    · rw [Nat.mod_eq_sub_mod h, Nat.mod_eq_of_lt (by omega)]
      have h1 : ¬ s + j = i := by omega
      have h2 : s ≠ 0 := by omega
      have h3 : (s + j - L = i) ↔ (L - s) + i = j := by omega
      simp [h1, h2, h3]
  rw [sum_congr rfl fun i hi => sum_congr rfl fun j hj => e i hi j hj]
  simp only [sum_add_distrib]
  rw [shift s]
  congr 1
  by_cases h : s = 0
  · simp [h]
  · simp only [h, if_false]
    rw [sum_comm, ← shift (L - s)]
    refine sum_congr rfl fun i _ => sum_congr rfl fun j _ => by rw [mul_comm]

theorem fftAcf_eq (hM : M ≤ L) {s : ℕ} (hs : s < L) :
    fftAcf M L x s = (((autoCov M x s + if s = 0 then 0 else autoCov M x (L - s)) / sumSq M x : ℝ) : ℂ) := by
  unfold fftAcf
  rw [idft_normSq (by omega), cyclic_eq _ hM hs, ← Complex.ofReal_div]
  rfl

/-- enough zeros: nothing wraps around -/
theorem fftAcf_padded (hL : 2 * M - 1 ≤ L) {s : ℕ} (hs : s < M) : fftAcf M L x s = ((autoCov M x s / sumSq M x : ℝ) : ℂ) := by
  rw [fftAcf_eq (by omega) (by omega)]
  congr 2
  split_ifs
  · rw [add_zero]
  · unfold autoCov
    rw [show M - (L - s) = 0 by omega]
    simp

section exact
variable {dm : ℝ} {f32 ex : ℝ → ℝ}
variable {d : DS (Exact dm f32 ex)} {g : LagArgs (Exact dm f32 ex)} {wt : String} {r : AcResult (Exact dm f32 ex)} {j : ℕ} {α t0 δ : ℝ}

/-- **C109**: the correlations are those of the Fourier method, if the values are padded with zeros to at least `2 M - 1`. -/
theorem C109_fft (h : NaturalRun d g wt r M (fun i : ℕ => t0 + i * δ) j x α) (hδ : 0 < δ)
    (hf : ∀ i < M, f32 (x i) = x i) (hv : sumSq M x ≠ 0) (he : wt = "gaussian" → ex 0 = 1)
    (pos : ℕ → ℕ) (hpos : ∀ m < M, r.lags[pos m]? = some (.fin (m * δ))) :
    ∃ v : ℕ → ℝ, (∀ m < M, r.At j (pos m) (.fin (m * δ)) (.fin (v m))) ∧
      ∀ L, 2 * M - 1 ≤ L → ∀ m < M, fftAcf M L x m = (v m : ℂ) :=
  ⟨fun m => autoCov M x m / sumSq M x, fun m hm => C30_regular h hδ hf hv he m _ hm (hpos m hm), fun _ hL _ hm => fftAcf_padded hL hm⟩

/-- **C109**: without padding, the Fourier method gives the sum of the correlations at `m` and at `M - m` steps. -/
theorem C109_unpadded (h : NaturalRun d g wt r M (fun i : ℕ => t0 + i * δ) j x α) (hδ : 0 < δ)
    (hf : ∀ i < M, f32 (x i) = x i) (hv : sumSq M x ≠ 0) (he : wt = "gaussian" → ex 0 = 1)
    (pos : ℕ → ℕ) (hpos : ∀ m < M, r.lags[pos m]? = some (.fin (m * δ))) :
    ∃ v : ℕ → ℝ, (∀ m < M, r.At j (pos m) (.fin (m * δ)) (.fin (v m))) ∧
      ∀ m, 0 < m → m < M → fftAcf M M x m = (v m : ℂ) + (v (M - m) : ℂ) := by
  refine ⟨fun m => autoCov M x m / sumSq M x, fun m hm => C30_regular h hδ hf hv he m _ hm (hpos m hm), fun m h0 hm => ?_⟩
  rw [fftAcf_eq le_rfl hm, if_neg h0.ne']
  push_cast
  rw [add_div]

end exact

section binary64
variable {ex : ℚ → ℚ} {fu : Bool} {d : DS (D64 ex fu)} {ga : LagArgs (D64 ex fu)} {wt : String} {r : AcResult (D64 ex fu)}
  {j : ℕ} {e : ℤ} {z : ℕ → ℚ} {A V α : ℚ}

theorem fft_error (hL : 2 * M - 1 ≤ L) {m : ℕ} (hm : m < M) {v E : ℚ} (h : |v - autoCov M z m / sumSq M z| ≤ E) :
    ‖((v : ℝ) : ℂ) - fftAcf M L (fun i => (z i : ℝ)) m‖ ≤ ((E : ℚ) : ℝ) := by
  rw [fftAcf_padded hL hm, autoCov_cast, sumSq_cast, ← Complex.ofReal_sub, Complex.norm_real, Real.norm_eq_abs]
  exact_mod_cast h

/-- **C109 in binary64**: any of the weights, any lags, any `alpha`. -/
theorem C109_binary64_any_weight {b0 p : ℤ} (ht : Regular64 d M b0 p e) (hv : Values64 d M j z A V) (hr : Run64 d ga wt r α e) (n : ℕ → ℕ)
    (hn : ∀ m < M, r.lags[n m]? = some (.fin ((m * p : ℤ) * pow2 e))) :
    ∃ v : ℕ → ℚ, (∀ m < M, r.At j (n m) (.fin ((m * p : ℤ) * pow2 e)) (.fin (v m))) ∧
      ∀ L, 2 * M - 1 ≤ L → ∀ m < M, ‖((v m : ℝ) : ℂ) - fftAcf M L (fun i => (z i : ℝ)) m‖ ≤ ((500 * V * (M * A ^ 2 / sumSq M z) : ℚ) : ℝ) := by
  have h1 := fun m hm => C30_binary64_any_weight ht hv hr (n m) m hm (hn m hm)
  choose! v h2 using h1
  exact ⟨v, fun m hm => (h2 m hm).1, fun L hL m hm => fft_error hL hm (h2 m hm).2⟩

/-- **C109 in binary64**, with the default arguments. -/
theorem C109_binary64 {b0 p : ℤ} (ht : Regular64 d M b0 p e) (hv : Values64 d M j z A V) :
    ∃ r, autocorrelation .fabs d {} "natural" "fractional" = .ok r ∧ ∃ v : ℕ → ℚ,
      (∀ m < M, r.At j (M - 1 + m) (.fin ((m * p : ℤ) * pow2 e)) (.fin (v m))) ∧
      ∀ L, 2 * M - 1 ≤ L → ∀ m < M, ‖((v m : ℝ) : ℂ) - fftAcf M L (fun i => (z i : ℝ)) m‖ ≤ ((500 * V * (M * A ^ 2 / sumSq M z) : ℚ) : ℝ) := by
  obtain ⟨_, _, r, hr, h1⟩ := ht.result hv
  choose! v h2 using h1
  exact ⟨r, hr, v, fun m hm => (h2 m hm).1, fun L hL m hm => fft_error hL hm (h2 m hm).2⟩

end binary64

end Sacf
