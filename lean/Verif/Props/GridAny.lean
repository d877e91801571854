import Verif.Props.Levels
import Verif.Props.Classical
import Verif.Props.Sinusoid
import Verif.Props.Spectrum

/-!
# Regular grids in binary64 with any weight, any lags and any `alpha`

The binary64 results for regular grids of the other files are stated for the default call, whose lags are known.  Here the call may have any of the three weights, any `alpha`
and any lag arguments; the theorems speak about the lags of the result that are whole numbers of steps.
-/

set_option linter.unusedSectionVars false

namespace Sacf

open Finset

section
variable {ex : ℚ → ℚ} {fu : Bool} {d d' : DS (D64 ex fu)} {ga ga' : LagArgs (D64 ex fu)} {wt wt' : String} {r r' : AcResult (D64 ex fu)}
  {M M' j j' : ℕ} {e e' : ℤ} {x y z : ℕ → ℚ} {A A' V V' α α' : ℚ}

theorem Regular64.toTimes {b0 p : ℤ} (ht : Regular64 d M b0 p e) : Times64 d M (fun i => b0 + i * p) e :=
  ⟨ht.built, ht.times, fun i i' h _ => by
    have : (i : ℤ) * p < i' * p := mul_lt_mul_of_pos_right (by exact_mod_cast h) ht.step
    simpa using this, by linarith [ht.two_le], ht.le, by linarith [ht.emin], ht.emax⟩

/-- **C30 in binary64, any weight, lags and `alpha`**: at `m ≥ 0` steps the correlation on a regular grid is the textbook one up to `500 V κ`. -/
theorem C30_binary64_any_weight {b0 p : ℤ} (ht : Regular64 d M b0 p e) (hv : Values64 d M j x A V) (hr : Run64 d ga wt r α e)
    (n m : ℕ) (hm : m < M) (hn : r.lags[n]? = some (.fin ((m * p : ℤ) * pow2 e))) :
    ∃ v : ℚ, r.At j n (.fin ((m * p : ℤ) * pow2 e)) (.fin v) ∧ |v - autoCov M x m / sumSq M x| ≤ 500 * V * (M * A ^ 2 / sumSq M x) := by
  have hp := ht.step
  have hpe := pow2_pos e
  have htimes : (fun i : ℕ => ((b0 + i * p : ℤ) : ℚ) * pow2 e) = fun i : ℕ => ((b0 : ℚ) * pow2 e) + i * ((p : ℚ) * pow2 e) := by
    funext i; push_cast; ring
  have hlag : ((m * p : ℤ) : ℚ) * pow2 e = m * ((p : ℚ) * pow2 e) := by push_cast; ring
  obtain ⟨hsel, _⟩ := sacf_regular (t0 := (b0 : ℚ) * pow2 e) (δ := (p : ℚ) * pow2 e) (mul_pos (by exact_mod_cast hp) hpe)
    (w := fun _ => 1) rfl M m hm x (sumSq M x)
  have hw : weight Real.exp wt (α : ℝ) 0 = 1 := weight_zero hr.known (fun _ => Real.exp_zero) _
  obtain ⟨_, heq⟩ := sacf_regular (t0 := (((b0 : ℚ) * pow2 e : ℚ) : ℝ)) (δ := (((p : ℚ) * pow2 e : ℚ) : ℝ))
    (by exact_mod_cast mul_pos (by exact_mod_cast hp) hpe) hw M m hm (fun i => (x i : ℝ)) (sumSq M fun i => (x i : ℝ))
  rw [← htimes, ← hlag] at hsel
  have hMpz : ((M - 1 : ℕ) : ℤ) * p ≤ M * p := mul_le_mul_of_nonneg_right (by omega) hp.le
  have hmpz : (m : ℤ) * p ≤ M * p := mul_le_mul_of_nonneg_right (by omega) hp.le
  have hmp0 : 0 ≤ (m : ℤ) * p := mul_nonneg (by omega) hp.le
  have hspan := ht.span
  obtain ⟨v, h1, h2⟩ := real64_le ht.toTimes hv hr hn (by
    rw [abs_of_nonneg hmp0]
    have h51 : (2 : ℤ) ^ 51 + 2 ^ 51 ≤ 2 ^ 53 := by norm_num
    have h0 : ((0 : ℕ) : ℤ) * p = 0 := by rw [Nat.cast_zero, zero_mul]
    show (m : ℤ) * p + (b0 + ((M - 1 : ℕ) : ℤ) * p - (b0 + ((0 : ℕ) : ℤ) * p)) ≤ 2 ^ 53
    rw [h0]
    linarith) hsel zero_le_one (fun i' _ => by
    rw [one_pow]
    refine Nat.cast_le_one.2 (card_le_one.2 fun a ha b hb => ?_)
    have h1 := (mem_filter.1 ha).2.2
    have h2 := (mem_filter.1 hb).2.2
    omega)
  refine ⟨v, h1, ?_⟩
  have e1 : (fun i : ℕ => ((((b0 + i * p : ℤ) : ℚ) * pow2 e : ℚ) : ℝ)) = fun i : ℕ => (((b0 : ℚ) * pow2 e : ℚ) : ℝ) + i * (((p : ℚ) * pow2 e : ℚ) : ℝ) := by
    funext i; push_cast; ring
  have e2 : ((((m * p : ℤ) : ℚ) * pow2 e : ℚ) : ℝ) = m * (((p : ℚ) * pow2 e : ℚ) : ℝ) := by push_cast; ring
  have e3 : realAcf M (fun i => b0 + i * p) e x wt α (fun i => i + m) (m * p) = ((autoCov M x m / sumSq M x : ℚ) : ℝ) := by
    unfold realAcf
    rw [e1, e2, heq, sumSq_cast, autoCov_cast, Rat.cast_div]
  rw [e3, ← Rat.cast_sub, ← Rat.cast_abs, Rat.cast_le] at h2
  linarith

/-- **C74 in binary64**, any weights. -/
theorem C74_binary64_any_weight {b0 b0' p : ℤ} (ht : Regular64 d M b0 p e) (ht' : Regular64 d' M b0' p e) (hv : Values64 d M j x A V) (hr : Run64 d ga wt r α e)
    (hr' : Run64 d' ga' wt' r' α' e) (hrow : d'.HasRow j' (samples M y)) (hy : ∀ i < M, y i = x (M - 1 - i)) (n n' m : ℕ) (hm : m < M)
    (hn : r.lags[n]? = some (.fin ((m * p : ℤ) * pow2 e))) (hn' : r'.lags[n']? = some (.fin ((m * p : ℤ) * pow2 e))) :
    ∃ v v' : ℚ, r.At j n (.fin ((m * p : ℤ) * pow2 e)) (.fin v) ∧ r'.At j' n' (.fin ((m * p : ℤ) * pow2 e)) (.fin v') ∧
      |v - v'| ≤ 1000 * V * (M * A ^ 2 / sumSq M x) := by
  have hv' : Values64 d' M j' y A V :=
    ⟨hrow, fun i hi => by rw [hy i hi]; exact hv.bound _ (by omega), hv.amin, hv.amax, hv.unit, hv.small,
      hv.float.imp id fun h i hi => by rw [hy i hi]; exact h _ (by omega), by rw [sumSq_reverse hy]; exact hv.spread⟩
  obtain ⟨v, h2, h3⟩ := C30_binary64_any_weight ht hv hr n m hm hn
  obtain ⟨v', h2', h3'⟩ := C30_binary64_any_weight ht' hv' hr' n' m hm hn'
  rw [autoCov_reverse hy, sumSq_reverse hy] at h3'
  refine ⟨v, v', h2, h2', ?_⟩
  have := abs_sub_le v (autoCov M x m / sumSq M x) v'
  rw [abs_sub_comm (autoCov M x m / sumSq M x) v'] at this
  linarith

/-- **C75 in binary64**, any weights: `a` full periods of `P` samples. -/
theorem C75_binary64_any_weight {b0 p : ℤ} {P a : ℕ} (ht : Regular64 d (a * P) b0 p e) (hv : Values64 d (a * P) j x A V) (hr : Run64 d ga wt r α e)
    (hx : ∀ i, i + P < a * P → x (i + P) = x i) (n m : ℕ) (hm : m < a) (hn : r.lags[n]? = some (.fin (((m * P : ℕ) * p : ℤ) * pow2 e))) :
    ∃ v : ℚ, r.At j n (.fin (((m * P : ℕ) * p : ℤ) * pow2 e)) (.fin v) ∧ |v - (1 - m / a)| ≤ 500 * V * ((a * P : ℕ) * A ^ 2 / sumSq (a * P) x) := by
  obtain ⟨hN, _⟩ := hv.pos ht.toTimes
  have hP : 0 < P := by
    rcases Nat.eq_zero_or_pos P with rfl | h0
    · have := ht.two_le; omega
    · exact h0
  obtain ⟨v, h2, h3⟩ := C30_binary64_any_weight ht hv hr n (m * P) (Nat.mul_lt_mul_of_pos_right hm hP) hn
  obtain ⟨e1, e2⟩ := autoCov_periodic hx hm.le
  have ha : (a : ℚ) ≠ 0 := by exact_mod_cast (by omega : a ≠ 0)
  have hS : ∑ i ∈ range P, dev (a * P) x i ^ 2 ≠ 0 := by
    intro h0; rw [e2, h0, mul_zero] at hN; exact lt_irrefl _ hN
  have e3 : autoCov (a * P) x (m * P) / sumSq (a * P) x = 1 - m / a := by
    rw [e1, e2, Nat.cast_sub hm.le]
    field_simp
  rw [e3] at h3
  exact ⟨v, h2, h3⟩

/-- **C76 in binary64**, any weights: if the lags of the result include all whole numbers of steps. -/
theorem C76_binary64_any_weight {b0 p : ℤ} (ht : Regular64 d M b0 p e) (hv : Values64 d M j x A V) (hr : Run64 d ga wt r α e) (n : ℕ → ℕ)
    (hn : ∀ m < M, r.lags[n m]? = some (.fin ((m * p : ℤ) * pow2 e))) :
    ∃ v : ℕ → ℚ, (∀ m < M, r.At j (n m) (.fin ((m * p : ℤ) * pow2 e)) (.fin (v m))) ∧
      |∑ m ∈ Finset.Ico 1 M, v m + 1 / 2| ≤ (M - 1 : ℕ) * (500 * V * (M * A ^ 2 / sumSq M x)) := by
  obtain ⟨hN, _⟩ := hv.pos ht.toTimes
  have h1 := fun m hm => C30_binary64_any_weight ht hv hr (n m) m hm (hn m hm)
  choose! v h2 using h1
  refine ⟨v, fun m hm => (h2 m hm).1, ?_⟩
  have hM : 0 < M := by linarith [ht.two_le]
  have e1 : ∑ m ∈ Finset.Ico 1 M, v m + 1 / 2 = ∑ m ∈ Finset.Ico 1 M, (v m - autoCov M x m / sumSq M x) := by
    rw [Finset.sum_sub_distrib, sum_autoCov hM hN.ne']; ring
  rw [e1]
  refine (Finset.abs_sum_le_sum_abs _ _).trans ?_
  refine (Finset.sum_le_card_nsmul _ _ _ fun m hm => (h2 m (Finset.mem_Ico.1 hm).2).2).trans ?_
  rw [Nat.card_Ico, nsmul_eq_mul]

/-- **C80 in binary64**, any weights: if the lags of the result include all whole numbers of steps. -/
theorem C80_binary64_any_weight {b0 p : ℤ} (ht : Regular64 d M b0 p e) (hv : Values64 d M j x A V) (hr : Run64 d ga wt r α e) (n : ℕ → ℕ)
    (hn : ∀ m < M, r.lags[n m]? = some (.fin ((m * p : ℤ) * pow2 e))) :
    ∃ v : ℕ → ℚ, (∀ m < M, r.At j (n m) (.fin ((m * p : ℤ) * pow2 e)) (.fin (v m))) ∧
      ∀ N ≤ M, ∀ c : ℕ → ℚ, -(500 * V * (M * A ^ 2 / sumSq M x)) * (∑ a ∈ range N, |c a|) ^ 2
        ≤ ∑ a ∈ range N, ∑ b ∈ range N, c a * c b * v ((a - b) + (b - a)) := by
  have h1 := fun m hm => C30_binary64_any_weight ht hv hr (n m) m hm (hn m hm)
  choose! v h2 using h1
  refine ⟨v, fun m hm => (h2 m hm).1, fun N hN c => ?_⟩
  have h := autoCov_psd x M N c
  set E := 500 * V * (M * A ^ 2 / sumSq M x) with hE
  have e1 : ∑ a ∈ range N, ∑ b ∈ range N, c a * c b * v ((a - b) + (b - a))
      = ∑ a ∈ range N, ∑ b ∈ range N, c a * c b * (autoCov M x ((a - b) + (b - a)) / sumSq M x)
        + ∑ a ∈ range N, ∑ b ∈ range N, c a * c b * (v ((a - b) + (b - a)) - autoCov M x ((a - b) + (b - a)) / sumSq M x) := by
    rw [← Finset.sum_add_distrib]
    refine Finset.sum_congr rfl fun a _ => ?_
    rw [← Finset.sum_add_distrib]
    exact Finset.sum_congr rfl fun b _ => by ring
  have e2 : E * (∑ a ∈ range N, |c a|) ^ 2 = ∑ a ∈ range N, ∑ b ∈ range N, |c a| * |c b| * E := by
    rw [pow_two, Finset.sum_mul_sum, Finset.mul_sum]
    refine Finset.sum_congr rfl fun a _ => ?_
    rw [Finset.mul_sum]
    exact Finset.sum_congr rfl fun b _ => by ring
  have h3 : |∑ a ∈ range N, ∑ b ∈ range N, c a * c b * (v ((a - b) + (b - a)) - autoCov M x ((a - b) + (b - a)) / sumSq M x)|
      ≤ E * (∑ a ∈ range N, |c a|) ^ 2 := by
    rw [e2]
    refine (Finset.abs_sum_le_sum_abs _ _).trans (Finset.sum_le_sum fun a ha => ?_)
    refine (Finset.abs_sum_le_sum_abs _ _).trans (Finset.sum_le_sum fun b hb => ?_)
    have ha := Finset.mem_range.1 ha
    have hb := Finset.mem_range.1 hb
    rw [abs_mul, abs_mul]
    exact mul_le_mul_of_nonneg_left (h2 _ (by omega)).2 (by positivity)
  have h4 := neg_le_of_abs_le h3
  rw [e1]
  linarith

/-- **C82 in binary64**, any weights. -/
theorem C82_binary64_any_weight {b0 p : ℤ} {P a : ℕ} (ht : Regular64 d (a * P) b0 p e) (hv : Values64 d (a * P) j x A V) (hr : Run64 d ga wt r α e)
    (hx : ∀ i, i + P < a * P → x (i + P) = x i) (b m n n' : ℕ) (hb : b * P ≤ m) (hm : m < a * P) (hn : r.lags[n]? = some (.fin (((b * P : ℕ) * p : ℤ) * pow2 e)))
    (hn' : r.lags[n']? = some (.fin ((m * p : ℤ) * pow2 e))) :
    ∃ v v' : ℚ, r.At j n (.fin (((b * P : ℕ) * p : ℤ) * pow2 e)) (.fin v) ∧ r.At j n' (.fin ((m * p : ℤ) * pow2 e)) (.fin v') ∧
      |v'| ≤ v + 1000 * V * ((a * P : ℕ) * A ^ 2 / sumSq (a * P) x) := by
  obtain ⟨hN, _⟩ := hv.pos ht.toTimes
  have hb' : b < a := by
    by_contra hc
    have := Nat.mul_le_mul_right P (not_lt.1 hc)
    omega
  obtain ⟨v, h2, h3⟩ := C75_binary64_any_weight ht hv hr hx n b hb' hn
  obtain ⟨v', h2', h3'⟩ := C30_binary64_any_weight ht hv hr n' m hm hn'
  refine ⟨v, v', h2, h2', ?_⟩
  have h4 := periodic_quotient hx hN.ne' hb'.le hb
  set ρ := autoCov (a * P) x m / sumSq (a * P) x
  have h5 : |v'| ≤ |ρ| + |v' - ρ| := by
    have := abs_add_le ρ (v' - ρ)
    rwa [add_sub_cancel] at this
  have h6 := (abs_le.1 h3).1
  linarith

/-- **C83 in binary64**, any weights. -/
theorem C83_binary64_any_weight {b0 p : ℤ} (ht : Regular64 d M b0 p e) (hv : Values64 d M j x A V) (hr : Run64 d ga wt r α e) (c b : ℚ) (hx : ∀ i < M, x i = c + b * i)
    (n m : ℕ) (hm : m < M) (hn : r.lags[n]? = some (.fin ((m * p : ℤ) * pow2 e))) :
    ∃ v : ℚ, r.At j n (.fin ((m * p : ℤ) * pow2 e)) (.fin v) ∧
      |v - (M - m) * ((M - m) ^ 2 - 1 - 3 * m ^ 2) / (M * (M ^ 2 - 1))| ≤ 500 * V * (M * A ^ 2 / sumSq M x) := by
  rw [← ramp_quotient hx (hv.pos ht.toTimes).1.ne' hm]
  exact C30_binary64_any_weight ht hv hr n m hm hn

/-- **C84 in binary64**, any weights. -/
theorem C84_binary64_any_weight {b0 p : ℤ} (ht : Regular64 d M b0 p e) (hv : Values64 d M j x A V) (hr : Run64 d ga wt r α e) (c a : ℚ) (i0 : ℕ) (hi0 : i0 < M)
    (hx : ∀ i < M, x i = if i = i0 then c + a else c) (n m : ℕ) (hm0 : 0 < m) (hm : m < M) (hn : r.lags[n]? = some (.fin ((m * p : ℤ) * pow2 e))) :
    ∃ v : ℚ, r.At j n (.fin ((m * p : ℤ) * pow2 e)) (.fin v) ∧
      |v - ((M - m) / M - ((if i0 + m < M then 1 else 0) + if m ≤ i0 then 1 else 0)) / (M - 1)| ≤ 500 * V * (M * A ^ 2 / sumSq M x) ∧
      |v| ≤ 2 / (M - 1) + 500 * V * (M * A ^ 2 / sumSq M x) := by
  obtain ⟨v, h2, h3⟩ := C30_binary64_any_weight ht hv hr n m hm hn
  rw [outlier_quotient hi0 hx (hv.pos ht.toTimes).1.ne' hm0 hm] at h3
  refine ⟨v, h2, ?_, ?_⟩
  · unfold partners at h3
    push_cast at h3
    exact h3
  · have h4 := outlier_small (K := ℚ) (i0 := i0) hm0 hm
    set ρ := ((M - m : ℚ) / M - partners M i0 m) / (M - 1)
    have h5 : |v| ≤ |ρ| + |v - ρ| := by
      have := abs_add_le ρ (v - ρ)
      rwa [add_sub_cancel] at this
    linarith

/-- **C95 in binary64**, any weights. -/
theorem C95_binary64_any_weight {a b : ℕ} {b0 b0' p p' : ℤ} (ht : Regular64 d M b0 p e) (ht' : Regular64 d' M' b0' p' e') (hv : Values64 d M j x A V)
    (hv' : Values64 d' M' j' z A' V') (hr : Run64 d ga wt r α e) (hr' : Run64 d' ga' wt' r' α' e') (hp : Placed M M' a b x z) :
    (∀ m n n', m < M → r.lags[n]? = some (.fin ((m * p : ℤ) * pow2 e)) → r'.lags[n']? = some (.fin (((m * b : ℕ) * p' : ℤ) * pow2 e')) →
      ∃ v v' : ℚ, r.At j n (.fin ((m * p : ℤ) * pow2 e)) (.fin v) ∧ r'.At j' n' (.fin (((m * b : ℕ) * p' : ℤ) * pow2 e')) (.fin v') ∧
        |v - v'| ≤ 500 * (V * (M * A ^ 2) + V' * (M' * A' ^ 2)) / sumSq M x) ∧
    ∀ m' n', m' < M' → (∀ m < M, m' ≠ m * b) → r'.lags[n']? = some (.fin ((m' * p' : ℤ) * pow2 e')) →
      ∃ v' : ℚ, r'.At j' n' (.fin ((m' * p' : ℤ) * pow2 e')) (.fin v') ∧ |v'| ≤ 500 * V' * (M' * A' ^ 2 / sumSq M x) := by
  refine ⟨fun m n n' hm hn hn' => ?_, fun m' n' hm' hne hn' => ?_⟩
  · have h1 : m * b < M' := by
      have := hp.lt hm
      rw [Nat.mul_comm] at this
      omega
    obtain ⟨v, k₁, q₁⟩ := C30_binary64_any_weight ht hv hr n m hm hn
    obtain ⟨v', k₂, q₂⟩ := C30_binary64_any_weight ht' hv' hr' n' (m * b) h1 hn'
    rw [hp.autoCov hm, hp.sumSq] at q₂
    refine ⟨v, v', k₁, k₂, ?_⟩
    have e1 : 500 * (V * (M * A ^ 2) + V' * (M' * A' ^ 2)) / sumSq M x
        = 500 * V * (M * A ^ 2 / sumSq M x) + 500 * V' * (M' * A' ^ 2 / sumSq M x) := by ring
    rw [e1]
    rw [abs_le] at *
    constructor <;> linarith [q₁.1, q₁.2, q₂.1, q₂.2]
  · obtain ⟨v', k₂, q₂⟩ := C30_binary64_any_weight ht' hv' hr' n' m' hm' hn'
    rw [hp.autoCov_rest hne, zero_div, sub_zero, hp.sumSq] at q₂
    exact ⟨v', k₂, q₂⟩

/-- **C96 in binary64**, any weights. -/
theorem C96_binary64_any_weight {b0 p : ℤ} (ht : Regular64 d M b0 p e) (hv : Values64 d M j x A V) (hr : Run64 d ga wt r α e)
    (n m : ℕ) (hm : m < M) (hn : r.lags[n]? = some (.fin ((m * p : ℤ) * pow2 e))) :
    ∃ v : ℚ, r.At j n (.fin ((m * p : ℤ) * pow2 e)) (.fin v) ∧
      |v - (1 - (∑ i ∈ range (M - m), (x (i + m) - x i) ^ 2 + (∑ i ∈ range m, dev M x i ^ 2 + ∑ i ∈ range m, dev M x (M - m + i) ^ 2)) / (2 * sumSq M x))|
        ≤ 500 * V * (M * A ^ 2 / sumSq M x) := by
  rw [← structure_quotient hm (hv.pos ht.toTimes).1.ne']
  exact C30_binary64_any_weight ht hv hr n m hm hn

/-- **C97 in binary64**, any weights. -/
theorem C97_binary64_any_weight {b0 p : ℤ} (ht : Regular64 d M b0 p e) (hv : Values64 d M j x A V) (hr : Run64 d ga wt r α e)
    (n m : ℕ) (hm0 : 0 < m) (hm : m < M) (hn : r.lags[n]? = some (.fin ((m * p : ℤ) * pow2 e))) :
    ∃ v : ℚ, r.At j n (.fin ((m * p : ℤ) * pow2 e)) (.fin v) ∧
      |(v : ℝ)| ≤ Real.cos (Real.pi / (((M - 1) / m : ℕ) + 2)) + (500 * V * (M * A ^ 2 / sumSq M x) : ℚ) := by
  obtain ⟨v, h2, h3⟩ := C30_binary64_any_weight ht hv hr n m hm hn
  refine ⟨v, h2, ?_⟩
  have h4 := cos_quotient hm0 hm (hv.pos ht.toTimes).1.ne'
  have e1 : lagBound M m = Real.cos (Real.pi / (((M - 1) / m : ℕ) + 2)) := by
    unfold lagBound
    congr 2
    push_cast
    ring
  rw [e1] at h4
  set ρ := autoCov M x m / sumSq M x
  have h5 : |(v : ℝ)| ≤ |(ρ : ℝ)| + |((v - ρ : ℚ) : ℝ)| := by
    have := abs_add_le (ρ : ℝ) ((v - ρ : ℚ) : ℝ)
    have e2 : (ρ : ℝ) + ((v - ρ : ℚ) : ℝ) = v := by push_cast; ring
    rwa [e2] at this
  have h6 : |((v - ρ : ℚ) : ℝ)| ≤ ((500 * V * (M * A ^ 2 / sumSq M x) : ℚ) : ℝ) := by
    rw [← Rat.cast_abs]
    exact Rat.cast_le.2 h3
  linarith

/-- **C104 in binary64 on a regular grid**, any weights. -/
theorem C104_binary64_any_weight {H : ℕ → Prop} [DecidablePred H] {h : ℕ} {c a : ℚ} {b0 p : ℤ} (ht : Regular64 d M b0 p e) (hv : Values64 d M j x A V)
    (hr : Run64 d ga wt r α e) (hx : ∀ i < M, x i = if H i then c + a else c) (ha : a ≠ 0) (hh : ((range M).filter H).card = h) (h0 : 0 < h) (h1 : h < M)
    (n m : ℕ) (hm : m < M) (hn : r.lags[n]? = some (.fin ((m * p : ℤ) * pow2 e))) :
    ∃ v : ℚ, r.At j n (.fin ((m * p : ℤ) * pow2 e)) (.fin v) ∧
      |v - gridAcf M m h ((range (M - m)).filter fun i => H i ∧ H (i + m)).card ((range (M - m)).filter H).card ((range (M - m)).filter fun i => H (i + m)).card|
        ≤ 500 * V * (M * A ^ 2 / sumSq M x) := by
  rw [← level_quotient hx ha hh h0 h1 hm]
  exact C30_binary64_any_weight ht hv hr n m hm hn

end

section
open Real
variable {ex : ℚ → ℚ} {fu : Bool} {d : DS (D64 ex fu)} {ga : LagArgs (D64 ex fu)} {wt : String} {r : AcResult (D64 ex fu)}
  {M j : ℕ} {e : ℤ} {z : ℕ → ℚ} {A V α : ℚ} {c a ω φ : ℝ}

/-- **C102 in binary64**, any weights, with errors up to `η` in the values. -/
theorem C102_binary64_any_weight {b0 p : ℤ} (ht : Regular64 d M b0 p e) (hv : Values64 d M j z A V) (hr : Run64 d ga wt r α e) (ha : a ≠ 0) (h0 : 0 < ω) (hπ : ω < π)
    (η : ℝ) (hz : ∀ i < M, |(z i : ℝ) - (c + a * cos (ω * i + φ))| ≤ η) (hE : 1 / sin ω + 6 / (M * sin (ω / 2) ^ 2) < M)
    (q : ℝ) (hq : 0 ≤ q) (hq1 : q < 1) (hηq : 2 * M * η ^ 2 ≤ q ^ 2 * (a ^ 2 * (M - (1 / sin ω + 6 / (M * sin (ω / 2) ^ 2)))))
    (n m : ℕ) (hm : m < M) (hn : r.lags[n]? = some (.fin ((m * p : ℤ) * pow2 e))) :
    ∃ v : ℚ, r.At j n (.fin ((m * p : ℤ) * pow2 e)) (.fin v) ∧
      |(v : ℝ) - (1 - m / M) * cos (ω * m)| ≤ 2 * (1 / sin ω + 6 / (M * sin (ω / 2) ^ 2)) / (M - (1 / sin ω + 6 / (M * sin (ω / 2) ^ 2)))
        + (4 * q + 2 * q ^ 2) / (1 - q) ^ 2 + (500 * V * (M * A ^ 2 / sumSq M z) : ℚ) := by
  obtain ⟨v, h1, h2⟩ := C30_binary64_any_weight ht hv hr n m hm hn
  refine ⟨v, h1, ?_⟩
  set x : ℕ → ℝ := fun i => c + a * cos (ω * i + φ) with hxdef
  obtain ⟨h3, h4⟩ := acf_cos (x := x) ha h0 hπ hE (fun _ _ => rfl) hm
  have hpos : 0 < a ^ 2 * (M - sineErr M ω) := mul_pos (by positivity) (sub_pos.2 hE)
  have hS : sumSq M x ≠ 0 := by intro h5; rw [h5] at h3; linarith
  have hnoise : ∑ i ∈ range M, ((z i : ℝ) - x i) ^ 2 ≤ q ^ 2 * sumSq M x := by
    have h5 : ∑ i ∈ range M, ((z i : ℝ) - x i) ^ 2 ≤ ∑ _i ∈ range M, η ^ 2 := Finset.sum_le_sum fun i hi => by
      rw [← sq_abs]
      exact pow_le_pow_left₀ (abs_nonneg _) (hz i (Finset.mem_range.1 hi)) 2
    rw [Finset.sum_const, Finset.card_range, nsmul_eq_mul] at h5
    have h6 : q ^ 2 * (a ^ 2 * (M - sineErr M ω)) ≤ q ^ 2 * (2 * sumSq M x) := mul_le_mul_of_nonneg_left h3 (sq_nonneg q)
    have h7 : 2 * M * η ^ 2 ≤ q ^ 2 * (a ^ 2 * (M - sineErr M ω)) := hηq
    linarith
  have h8 := autoCov_noise (y := fun i => (z i : ℝ)) hS hq hq1 hnoise hm
  rw [autoCov_cast, sumSq_cast] at h8
  have h9 : |(v : ℝ) - ((autoCov M z m : ℚ) : ℝ) / ((sumSq M z : ℚ) : ℝ)| ≤ (500 * V * (M * A ^ 2 / sumSq M z) : ℚ) := by
    have h9' : ((|v - autoCov M z m / sumSq M z| : ℚ) : ℝ) ≤ (500 * V * (M * A ^ 2 / sumSq M z) : ℚ) := by exact_mod_cast h2
    rw [Rat.cast_abs, Rat.cast_sub, Rat.cast_div] at h9'
    exact h9'
  have h10 := (abs_add_le _ _).trans (add_le_add h9 ((abs_add_le _ _).trans (add_le_add h8 h4)))
  rw [sub_add_sub_cancel, sub_add_sub_cancel] at h10
  refine h10.trans_eq ?_
  unfold sineErr
  ring

end
end Sacf
