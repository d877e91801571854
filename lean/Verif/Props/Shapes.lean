import Verif.Props.Stability

/-!
# Signals of known shape on a regular grid: the period is the highest peak (C82), linear trends (C83), a single outlier (C84)

In exact arithmetic and, with the error bound of C61, in binary64.
-/

set_option linter.unusedSectionVars false

namespace Sacf

open Finset

section exact
variable {K : Type} [Field K] [LinearOrder K] [IsStrictOrderedRing K] [FloorRing K]
variable {dm : K} {f32 ex : K → K}
variable {d : DS (Exact dm f32 ex)} {g : LagArgs (Exact dm f32 ex)} {wt : String} {r : AcResult (Exact dm f32 ex)}
  {M : ℕ} {j : ℕ} {x : ℕ → K} {α : K}

/-! ## C82 -/

theorem dev_period {P a : ℕ} (hx : ∀ i, i + P < a * P → x (i + P) = x i) :
    ∀ b i, i + b * P < a * P → dev (a * P) x (i + b * P) = dev (a * P) x i := by
  intro b
  induction b with
  | zero => intro i _; rw [Nat.zero_mul, Nat.add_zero]
  | succ b ih =>
    intro i hi
    rw [Nat.succ_mul] at hi
    have e : i + (b + 1) * P = i + b * P + P := by rw [Nat.succ_mul]; omega
    rw [e]
    unfold dev
    rw [hx _ (by omega)]
    exact ih i (by omega)

theorem autoCov_le_peak {P a b m : ℕ} (hx : ∀ i, i + P < a * P → x (i + P) = x i) (hb : b ≤ a) (hm : b * P ≤ m) :
    |autoCov (a * P) x m| ≤ (a - b : ℕ) * ∑ i ∈ range P, dev (a * P) x i ^ 2 := by
  set y := dev (a * P) x with hy
  have hper : ∀ i, i + P < a * P → y (i + P) = y i := fun i hi => by
    have := dev_period hx 1 i (by omega)
    rwa [one_mul] at this
  have hsum : ∑ i ∈ range (a * P - b * P), y i ^ 2 = (a - b : ℕ) * ∑ i ∈ range P, y i ^ 2 := by
    have e : a * P - b * P = (a - b) * P := (Nat.sub_mul a b P).symm
    rw [e]
    have hle : b * P ≤ a * P := Nat.mul_le_mul_right P hb
    exact sum_repeat (P := P) (f := fun i => y i ^ 2) (a - b) fun i hi => by rw [hper i (by rw [← e] at hi; omega)]
  have h1 : ∑ i ∈ range (a * P - m), y i ^ 2 ≤ ∑ i ∈ range (a * P - b * P), y i ^ 2 :=
    Finset.sum_le_sum_of_subset_of_nonneg (Finset.range_subset_range.2 (by omega)) fun _ _ _ => sq_nonneg _
  have h2 : ∑ i ∈ range (a * P - m), y (i + m) ^ 2 ≤ ∑ i ∈ range (a * P - b * P), y i ^ 2 := by
    have e1 : ∀ i ∈ range (a * P - m), y (i + m) ^ 2 = y (i + (m - b * P)) ^ 2 := by
      intro i hi
      have hi := Finset.mem_range.1 hi
      have := dev_period hx b (i + (m - b * P)) (by omega)
      rw [show i + (m - b * P) + b * P = i + m by omega] at this
      rw [hy, this]
    rw [Finset.sum_congr rfl e1]
    rw [Finset.range_eq_Ico, Finset.sum_Ico_add' (fun i => y i ^ 2) 0 (a * P - m) (m - b * P)]
    refine Finset.sum_le_sum_of_subset_of_nonneg ?_ fun _ _ _ => sq_nonneg _
    intro i hi
    rw [Finset.mem_Ico] at hi
    rw [Finset.mem_range]
    omega
  rw [← hsum]
  unfold autoCov
  refine (Finset.abs_sum_le_sum_abs _ _).trans ?_
  have h3 : ∑ i ∈ range (a * P - m), |y i * y (i + m)| ≤ ∑ i ∈ range (a * P - m), 1 / 2 * (y i ^ 2 + y (i + m) ^ 2) := by
    apply Finset.sum_le_sum
    intro i _
    rw [abs_mul]
    have := sq_nonneg (|y i| - |y (i + m)|)
    have e1 := sq_abs (y i)
    have e2 := sq_abs (y (i + m))
    nlinarith
  refine h3.trans ?_
  rw [← Finset.mul_sum, Finset.sum_add_distrib]
  linarith

theorem periodic_quotient {P a b m : ℕ} (hx : ∀ i, i + P < a * P → x (i + P) = x i) (hv : sumSq (a * P) x ≠ 0) (hb : b ≤ a) (hm : b * P ≤ m) :
    |autoCov (a * P) x m / sumSq (a * P) x| ≤ 1 - b / a := by
  have h := autoCov_le_peak hx hb hm
  obtain ⟨_, e2⟩ := autoCov_periodic hx hb
  have hS : 0 < sumSq (a * P) x := lt_of_le_of_ne (Finset.sum_nonneg fun i _ => sq_nonneg _) (Ne.symm hv)
  have ha : (0 : K) < a := by
    rcases Nat.eq_zero_or_pos a with rfl | h0
    · rw [e2] at hv; simp at hv
    · exact_mod_cast h0
  rw [abs_div, abs_of_pos hS, div_le_iff₀ hS]
  refine h.trans (le_of_eq ?_)
  rw [e2, Nat.cast_sub hb]
  field_simp

/-- **C82**: a signal of `a` full periods of `P` samples on a regular grid.  No correlation at `b` periods or beyond exceeds the one at `b` periods, `1 - b / a`, in size;
in particular (`b = 1`) none at or beyond the period exceeds the one at the period. -/
theorem C82_peak {t0 δ : K} {P a : ℕ} (h : NaturalRun d g wt r (a * P) (fun i : ℕ => t0 + i * δ) j x α) (hδ : 0 < δ)
    (hx : ∀ i, i + P < a * P → x (i + P) = x i) (hf : ∀ i < a * P, f32 (x i) = x i) (hv : sumSq (a * P) x ≠ 0)
    (he : wt = "gaussian" → ex 0 = 1) (b m n n' : ℕ) (hb : b * P ≤ m) (hm : m < a * P)
    (hn : r.lags[n]? = some (.fin ((b * P : ℕ) * δ))) (hn' : r.lags[n']? = some (.fin (m * δ))) :
    ∃ v v', r.At j n (.fin ((b * P : ℕ) * δ)) (.fin v) ∧ r.At j n' (.fin (m * δ)) (.fin v') ∧ |v'| ≤ v := by
  have hb' : b < a := by
    by_contra hc
    have := Nat.mul_le_mul_right P (not_lt.1 hc)
    omega
  exact ⟨_, _, C75_periodic h hδ hx hf hv he b n hb' hn, C30_regular h hδ hf hv he m n' hm hn', periodic_quotient hx hv hb'.le hb⟩

/-! ## C83 -/

theorem sum_ramp (p q : K) : ∀ L : ℕ, ∑ i ∈ range L, (i + p) * (i + q) = L * p * q + (p + q) * (L * (L - 1) / 2) + (L - 1) * L * (2 * L - 1) / 6
  | 0 => by simp
  | L + 1 => by
    rw [Finset.sum_range_succ, sum_ramp p q L]
    push_cast
    field_simp
    ring

theorem sum_nat : ∀ L : ℕ, ∑ i ∈ range L, (i : K) = L * (L - 1) / 2
  | 0 => by simp
  | L + 1 => by
    rw [Finset.sum_range_succ, sum_nat L]
    push_cast
    field_simp
    ring

theorem dev_ramp {c b : K} (hx : ∀ i < M, x i = c + b * i) {i : ℕ} (hi : i < M) : dev M x i = b * (i + -((M - 1) / 2)) := by
  have hM : (M : K) ≠ 0 := by exact_mod_cast (by omega : M ≠ 0)
  have hmean : mean M x = c + b * ((M - 1) / 2) := by
    unfold mean
    rw [Finset.sum_congr rfl (fun i hi => hx i (Finset.mem_range.1 hi)), Finset.sum_add_distrib, ← Finset.mul_sum, sum_nat, Finset.sum_const, Finset.card_range,
      nsmul_eq_mul]
    field_simp
  unfold dev
  rw [hmean, hx i hi]
  ring

theorem autoCov_ramp {c b : K} (hx : ∀ i < M, x i = c + b * i) {m : ℕ} (hm : m < M) :
    autoCov M x m = b ^ 2 * ((M - m) * ((M - m) ^ 2 - 1 - 3 * m ^ 2) / 12) := by
  unfold autoCov
  have e : ∀ i ∈ range (M - m), dev M x i * dev M x (i + m) = b ^ 2 * ((i + -((M - 1) / 2)) * (i + (m - (M - 1) / 2))) := by
    intro i hi
    have hi := Finset.mem_range.1 hi
    rw [dev_ramp hx (by omega), dev_ramp hx (by omega)]
    push_cast
    ring
  rw [Finset.sum_congr rfl e, ← Finset.mul_sum, sum_ramp, Nat.cast_sub hm.le]
  congr 1
  field_simp
  ring

theorem ramp_quotient {c b : K} (hx : ∀ i < M, x i = c + b * i) (hv : sumSq M x ≠ 0) {m : ℕ} (hm : m < M) :
    autoCov M x m / sumSq M x = (M - m) * ((M - m) ^ 2 - 1 - 3 * m ^ 2) / (M * (M ^ 2 - 1)) := by
  have e0 : sumSq M x = autoCov M x 0 := by
    unfold sumSq autoCov
    exact Finset.sum_congr rfl fun i _ => by rw [Nat.add_zero, sq]
  have hs : sumSq M x = b ^ 2 * (M * (M ^ 2 - 1) / 12) := by
    rw [e0, autoCov_ramp hx (by omega)]
    push_cast
    ring
  have hb : b ≠ 0 := by rintro rfl; rw [hs] at hv; simp at hv
  have hM : (M : K) * (M ^ 2 - 1) ≠ 0 := by intro h0; rw [hs, h0] at hv; simp at hv
  rw [autoCov_ramp hx hm, hs]
  field_simp

/-- **C83**: values on a straight line, on a regular grid.  The correlations depend only on the number of samples, not on the slope. -/
theorem C83_trend {t0 δ : K} (h : NaturalRun d g wt r M (fun i : ℕ => t0 + i * δ) j x α) (hδ : 0 < δ) (c b : K) (hx : ∀ i < M, x i = c + b * i)
    (hf : ∀ i < M, f32 (x i) = x i) (hv : sumSq M x ≠ 0) (he : wt = "gaussian" → ex 0 = 1)
    (m n : ℕ) (hm : m < M) (hn : r.lags[n]? = some (.fin (m * δ))) :
    r.At j n (.fin (m * δ)) (.fin ((M - m) * ((M - m) ^ 2 - 1 - 3 * m ^ 2) / (M * (M ^ 2 - 1)))) := by
  rw [← ramp_quotient hx hv hm]
  exact C30_regular h hδ hf hv he m n hm hn

/-! ## C84 -/

theorem dev_outlier {c a : K} {i0 : ℕ} (hi0 : i0 < M) (hx : ∀ i < M, x i = if i = i0 then c + a else c) {i : ℕ} (hi : i < M) :
    dev M x i = a * ((if i = i0 then 1 else 0) - 1 / M) := by
  have hM : (M : K) ≠ 0 := by exact_mod_cast (by omega : M ≠ 0)
  have hmean : mean M x = c + a / M := by
    unfold mean
    have e : ∀ i ∈ range M, x i = c + if i = i0 then a else 0 := fun i hi => by
      rw [hx i (Finset.mem_range.1 hi)]; split <;> simp
    rw [Finset.sum_congr rfl e, Finset.sum_add_distrib, Finset.sum_ite_eq', if_pos (Finset.mem_range.2 hi0), Finset.sum_const, Finset.card_range, nsmul_eq_mul]
    field_simp
  unfold dev
  rw [hmean, hx i hi]
  split
  · ring
  · ring

/-- how many of the two samples `m` steps before and after sample `i0` exist -/
def partners (M i0 m : ℕ) : ℕ := (if i0 + m < M then 1 else 0) + if m ≤ i0 then 1 else 0

theorem autoCov_outlier {c a : K} {i0 : ℕ} (hi0 : i0 < M) (hx : ∀ i < M, x i = if i = i0 then c + a else c) {m : ℕ} (hm0 : 0 < m) (hm : m < M) :
    autoCov M x m = a ^ 2 * ((M - m) / M ^ 2 - partners M i0 m / M) := by
  have hM : (M : K) ≠ 0 := by exact_mod_cast (by omega : M ≠ 0)
  unfold autoCov
  have e : ∀ i ∈ range (M - m), dev M x i * dev M x (i + m)
      = a ^ 2 * (1 / M ^ 2 - (1 / M) * (if i = i0 then 1 else 0) - (1 / M) * (if i + m = i0 then 1 else 0)) := by
    intro i hi
    have hi := Finset.mem_range.1 hi
    rw [dev_outlier hi0 hx (by omega), dev_outlier hi0 hx (by omega)]
    by_cases h1 : i = i0
    · rw [if_pos h1, if_neg (by omega)]; ring
    · rw [if_neg h1]
      split <;> ring
  have s1 : ∑ i ∈ range (M - m), (if i = i0 then (1 : K) else 0) = if i0 + m < M then 1 else 0 := by
    rw [Finset.sum_ite_eq']
    simp only [Finset.mem_range]
    congr 1
    rw [eq_iff_iff]
    omega
  have s2 : ∑ i ∈ range (M - m), (if i + m = i0 then (1 : K) else 0) = if m ≤ i0 then 1 else 0 := by
    by_cases h : m ≤ i0
    · rw [if_pos h]
      have e2 : ∀ i ∈ range (M - m), (if i + m = i0 then (1 : K) else 0) = if i = i0 - m then 1 else 0 := fun i _ => by
        congr 1
        rw [eq_iff_iff]
        omega
      rw [Finset.sum_congr rfl e2, Finset.sum_ite_eq', if_pos (Finset.mem_range.2 (by omega))]
    · rw [if_neg h]
      exact Finset.sum_eq_zero fun i _ => if_neg (by omega)
  rw [Finset.sum_congr rfl e, ← Finset.mul_sum, Finset.sum_sub_distrib, Finset.sum_sub_distrib, ← Finset.mul_sum, ← Finset.mul_sum, s1, s2, Finset.sum_const,
    Finset.card_range, nsmul_eq_mul, Nat.cast_sub hm.le]
  unfold partners
  push_cast
  ring

theorem sumSq_outlier {c a : K} {i0 : ℕ} (hi0 : i0 < M) (hx : ∀ i < M, x i = if i = i0 then c + a else c) : sumSq M x = a ^ 2 * (1 - 1 / M) := by
  have hM : (M : K) ≠ 0 := by exact_mod_cast (by omega : M ≠ 0)
  unfold sumSq
  have e : ∀ i ∈ range M, dev M x i ^ 2 = a ^ 2 * (1 / M ^ 2 + (1 - 2 / M) * if i = i0 then 1 else 0) := by
    intro i hi
    rw [dev_outlier hi0 hx (Finset.mem_range.1 hi)]
    split <;> ring
  rw [Finset.sum_congr rfl e, ← Finset.mul_sum, Finset.sum_add_distrib, ← Finset.mul_sum, Finset.sum_ite_eq', if_pos (Finset.mem_range.2 hi0), Finset.sum_const,
    Finset.card_range, nsmul_eq_mul]
  congr 1
  field_simp
  ring

theorem outlier_quotient {c a : K} {i0 : ℕ} (hi0 : i0 < M) (hx : ∀ i < M, x i = if i = i0 then c + a else c) (hv : sumSq M x ≠ 0) {m : ℕ} (hm0 : 0 < m)
    (hm : m < M) : autoCov M x m / sumSq M x = ((M - m) / M - partners M i0 m) / (M - 1) := by
  have hM : (M : K) ≠ 0 := by exact_mod_cast (by omega : M ≠ 0)
  have hs := sumSq_outlier hi0 hx
  have ha : a ≠ 0 := by rintro rfl; rw [hs] at hv; simp at hv
  have hM1 : (M : K) - 1 ≠ 0 := by
    have : (1 : K) < M := by exact_mod_cast (by omega : 1 < M)
    linarith
  rw [autoCov_outlier hi0 hx hm0 hm, hs]
  field_simp

theorem outlier_small {i0 m : ℕ} (hm0 : 0 < m) (hm : m < M) : |((M - m) / M - (partners M i0 m : K)) / (M - 1)| ≤ 2 / (M - 1) := by
  have hM1 : (0 : K) < M - 1 := by
    have : (1 : K) < M := by exact_mod_cast (by omega : 1 < M)
    linarith
  have hM : (0 : K) < M := by linarith
  rw [abs_div, abs_of_pos hM1]
  refine div_le_div_of_nonneg_right ?_ hM1.le
  have h1 : 0 ≤ ((M : K) - m) / M := div_nonneg (by have : (m : K) ≤ M := by exact_mod_cast hm.le
                                                    linarith) hM.le
  have h2 : ((M : K) - m) / M ≤ 1 := (div_le_one hM).2 (by have : (0 : K) ≤ m := Nat.cast_nonneg m
                                                           linarith)
  have h3 : (partners M i0 m : K) ≤ 2 := by
    have : partners M i0 m ≤ 2 := by unfold partners; split <;> split <;> omega
    exact_mod_cast this
  have h4 : (0 : K) ≤ partners M i0 m := Nat.cast_nonneg _
  rw [abs_le]
  constructor <;> linarith

/-- **C84**: constant values but for one sample, on a regular grid.  However large the outlier, the correlation at `m > 0` steps is
`((M - m) / M - n) / (M - 1)`, `n` the number of samples `m` steps away from it, and so at most `2 / (M - 1)` in size. -/
theorem C84_outlier {t0 δ : K} (h : NaturalRun d g wt r M (fun i : ℕ => t0 + i * δ) j x α) (hδ : 0 < δ) (c a : K) (i0 : ℕ) (hi0 : i0 < M)
    (hx : ∀ i < M, x i = if i = i0 then c + a else c) (hf : ∀ i < M, f32 (x i) = x i) (hv : sumSq M x ≠ 0) (he : wt = "gaussian" → ex 0 = 1)
    (m n : ℕ) (hm0 : 0 < m) (hm : m < M) (hn : r.lags[n]? = some (.fin (m * δ))) :
    ∃ v, r.At j n (.fin (m * δ)) (.fin v) ∧
      v = ((M - m) / M - ((if i0 + m < M then 1 else 0) + if m ≤ i0 then 1 else 0)) / (M - 1) ∧ |v| ≤ 2 / (M - 1) := by
  refine ⟨_, C30_regular h hδ hf hv he m n hm hn, ?_, ?_⟩
  · rw [outlier_quotient hi0 hx hv hm0 hm]
    unfold partners
    push_cast
    rfl
  · rw [outlier_quotient hi0 hx hv hm0 hm]
    exact outlier_small hm0 hm

end exact

section binary64
variable {ex : ℚ → ℚ} {fu : Bool} {d : DS (D64 ex fu)} {M j : ℕ} {e : ℤ} {x : ℕ → ℚ} {A V : ℚ}

/-- **C82 in binary64**: default call; up to twice the error bound. -/
theorem C82_binary64 {b0 p : ℤ} {P a : ℕ} (ht : Regular64 d (a * P) b0 p e) (hv : Values64 d (a * P) j x A V)
    (hx : ∀ i, i + P < a * P → x (i + P) = x i) :
    ∃ r, autocorrelation .fabs d {} "natural" "fractional" = .ok r ∧ ∀ b m, b * P ≤ m → m < a * P → ∃ v v' : ℚ,
      r.At j (a * P - 1 + b * P) (.fin (((b * P : ℕ) * p : ℤ) * pow2 e)) (.fin v) ∧ r.At j (a * P - 1 + m) (.fin ((m * p : ℤ) * pow2 e)) (.fin v') ∧
      |v'| ≤ v + 1000 * V * ((a * P : ℕ) * A ^ 2 / sumSq (a * P) x) := by
  obtain ⟨hN, _, r, hr, h1⟩ := ht.result hv
  refine ⟨r, hr, fun b m hb hm => ?_⟩
  obtain ⟨v, h2, h3⟩ := h1 (b * P) (by omega)
  obtain ⟨v', h2', h3'⟩ := h1 m hm
  refine ⟨v, v', h2, h2', ?_⟩
  have hb' : b < a := by
    by_contra hc
    have := Nat.mul_le_mul_right P (not_lt.1 hc)
    omega
  have h4 := periodic_quotient hx hN.ne' hb'.le hb
  obtain ⟨e1, e2⟩ := autoCov_periodic hx hb'.le
  have ha : (a : ℚ) ≠ 0 := by exact_mod_cast (by omega : a ≠ 0)
  have hS : ∑ i ∈ range P, dev (a * P) x i ^ 2 ≠ 0 := by
    intro h0; rw [e2, h0, mul_zero] at hN; exact lt_irrefl _ hN
  have e3 : autoCov (a * P) x (b * P) / sumSq (a * P) x = 1 - b / a := by
    rw [e1, e2, Nat.cast_sub hb'.le]
    field_simp
  rw [e3] at h3
  set ρ := autoCov (a * P) x m / sumSq (a * P) x
  have h5 : |v'| ≤ |ρ| + |v' - ρ| := by
    have := abs_add_le ρ (v' - ρ)
    rwa [add_sub_cancel] at this
  have h6 := (abs_le.1 h3).1
  linarith

/-- **C83 in binary64**: default call. -/
theorem C83_binary64 {a p : ℤ} (ht : Regular64 d M a p e) (hv : Values64 d M j x A V) (c b : ℚ) (hx : ∀ i < M, x i = c + b * i) :
    ∃ r, autocorrelation .fabs d {} "natural" "fractional" = .ok r ∧ ∀ m < M, ∃ v : ℚ,
      r.At j (M - 1 + m) (.fin ((m * p : ℤ) * pow2 e)) (.fin v) ∧
      |v - (M - m) * ((M - m) ^ 2 - 1 - 3 * m ^ 2) / (M * (M ^ 2 - 1))| ≤ 500 * V * (M * A ^ 2 / sumSq M x) := by
  obtain ⟨hN, _, r, hr, h1⟩ := ht.result hv
  refine ⟨r, hr, fun m hm => ?_⟩
  rw [← ramp_quotient hx hN.ne' hm]
  exact h1 m hm

/-- **C84 in binary64**: default call. -/
theorem C84_binary64 {b p : ℤ} (ht : Regular64 d M b p e) (hv : Values64 d M j x A V) (c a : ℚ) (i0 : ℕ) (hi0 : i0 < M)
    (hx : ∀ i < M, x i = if i = i0 then c + a else c) :
    ∃ r, autocorrelation .fabs d {} "natural" "fractional" = .ok r ∧ ∀ m, 0 < m → m < M → ∃ v : ℚ,
      r.At j (M - 1 + m) (.fin ((m * p : ℤ) * pow2 e)) (.fin v) ∧
      |v - ((M - m) / M - ((if i0 + m < M then 1 else 0) + if m ≤ i0 then 1 else 0)) / (M - 1)| ≤ 500 * V * (M * A ^ 2 / sumSq M x) ∧
      |v| ≤ 2 / (M - 1) + 500 * V * (M * A ^ 2 / sumSq M x) := by
  obtain ⟨hN, _, r, hr, h1⟩ := ht.result hv
  refine ⟨r, hr, fun m hm0 hm => ?_⟩
  obtain ⟨v, h2, h3⟩ := h1 m hm
  rw [outlier_quotient hi0 hx hN.ne' hm0 hm] at h3
  refine ⟨v, h2, ?_, ?_⟩
  · unfold partners at h3
    push_cast at h3
    exact h3
  · have h4 := outlier_small (K := ℚ) (i0 := i0) hm0 hm
    set ρ := ((M - m : ℚ) / M - partners M i0 m) / (M - 1)
    have h5 : |v| ≤ |ρ| + |v - ρ| := by
      have := abs_add_le ρ (v - ρ)
      rwa [add_sub_cancel] at this
    linarith

end binary64

/-! ### cases -/

/-- C82_peak: 1, 3, 1, 3 has its highest correlation at or beyond lag 2 at lag 2 -/
example : ∃ (r : AcResult Q) (v v' : ℚ), r.At 0 5 (.fin 2) (.fin v) ∧ r.At 0 6 (.fin 3) (.fin v') ∧ |v'| ≤ v := by
  obtain ⟨d, r, h, hl⟩ := regular_witness wP 1 one_pos (by decide +kernel)
  obtain ⟨v, v', h1, h2, h3⟩ := C82_peak (a := 2) (P := 2) h one_pos (by
    intro i hi
    have : i < 2 := by omega
    interval_cases i <;> rfl) (fun _ _ => rfl) (by decide +kernel) (by decide) 1 3 5 6 (by norm_num) (by norm_num) (by rw [hl]; decide +kernel)
    (by rw [hl]; decide +kernel)
  exact ⟨r, v, v', by simpa using h1, by simpa using h2, h3⟩

/-- values 2, 5, 8, 11 -/
def rampX (i : ℕ) : ℚ := [2, 5, 8, 11].getD i 0
/-- values 1, 5, 1, 1 -/
def spikeX (i : ℕ) : ℚ := [1, 5, 1, 1].getD i 0

theorem rampX_eq : ∀ i < 4, rampX i = 2 + 3 * i := by decide +kernel
theorem spikeX_eq : ∀ i < 4, spikeX i = if i = 1 then 1 + 4 else 1 := by decide +kernel

/-- C83_trend: 2, 5, 8, 11 at lag 1 -/
example : ∃ r : AcResult Q, r.At 0 4 (.fin 1) (.fin (1/4)) := by
  obtain ⟨d, r, h, hl⟩ := regular_witness rampX 1 one_pos (by decide +kernel)
  have h1 := C83_trend h one_pos 2 3 rampX_eq (fun _ _ => rfl) (by decide +kernel) (by decide) 1 4 (by norm_num) (by rw [hl]; decide +kernel)
  refine ⟨r, ?_⟩
  norm_num at h1
  norm_num
  exact h1

/-- C84_outlier: 1, 5, 1, 1 at lag 1 -/
example : ∃ r : AcResult Q, r.At 0 4 (.fin 1) (.fin (-5/12)) := by
  obtain ⟨d, r, h, hl⟩ := regular_witness spikeX 1 one_pos (by decide +kernel)
  obtain ⟨v, h1, rfl, _⟩ := C84_outlier h one_pos 1 4 1 (by norm_num) spikeX_eq (fun _ _ => rfl) (by decide +kernel) (by decide) 1 4 (by norm_num) (by norm_num)
    (by rw [hl]; decide +kernel)
  refine ⟨r, ?_⟩
  norm_num at h1
  norm_num
  exact h1

/-- C82_binary64: times 5, 8, 11, 14, values 1, 3, 1, 3 -/
example : ∃ (d : DS Sacf.B) (r : AcResult Sacf.B), autocorrelation .fabs d = .ok r ∧
    ∃ v v' : ℚ, r.At 0 5 (.fin 6) (.fin v) ∧ r.At 0 6 (.fin 9) (.fin v') ∧ |v'| ≤ v + pow2 (-35) := by
  obtain ⟨d, hc, ht, hrow⟩ := signal_object wP
  have hv : Values64 d 4 0 wP 4 (pow2 (-51)) := ⟨hrow, by decide +kernel, by decide +kernel,
    by decide +kernel, by decide +kernel, by decide +kernel, .inr (by decide +kernel), by decide +kernel⟩
  obtain ⟨r, hr, hv1⟩ := C82_binary64 (a := 2) (P := 2) (signal_times hc ht) hv (by
    intro i hi
    have : i < 2 := by omega
    interval_cases i <;> rfl)
  obtain ⟨v, v', h1, h2, h3⟩ := hv1 1 3 (by norm_num) (by norm_num)
  refine ⟨d, r, hr, v, v', ?_, ?_, h3.trans (add_le_add le_rfl (by decide +kernel))⟩
  · simpa [pow2_zero] using h1
  · have e1 : ((3 : ℕ) : ℤ) * 3 = 9 := by norm_num
    rw [e1] at h2
    simpa [pow2_zero] using h2

/-- C83_binary64 and C84_binary64 -/
example : (∃ (d : DS Sacf.B) (r : AcResult Sacf.B), autocorrelation .fabs d = .ok r ∧ ∃ v : ℚ, r.At 0 4 (.fin 3) (.fin v) ∧ |v - 1/4| ≤ pow2 (-35)) ∧
    ∃ (d : DS Sacf.B) (r : AcResult Sacf.B), autocorrelation .fabs d = .ok r ∧ ∃ v : ℚ, r.At 0 4 (.fin 3) (.fin v) ∧ |v + 5/12| ≤ pow2 (-35) ∧ |v| ≤ 67/100 := by
  constructor
  · obtain ⟨d, hc, ht, hrow⟩ := signal_object rampX
    have hv : Values64 d 4 0 rampX 11 (pow2 (-51)) := ⟨hrow, by decide +kernel, by decide +kernel,
      by decide +kernel, by decide +kernel, by decide +kernel, .inr (by decide +kernel), by decide +kernel⟩
    obtain ⟨r, hr, hv1⟩ := C83_binary64 (signal_times hc ht) hv 2 3 rampX_eq
    obtain ⟨v, h1, h2⟩ := hv1 1 (by norm_num)
    refine ⟨d, r, hr, v, by simpa [pow2_zero] using h1, ?_⟩
    have e1 : (((4 : ℕ) : ℚ) - (1 : ℕ)) * ((((4 : ℕ) : ℚ) - (1 : ℕ)) ^ 2 - 1 - 3 * ((1 : ℕ) : ℚ) ^ 2) / (((4 : ℕ) : ℚ) * (((4 : ℕ) : ℚ) ^ 2 - 1)) = 1/4 := by norm_num
    rw [e1] at h2
    exact h2.trans (by decide +kernel)
  · obtain ⟨d, hc, ht, hrow⟩ := signal_object spikeX
    have hv : Values64 d 4 0 spikeX 5 (pow2 (-51)) := ⟨hrow, by decide +kernel, by decide +kernel,
      by decide +kernel, by decide +kernel, by decide +kernel, .inr (by decide +kernel), by decide +kernel⟩
    obtain ⟨r, hr, hv1⟩ := C84_binary64 (signal_times hc ht) hv 1 4 1 (by norm_num) spikeX_eq
    obtain ⟨v, h1, h2, h3⟩ := hv1 1 (by norm_num) (by norm_num)
    refine ⟨d, r, hr, v, by simpa [pow2_zero] using h1, ?_, h3.trans (by decide +kernel)⟩
    have e1 : ((((4 : ℕ) : ℚ) - (1 : ℕ)) / (4 : ℕ) - ((if 1 + 1 < 4 then 1 else 0) + if 1 ≤ 1 then 1 else 0)) / (((4 : ℕ) : ℚ) - 1) = -(5/12) := by norm_num
    rw [e1, sub_neg_eq_add] at h2
    exact h2.trans (by decide +kernel)

end Sacf
