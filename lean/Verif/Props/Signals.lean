import Verif.Props.ErrorCor
import Verif.Props.Witness
import Mathlib.Algebra.BigOperators.Intervals

/-!
# What the correlations say about a signal (C74 – C77)

Consequences of the formula for the questions the estimate is used for: reversing time, signals that repeat, the sum over all lags, very large and very
small `alpha`.  First in exact arithmetic, then in binary64 with the error bound of C61.
-/

set_option linter.unusedSectionVars false

namespace Sacf

open Finset

section exact
variable {K : Type} [Field K] [LinearOrder K] [IsStrictOrderedRing K] [FloorRing K]
variable {dm : K} {f32 ex : K → K}
variable {d d' : DS (Exact dm f32 ex)} {g g' : LagArgs (Exact dm f32 ex)} {wt wt' : String} {r r' : AcResult (Exact dm f32 ex)}
  {M : ℕ} {t : ℕ → K} {j j' : ℕ} {x y : ℕ → K} {α α' : K}

/-! ## C74: reversing time -/

theorem mean_reverse (hy : ∀ i < M, y i = x (M - 1 - i)) : mean M y = mean M x := by
  unfold mean
  rw [← Finset.sum_range_reflect x M]
  congr 1
  exact Finset.sum_congr rfl fun i hi => hy i (Finset.mem_range.1 hi)

theorem dev_reverse (hy : ∀ i < M, y i = x (M - 1 - i)) {i : ℕ} (hi : i < M) : dev M y i = dev M x (M - 1 - i) := by
  unfold dev
  rw [mean_reverse hy, hy i hi]

theorem sumSq_reverse (hy : ∀ i < M, y i = x (M - 1 - i)) : sumSq M y = sumSq M x := by
  unfold sumSq
  rw [← Finset.sum_range_reflect (fun i => dev M x i ^ 2) M]
  exact Finset.sum_congr rfl fun i hi => by rw [dev_reverse hy (Finset.mem_range.1 hi)]

theorem autoCov_reverse (hy : ∀ i < M, y i = x (M - 1 - i)) (m : ℕ) : autoCov M y m = autoCov M x m := by
  unfold autoCov
  rw [← Finset.sum_range_reflect (fun i => dev M x i * dev M x (i + m)) (M - m)]
  apply Finset.sum_congr rfl
  intro i hi
  have hi := Finset.mem_range.1 hi
  rw [dev_reverse hy (by omega), dev_reverse hy (by omega), mul_comm]
  congr 2 <;> omega

/-- **C74**: on a regular grid the series read backwards has the same correlation at every lag of `m ≥ 0` steps, also with another `alpha` and weight function. -/
theorem C74_reversal {t0 t0' δ : K} (h : NaturalRun d g wt r M (fun i : ℕ => t0 + i * δ) j x α)
    (h' : NaturalRun d' g' wt' r' M (fun i : ℕ => t0' + i * δ) j' y α') (hδ : 0 < δ) (hy : ∀ i < M, y i = x (M - 1 - i))
    (hf : ∀ i < M, f32 (x i) = x i) (hv : sumSq M x ≠ 0) (he : wt = "gaussian" → ex 0 = 1) (he' : wt' = "gaussian" → ex 0 = 1)
    (m n n' : ℕ) (hm : m < M) (hn : r.lags[n]? = some (.fin (m * δ))) (hn' : r'.lags[n']? = some (.fin (m * δ))) :
    ∃ v, r.At j n (.fin (m * δ)) (.fin v) ∧ r'.At j' n' (.fin (m * δ)) (.fin v) := by
  refine ⟨_, C30_regular h hδ hf hv he m n hm hn, ?_⟩
  have := C30_regular h' hδ (fun i hi => by rw [hy i hi]; exact hf _ (by omega)) (by rw [sumSq_reverse hy]; exact hv) he' m n' hm hn'
  rwa [autoCov_reverse hy, sumSq_reverse hy] at this

/-- Regular spacing is needed: times 0, 1, 4 with values 1, 2, 4, and the same backwards, differ at lag 2. -/
theorem C74_irregular : ((mkFlat (q [0, 1, 4]) (q [1, 2, 4])).bind fun d =>
      (autocorrelation .fabs d ⟨some (.fin 2), some (.fin 2), none, some (.fin 1)⟩).bind fun r => .ok (r.lags, r.corrs))
      = .ok (q [0, 2], .flat (q [1, -1/84])) ∧
    ((mkFlat (q [0, 3, 4]) (q [4, 2, 1])).bind fun d =>
      (autocorrelation .fabs d ⟨some (.fin 2), some (.fin 2), none, some (.fin 1)⟩).bind fun r => .ok (r.lags, r.corrs))
      = .ok (q [0, 2], .flat (q [1, -5/84])) := by decide +kernel

/-! ## C75: signals that repeat -/

theorem sacf_repeat {w : K → K} (hw : w 0 = 1) {k : K} {s : ℕ → ℕ} (hs : Selects M t k s)
    (hrep : ∀ i < M, t i + k ≤ t (M - 1) → ∃ i' < M, t i' = t i + k ∧ x i' = x i) (ht : Increasing M t) (nrm : K) :
    sacf M t x w s nrm k = (∑ i ∈ range M with t i + k ≤ t (M - 1), dev M x i ^ 2) / nrm := by
  unfold sacf
  congr 1
  apply Finset.sum_congr rfl
  intro i hi
  rw [Finset.mem_filter, Finset.mem_range] at hi
  obtain ⟨i', hi', h1, h2⟩ := hrep i hi.1 hi.2
  obtain ⟨hsM, hnear⟩ := hs i hi.1 hi.2
  have h0 : |t (s i) - (t i + k)| = 0 := by
    have e0 : |t i' - (t i + k)| = 0 := by rw [h1, sub_self, abs_zero]
    rcases hnear i' hi' with h | ⟨h, _⟩
    · rw [e0] at h; exact absurd h (not_lt.2 (abs_nonneg _))
    · rw [h, e0]
  have hsi : s i = i' := by
    have e1 : t (s i) = t i' := by rw [h1]; exact sub_eq_zero.1 (abs_eq_zero.1 h0)
    rcases lt_trichotomy (s i) i' with h | h | h
    · exact absurd e1 (ht _ _ h hi').ne
    · exact h
    · exact absurd e1.symm (ht _ _ h hsM).ne
  rw [h0, hw, hsi]
  unfold dev
  rw [h2]
  ring

/-- **C75**: a lag at which the series repeats, that is, at which every sample that counts is shifted to a sample with the same value: the correlation is the share of
the sum of squares that the counted samples have, whatever `alpha` and the weight function. -/
theorem C75_repetition (h : NaturalRun d g wt r M t j x α) (hf : ∀ i < M, f32 (x i) = x i) (hv : sumSq M x ≠ 0)
    (he : wt = "gaussian" → ex 0 = 1) (n : ℕ) (k : K) (hn : r.lags[n]? = some (.fin k))
    (hrep : ∀ i < M, t i + k ≤ t (M - 1) → ∃ i' < M, t i' = t i + k ∧ x i' = x i) :
    r.At j n (.fin k) (.fin ((∑ i ∈ range M with t i + k ≤ t (M - 1), dev M x i ^ 2) / sumSq M x)) := by
  obtain ⟨s, hs⟩ := selects_exists M t k
  have := C47_formula h hf hv n k hn s hs
  rwa [sacf_repeat (weight_zero h.wt_known he α) hs hrep h.inc] at this

/-- the sum of squares of a series of `a` repetitions -/
theorem sum_repeat {P : ℕ} {f : ℕ → K} : ∀ a : ℕ, (∀ i, i + P < a * P → f (i + P) = f i) →
    ∑ i ∈ range (a * P), f i = a * ∑ i ∈ range P, f i := by
  intro a
  induction a with
  | zero => simp
  | succ a ih =>
    intro h
    rw [Nat.succ_mul, Finset.sum_range_add, ih (fun i hi => h i (by rw [Nat.succ_mul]; omega))]
    have e : ∀ b ≤ a, ∀ i < P, f (b * P + i) = f i := by
      intro b
      induction b with
      | zero => intro _ i _; rw [Nat.zero_mul, Nat.zero_add]
      | succ b ihb =>
        intro hb i hi
        have hle : (b + 1) * P ≤ a * P := Nat.mul_le_mul_right P hb
        have e1 : (b + 1) * P + i = b * P + i + P := by rw [Nat.succ_mul]; omega
        rw [e1, h _ (by rw [Nat.succ_mul]; rw [Nat.succ_mul] at hle; omega), ihb (by omega) i hi]
    rw [Finset.sum_congr rfl (fun i hi => e a le_rfl i (Finset.mem_range.1 hi))]
    push_cast
    ring

theorem autoCov_periodic {P a m : ℕ} (hx : ∀ i, i + P < a * P → x (i + P) = x i) (hm : m ≤ a) :
    autoCov (a * P) x (m * P) = (a - m : ℕ) * ∑ i ∈ range P, dev (a * P) x i ^ 2 ∧
      sumSq (a * P) x = a * ∑ i ∈ range P, dev (a * P) x i ^ 2 := by
  have hd : ∀ i, i + P < a * P → dev (a * P) x (i + P) = dev (a * P) x i := fun i hi => by unfold dev; rw [hx i hi]
  have hdm : ∀ b i, i + b * P < a * P → dev (a * P) x (i + b * P) = dev (a * P) x i := by
    intro b
    induction b with
    | zero => intro i _; rw [Nat.zero_mul, Nat.add_zero]
    | succ b ih =>
      intro i hi
      rw [Nat.succ_mul] at hi
      have e : i + (b + 1) * P = i + b * P + P := by rw [Nat.succ_mul]; omega
      rw [e, hd _ (by omega), ih i (by omega)]
  constructor
  · unfold autoCov
    have e : a * P - m * P = (a - m) * P := (Nat.sub_mul a m P).symm
    have hle : m * P ≤ a * P := Nat.mul_le_mul_right P hm
    rw [e, ← sum_repeat (P := P) (f := fun i => dev (a * P) x i ^ 2) (a - m) (fun i hi => by
      rw [hd i (by rw [← e] at hi; omega)])]
    apply Finset.sum_congr rfl
    intro i hi
    have hi := Finset.mem_range.1 hi
    rw [hdm m i (by rw [← e] at hi; omega)]
    ring
  · exact sum_repeat a fun i hi => by rw [hd i hi]

/-- **C75**: a signal of `a` full periods of `P` samples on a regular grid.  The correlation at `m` periods is exactly `1 - m / a`. -/
theorem C75_periodic {t0 δ : K} {P a : ℕ} (h : NaturalRun d g wt r (a * P) (fun i : ℕ => t0 + i * δ) j x α) (hδ : 0 < δ)
    (hx : ∀ i, i + P < a * P → x (i + P) = x i) (hf : ∀ i < a * P, f32 (x i) = x i) (hv : sumSq (a * P) x ≠ 0)
    (he : wt = "gaussian" → ex 0 = 1) (m n : ℕ) (hm : m < a) (hn : r.lags[n]? = some (.fin ((m * P : ℕ) * δ))) :
    r.At j n (.fin ((m * P : ℕ) * δ)) (.fin (1 - m / a)) := by
  have hP : 0 < P := by
    rcases Nat.eq_zero_or_pos P with rfl | h0
    · exact absurd (by simp [sumSq]) hv
    · exact h0
  have := C30_regular h hδ hf hv he (m * P) n (Nat.mul_lt_mul_of_pos_right hm hP) hn
  obtain ⟨e1, e2⟩ := autoCov_periodic hx hm.le
  have ha : (a : K) ≠ 0 := by exact_mod_cast (by omega : a ≠ 0)
  have hS : ∑ i ∈ range P, dev (a * P) x i ^ 2 ≠ 0 := by
    intro h0; rw [e2, h0, mul_zero] at hv; exact hv rfl
  have e : autoCov (a * P) x (m * P) / sumSq (a * P) x = 1 - m / a := by
    rw [e1, e2, Nat.cast_sub hm.le]
    field_simp
  rwa [e] at this

/-! ## C76: the sum over all lags -/

theorem sum_dev (hM : 0 < M) (x : ℕ → K) : ∑ i ∈ range M, dev M x i = 0 := by
  unfold dev mean
  rw [Finset.sum_sub_distrib, Finset.sum_const, Finset.card_range, nsmul_eq_mul]
  have : (M : K) ≠ 0 := by exact_mod_cast hM.ne'
  field_simp
  ring

/-- the square of a sum by distances from the diagonal -/
theorem sq_sum_range (f : ℕ → K) (M : ℕ) :
    (∑ i ∈ range M, f i) ^ 2 = ∑ i ∈ range M, f i ^ 2 + 2 * ∑ m ∈ Finset.Ico 1 M, ∑ i ∈ range (M - m), f i * f (i + m) := by
  induction M with
  | zero => simp
  | succ M ih =>
    rw [Finset.sum_range_succ, add_sq, ih, Finset.sum_range_succ (fun i => f i ^ 2)]
    have e : ∑ m ∈ Finset.Ico 1 (M + 1), ∑ i ∈ range (M + 1 - m), f i * f (i + m)
        = ∑ m ∈ Finset.Ico 1 M, ∑ i ∈ range (M - m), f i * f (i + m) + (∑ i ∈ range M, f i) * f M := by
      have e1 : ∀ m ∈ Finset.Ico 1 (M + 1), ∑ i ∈ range (M + 1 - m), f i * f (i + m)
          = ∑ i ∈ range (M - m), f i * f (i + m) + f (M - m) * f M := by
        intro m hm
        rw [Finset.mem_Ico] at hm
        rw [show M + 1 - m = (M - m) + 1 by omega, Finset.sum_range_succ, show M - m + m = M by omega]
      rw [Finset.sum_congr rfl e1, Finset.sum_add_distrib]
      congr 1
      · rcases Nat.eq_zero_or_pos M with rfl | h0
        · simp
        · rw [Finset.sum_Ico_succ_top h0]
          simp
      · rw [← Finset.sum_mul]
        congr 1
        rw [Finset.sum_Ico_eq_sum_range, ← Finset.sum_range_reflect f M]
        apply Finset.sum_congr (by simp)
        intro i hi
        congr 1
        have := Finset.mem_range.1 hi
        omega
    rw [e]
    ring

theorem sum_autoCov (hM : 0 < M) (hv : sumSq M x ≠ 0) : ∑ m ∈ Finset.Ico 1 M, autoCov M x m / sumSq M x = -(1 / 2) := by
  have h := sq_sum_range (dev M x) M
  rw [sum_dev hM] at h
  have e : ∑ i ∈ range M, dev M x i ^ 2 = sumSq M x := rfl
  rw [e] at h
  have e2 : ∑ m ∈ Finset.Ico 1 M, autoCov M x m / sumSq M x = (∑ m ∈ Finset.Ico 1 M, autoCov M x m) / sumSq M x := by
    simp only [div_eq_mul_inv, Finset.sum_mul]
  rw [e2, div_eq_iff hv]
  unfold autoCov
  have h' : (0 : K) = sumSq M x + 2 * ∑ m ∈ Ico 1 M, ∑ i ∈ range (M - m), dev M x i * dev M x (i + m) := by
    rw [← h, zero_pow two_ne_zero]
  linarith

/-- **C76**: on a regular grid the correlations at the lags of 1, 2, …, `M - 1` steps sum to `-1/2`, whatever the data. -/
theorem C76_sum {t0 δ : K} (h : NaturalRun d g wt r M (fun i : ℕ => t0 + i * δ) j x α) (hδ : 0 < δ) (hM : 0 < M)
    (hf : ∀ i < M, f32 (x i) = x i) (hv : sumSq M x ≠ 0) (he : wt = "gaussian" → ex 0 = 1)
    (pos : ℕ → ℕ) (hpos : ∀ m, 1 ≤ m → m < M → r.lags[pos m]? = some (.fin (m * δ))) :
    ∃ v : ℕ → K, (∀ m, 1 ≤ m → m < M → r.At j (pos m) (.fin (m * δ)) (.fin (v m))) ∧ ∑ m ∈ Finset.Ico 1 M, v m = -(1 / 2) :=
  ⟨fun m => autoCov M x m / sumSq M x, fun m h1 h2 => C30_regular h hδ hf hv he m _ h2 (hpos m h1 h2), sum_autoCov hM hv⟩

/-! ## C77: very large and very small `alpha` -/

theorem sacf_scale (w : K → K) (c : K) (s : ℕ → ℕ) (nrm k : K) :
    sacf M t x (fun δ => c * w δ) s nrm k = c * sacf M t x w s nrm k := by
  unfold sacf
  rw [← mul_div_assoc, Finset.mul_sum]
  congr 1
  apply Finset.sum_congr rfl
  intro i _
  ring

theorem sacf_sub (w w' : K → K) (s : ℕ → ℕ) (nrm k : K) :
    sacf M t x w s nrm k - sacf M t x w' s nrm k = sacf M t x (fun δ => w δ - w' δ) s nrm k := by
  unfold sacf
  rw [← sub_div, ← Finset.sum_sub_distrib]
  congr 1
  apply Finset.sum_congr rfl
  intro i _
  ring

theorem sacf_weights {w w' : K → K} {s : ℕ → ℕ} {k : K} (h : ∀ i < M, t i + k ≤ t (M - 1) → w |t (s i) - (t i + k)| = w' |t (s i) - (t i + k)|)
    (nrm : K) : sacf M t x w s nrm k = sacf M t x w' s nrm k := by
  unfold sacf
  congr 1
  apply Finset.sum_congr rfl
  intro i hi
  rw [Finset.mem_filter, Finset.mem_range] at hi
  rw [h i hi.1 hi.2]

theorem sacf_large {wt : String} (hα : 0 < α) (hw : wt = "fractional" ∨ wt = "fractional_squared") (hv : sumSq M x ≠ 0) {k : K}
    {s : ℕ → ℕ} (hs : Selects M t k s) {D : K} (hD : 0 < D) (hDs : ∀ i < M, t i + k ≤ t (M - 1) → |t (s i) - (t i + k)| ≤ D)
    {B : ℕ} (hB : ∀ n < M, ((range M).filter fun i => t i + k ≤ t (M - 1) ∧ s i = n).card ≤ B) :
    (sacf M t x (weight ex wt α) s (sumSq M x) k - sacf M t x (fun _ => 1) s (sumSq M x) k) ^ 2
      ≤ ((if wt = "fractional" then D / α else (D / α) ^ 2)) ^ 2 * B := by
  have hq : 0 < D / α := div_pos hD hα
  set c : K := if wt = "fractional" then D / α else (D / α) ^ 2 with hc
  have hc0 : 0 < c := by rw [hc]; split <;> positivity
  have key : ∀ δ, 0 ≤ δ → δ ≤ D → 0 ≤ 1 - weight ex wt α δ ∧ 1 - weight ex wt α δ ≤ c := by
    intro δ h0 h1
    have hz : 0 ≤ δ / α := div_nonneg h0 hα.le
    have hzD : δ / α ≤ D / α := (div_le_div_iff_of_pos_right hα).2 h1
    have aux : ∀ z : K, 0 ≤ z → 0 ≤ 1 - 1 / (1 + z) ∧ 1 - 1 / (1 + z) ≤ z := by
      intro z hz
      have h1z : 0 < 1 + z := by linarith
      have e : 1 - 1 / (1 + z) = z / (1 + z) := by field_simp; ring
      rw [e]
      exact ⟨div_nonneg hz h1z.le, div_le_self hz (by linarith)⟩
    unfold weight
    rcases hw with rfl | rfl
    · rw [if_neg (by decide), if_neg (by decide)]
      rw [if_pos rfl] at hc
      rw [hc]
      exact ⟨(aux _ hz).1, (aux _ hz).2.trans hzD⟩
    · rw [if_neg (by decide), if_pos rfl]
      rw [if_neg (by decide)] at hc
      rw [hc]
      exact ⟨(aux _ (sq_nonneg _)).1, (aux _ (sq_nonneg _)).2.trans (pow_le_pow_left₀ hz hzD 2)⟩
  have e1 : sacf M t x (weight ex wt α) s (sumSq M x) k - sacf M t x (fun _ => 1) s (sumSq M x) k
      = -c * sacf M t x (fun δ => if δ ≤ D then (1 - weight ex wt α δ) / c else 0) s (sumSq M x) k := by
    rw [sacf_sub, ← sacf_scale]
    apply sacf_weights
    intro i hi hle
    rw [if_pos (hDs i hi hle)]
    field_simp
    ring
  rw [e1, mul_pow, neg_sq]
  apply mul_le_mul_of_nonneg_left _ (sq_nonneg c)
  apply sacf_bound _ (fun i hi hk => (hs i hi hk).1) hB hv
  intro δ h0
  split
  · rename_i hle
    obtain ⟨a1, a2⟩ := key δ h0 hle
    exact ⟨div_nonneg a1 hc0.le, (div_le_one hc0).2 a2⟩
  · exact ⟨le_rfl, zero_le_one⟩

/-- **C77, large `alpha`**: if all matched samples are within `D` and no sample is matched more than `B` times, the correlation is within `√B D / alpha` of the one without
weights (fractional weights; with squared ones within `√B (D / alpha)²`). -/
theorem C77_large (h : NaturalRun d g wt r M t j x α) (hw : wt = "fractional" ∨ wt = "fractional_squared")
    (hf : ∀ i < M, f32 (x i) = x i) (hv : sumSq M x ≠ 0) (n : ℕ) (k : K) (hn : r.lags[n]? = some (.fin k))
    (s : ℕ → ℕ) (hs : Selects M t k s) (D : K) (hD : 0 < D) (hDs : ∀ i < M, t i + k ≤ t (M - 1) → |t (s i) - (t i + k)| ≤ D)
    (B : ℕ) (hB : ∀ n < M, ((range M).filter fun i => t i + k ≤ t (M - 1) ∧ s i = n).card ≤ B) :
    ∃ v, r.At j n (.fin k) (.fin v) ∧
      (v - sacf M t x (fun _ => 1) s (sumSq M x) k) ^ 2 ≤ ((if wt = "fractional" then D / α else (D / α) ^ 2)) ^ 2 * B :=
  ⟨_, C47_formula h hf hv n k hn s hs, sacf_large h.alpha_pos hw hv hs hD hDs hB⟩

theorem sacf_small {wt : String} (hα : 0 < α) (hw : wt = "fractional" ∨ wt = "fractional_squared") (hv : sumSq M x ≠ 0) {k : K}
    {s : ℕ → ℕ} (hs : Selects M t k s) {ε : K} (hε : 0 < ε)
    (hεs : ∀ i < M, t i + k ≤ t (M - 1) → t (s i) ≠ t i + k → ε ≤ |t (s i) - (t i + k)|)
    {B : ℕ} (hB : ∀ n < M, ((range M).filter fun i => t i + k ≤ t (M - 1) ∧ s i = n).card ≤ B) :
    (sacf M t x (weight ex wt α) s (sumSq M x) k - sacf M t x (fun δ => if δ = 0 then 1 else 0) s (sumSq M x) k) ^ 2
      ≤ ((if wt = "fractional" then α / ε else (α / ε) ^ 2)) ^ 2 * B := by
  set c : K := if wt = "fractional" then α / ε else (α / ε) ^ 2 with hc
  have hc0 : 0 < c := by rw [hc]; split <;> positivity
  have key : ∀ δ, ε ≤ δ → 0 ≤ weight ex wt α δ ∧ weight ex wt α δ ≤ c := by
    intro δ h1
    have hδ : 0 < δ := hε.trans_le h1
    have hz : 0 < δ / α := div_pos hδ hα
    have hzε : α / δ ≤ α / ε := div_le_div_of_nonneg_left hα.le hε h1
    have aux : ∀ z : K, 0 < z → 0 ≤ 1 / (1 + z) ∧ 1 / (1 + z) ≤ z⁻¹ := by
      intro z hz
      refine ⟨by positivity, ?_⟩
      rw [← one_div]
      exact one_div_le_one_div_of_le hz (by linarith)
    unfold weight
    rcases hw with rfl | rfl
    · rw [if_neg (by decide), if_neg (by decide)]
      rw [if_pos rfl] at hc
      rw [hc]
      exact ⟨(aux _ hz).1, (aux _ hz).2.trans (by rw [inv_div]; exact hzε)⟩
    · rw [if_neg (by decide), if_pos rfl]
      rw [if_neg (by decide)] at hc
      rw [hc]
      refine ⟨(aux _ (pow_pos hz 2)).1, (aux _ (pow_pos hz 2)).2.trans ?_⟩
      rw [← inv_pow, inv_div]
      exact pow_le_pow_left₀ (by positivity) hzε 2
  have hw0 : weight ex wt α 0 = 1 := weight_zero (by unfold KnownWeight; tauto) (by rcases hw with rfl | rfl <;> simp) α
  have e1 : sacf M t x (weight ex wt α) s (sumSq M x) k - sacf M t x (fun δ => if δ = 0 then 1 else 0) s (sumSq M x) k
      = c * sacf M t x (fun δ => if ε ≤ δ then weight ex wt α δ / c else 0) s (sumSq M x) k := by
    rw [sacf_sub, ← sacf_scale]
    apply sacf_weights
    intro i hi hle
    by_cases h0 : |t (s i) - (t i + k)| = 0
    · rw [h0, if_pos rfl, if_neg (not_le.2 hε), hw0, sub_self, mul_zero]
    · rw [if_neg h0, if_pos (hεs i hi hle fun hc => h0 (by rw [hc, sub_self, abs_zero])), sub_zero]
      field_simp
  rw [e1, mul_pow]
  apply mul_le_mul_of_nonneg_left _ (sq_nonneg c)
  apply sacf_bound _ (fun i hi hk => (hs i hi hk).1) hB hv
  intro δ h0
  split
  · rename_i hle
    obtain ⟨a1, a2⟩ := key δ hle
    exact ⟨div_nonneg a1 hc0.le, (div_le_one hc0).2 a2⟩
  · exact ⟨le_rfl, zero_le_one⟩

/-- **C77, small `alpha`**: if matched samples that do not coincide are at least `ε` away, the correlation is within `√B alpha / ε` of the sum over the coinciding
pairs alone (fractional weights; with squared ones within `√B (alpha / ε)²`). -/
theorem C77_small (h : NaturalRun d g wt r M t j x α) (hw : wt = "fractional" ∨ wt = "fractional_squared")
    (hf : ∀ i < M, f32 (x i) = x i) (hv : sumSq M x ≠ 0) (n : ℕ) (k : K) (hn : r.lags[n]? = some (.fin k))
    (s : ℕ → ℕ) (hs : Selects M t k s) (ε : K) (hε : 0 < ε)
    (hεs : ∀ i < M, t i + k ≤ t (M - 1) → t (s i) ≠ t i + k → ε ≤ |t (s i) - (t i + k)|)
    (B : ℕ) (hB : ∀ n < M, ((range M).filter fun i => t i + k ≤ t (M - 1) ∧ s i = n).card ≤ B) :
    ∃ v, r.At j n (.fin k) (.fin v) ∧
      (v - sacf M t x (fun δ => if δ = 0 then 1 else 0) s (sumSq M x) k) ^ 2
        ≤ ((if wt = "fractional" then α / ε else (α / ε) ^ 2)) ^ 2 * B :=
  ⟨_, C47_formula h hf hv n k hn s hs, sacf_small h.alpha_pos hw hv hs hε hεs hB⟩

end exact

/-! ### cases in exact arithmetic -/

/-- as `runOf`, with an `alpha` -/
def runAlpha (t v : List Q) (wt : String) (α : ℚ) : Res (DS Q × AcResult Q) :=
  (mkFlat t v).bind fun d => (autocorrelation .fabs d { alpha := some (.fin α) } "natural" wt).bind fun r => .ok (d, r)

theorem runAlpha_ok {t v : List Q} {wt : String} {α : ℚ} {P : DS Q → AcResult Q → Prop} [∀ d r, Decidable (P d r)]
    (h : (match runAlpha t v wt α with | .ok (d, r) => decide (P d r) | _ => false) = true) :
    ∃ d r, mkFlat t v = .ok d ∧ autocorrelation .fabs d { alpha := some (.fin α) } "natural" wt = .ok r ∧ P d r := by
  have e : ∃ z, runAlpha t v wt α = .ok z := by
    cases hz : runAlpha t v wt α with
    | ok z => exact ⟨z, rfl⟩
    | exn e => rw [hz] at h; simp at h
    | ub => rw [hz] at h; simp at h
    | diverge => rw [hz] at h; simp at h
  obtain ⟨⟨d, r⟩, hz⟩ := e
  rw [hz] at h
  obtain ⟨d', h1, h2⟩ := Res.bind_eq_ok.1 hz
  obtain ⟨r', h3, h4⟩ := Res.bind_eq_ok.1 h2
  simp only [Res.ok.injEq, Prod.mk.injEq] at h4
  obtain ⟨rfl, rfl⟩ := h4
  exact ⟨d', r', h1, h3, by simpa using h⟩

/-- values 3, 6, 2, 1: `wX'` backwards -/
def wY (i : ℕ) : ℚ := [3, 6, 2, 1].getD i 0
/-- values 1, 3, 1, 3: two periods -/
def wP (i : ℕ) : ℚ := [1, 3, 1, 3].getD i 0
/-- times 0, 1, 3, 4 -/
def wG (i : ℕ) : ℚ := [0, 1, 3, 4].getD i 0

theorem wG_inc : Increasing 4 wG := by
  intro i j hij hj
  interval_cases j <;> interval_cases i <;> decide

/-- a regular run with the given values -/
theorem regular_witness (y : ℕ → ℚ) (α : ℚ) (hα : 0 < α)
    (h : (match runAlpha (samples 4 wT') (samples 4 y) "fractional" α with
      | .ok (d, r) => decide (d.timeseries = samples 4 wT' ∧ d.data2d = .ok [samples 4 y] ∧ r.corr.alpha = .fin α ∧
          r.lags = q [-3, -2, -1, 0, 1, 2, 3])
      | _ => false) = true) :
    ∃ d r, NaturalRun (dm := 10 ^ 100) (f32 := id) (ex := fun x => 1 / (1 - x)) d { alpha := some (.fin α) } "fractional" r 4
      (fun i : ℕ => 0 + i * 1) 0 y α ∧ r.lags = q [-3, -2, -1, 0, 1, 2, 3] := by
  obtain ⟨d, r, h1, h2, h3, h4, h5, h6⟩ := runAlpha_ok (P := fun d r => d.timeseries = samples 4 wT' ∧ d.data2d = .ok [samples 4 y] ∧
    r.corr.alpha = .fin α ∧ r.lags = q [-3, -2, -1, 0, 1, 2, 3]) h
  exact ⟨d, r, ⟨.flat h1, h3, wT'_inc, ⟨_, h4, rfl⟩, h2, by unfold KnownWeight; simp, h5, hα⟩, h6⟩

/-- C74_reversal: 1, 2, 6, 3 with `alpha = 1` and 3, 6, 2, 1 with `alpha = 2`, lag 2 -/
example : ∃ (r r' : AcResult Q) (v : ℚ), r.At 0 5 (.fin 2) (.fin v) ∧ r'.At 0 5 (.fin 2) (.fin v) := by
  obtain ⟨d, r, h, hl⟩ := regular_witness wX' 1 one_pos (by decide +kernel)
  obtain ⟨d', r', h', hl'⟩ := regular_witness wY 2 two_pos (by decide +kernel)
  obtain ⟨v, h1, h2⟩ := C74_reversal h h' one_pos (by decide +kernel) (fun _ _ => rfl) (by decide +kernel) (by decide) (by decide) 2 5 5 (by norm_num)
    (by rw [hl]; decide +kernel) (by rw [hl']; decide +kernel)
  exact ⟨r, r', v, by simpa using h1, by simpa using h2⟩

/-- C75_periodic: 1, 3, 1, 3 has correlation 1/2 at lag 2, and C76_sum: the correlations at 1, 2, 3 are -3/4, 1/2, -1/4 -/
example : ∃ (r : AcResult Q), r.At 0 5 (.fin 2) (.fin (1/2)) ∧ ∃ v : ℕ → ℚ, (∀ m, 1 ≤ m → m < 4 → r.At 0 (3 + m) (.fin (m * 1)) (.fin (v m))) ∧
    ∑ m ∈ Finset.Ico 1 4, v m = -(1 / 2) := by
  obtain ⟨d, r, h, hl⟩ := regular_witness wP 1 one_pos (by decide +kernel)
  have h1 := C75_periodic (a := 2) (P := 2) h one_pos (by
    intro i hi
    have : i < 2 := by omega
    interval_cases i <;> rfl) (fun _ _ => rfl) (by decide +kernel) (by decide) 1 5 (by norm_num) (by rw [hl]; decide +kernel)
  refine ⟨r, ?_, ?_⟩
  · norm_num at h1
    norm_num
    exact h1
  · exact C76_sum h one_pos (by norm_num) (fun _ _ => rfl) (by decide +kernel) (by decide) (fun m => 3 + m) (by
      intro m h1 h2
      rw [hl]
      interval_cases m <;> decide +kernel)

/-- C75_repetition: times 0, 1, 3, 4, values 1, 3, 1, 3, lag 3 -/
example : ∃ r : AcResult Q, r.At 0 7 (.fin 3) (.fin (1/2)) := by
  obtain ⟨d, r, h1, h2, h3, h4, h5, h6⟩ := runAlpha_ok (t := samples 4 wG) (v := samples 4 wP) (wt := "gaussian") (α := 5)
    (P := fun d r => d.timeseries = samples 4 wG ∧ d.data2d = .ok [samples 4 wP] ∧ r.corr.alpha = .fin 5 ∧
      r.lags = q [-4, -3, -2, -1, 0, 1, 2, 3, 4]) (by decide +kernel)
  have h : NaturalRun (dm := 10 ^ 100) (f32 := id) (ex := fun x => 1 / (1 - x)) d _ "gaussian" r 4 wG 0 wP 5 :=
    ⟨.flat h1, h3, wG_inc, ⟨_, h4, rfl⟩, h2, by unfold KnownWeight; simp, h5, by norm_num⟩
  have h7 := C75_repetition h (fun _ _ => rfl) (by decide +kernel) (by decide +kernel) 7 3 (by rw [h6]; decide +kernel) (by decide +kernel)
  have e1 : (∑ i ∈ range 4 with wG i + 3 ≤ wG (4 - 1), dev 4 wP i ^ 2) / sumSq 4 wP = 1/2 := by decide +kernel
  rw [e1] at h7
  exact ⟨r, h7⟩

theorem wT_selects : Selects 3 wT 2 fun _ => 2 := by
  unfold Selects IsNearest
  decide +kernel

/-- C77_large and C77_small: times 0, 1, 3, values 1, 2, 6, lag 2.  Sample 0 is matched with sample 2 at distance 1 and sample 1 at distance 0. -/
example : (∃ (r : AcResult Q) (v : ℚ), r.At 0 5 (.fin 2) (.fin v) ∧ (v - (-9/14)) ^ 2 ≤ (1 / 100) ^ 2 * 2) ∧
    ∃ (r : AcResult Q) (v : ℚ), r.At 0 5 (.fin 2) (.fin v) ∧ (v - (-3/14)) ^ 2 ≤ (1 / 10000) ^ 2 * 2 := by
  have hx : sumSq 3 wX ≠ 0 := by decide +kernel
  constructor
  · obtain ⟨d, r, h1, h2, h3, h4, h5, h6⟩ := runAlpha_ok (t := samples 3 wT) (v := samples 3 wX) (wt := "fractional") (α := 100)
      (P := fun d r => d.timeseries = samples 3 wT ∧ d.data2d = .ok [samples 3 wX] ∧ r.corr.alpha = .fin 100 ∧
        r.lags = q [-3, -2, -1, 0, 1, 2, 3]) (by decide +kernel)
    have h : NaturalRun (dm := 10 ^ 100) (f32 := id) (ex := fun x => 1 / (1 - x)) d _ "fractional" r 3 wT 0 wX 100 :=
      ⟨.flat h1, h3, wT_inc, ⟨_, h4, rfl⟩, h2, by unfold KnownWeight; simp, h5, by norm_num⟩
    obtain ⟨v, h7, h8⟩ := C77_large h (.inl rfl) (fun _ _ => rfl) hx 5 2 (by rw [h6]; decide +kernel) _ wT_selects 1 one_pos (by decide +kernel) 2
      (by decide +kernel)
    have e1 : sacf 3 wT wX (fun _ => 1) (fun _ => 2) (sumSq 3 wX) 2 = -9/14 := by decide +kernel
    rw [e1, if_pos rfl] at h8
    exact ⟨r, v, h7, by exact_mod_cast h8⟩
  · obtain ⟨d, r, h1, h2, h3, h4, h5, h6⟩ := runAlpha_ok (t := samples 3 wT) (v := samples 3 wX) (wt := "fractional_squared") (α := 1/100)
      (P := fun d r => d.timeseries = samples 3 wT ∧ d.data2d = .ok [samples 3 wX] ∧ r.corr.alpha = .fin (1/100) ∧
        r.lags = q [-3, -2, -1, 0, 1, 2, 3]) (by decide +kernel)
    have h : NaturalRun (dm := 10 ^ 100) (f32 := id) (ex := fun x => 1 / (1 - x)) d _ "fractional_squared" r 3 wT 0 wX (1/100) :=
      ⟨.flat h1, h3, wT_inc, ⟨_, h4, rfl⟩, h2, by unfold KnownWeight; simp, h5, by norm_num⟩
    obtain ⟨v, h7, h8⟩ := C77_small h (.inr rfl) (fun _ _ => rfl) hx 5 2 (by rw [h6]; decide +kernel) _ wT_selects 1 one_pos (by decide +kernel) 2
      (by decide +kernel)
    have e1 : sacf 3 wT wX (fun δ => if δ = 0 then 1 else 0) (fun _ => 2) (sumSq 3 wX) 2 = -3/14 := by decide +kernel
    rw [e1, if_neg (by decide)] at h8
    exact ⟨r, v, h7, by norm_num at h8 ⊢; exact h8⟩

section binary64
variable {ex : ℚ → ℚ} {fu : Bool} {d d' : DS (D64 ex fu)} {M j j' : ℕ} {τ : ℕ → ℤ} {e : ℤ} {x y : ℕ → ℚ} {A V : ℚ}

theorem Regular64.result {a p : ℤ} (ht : Regular64 d M a p e) (hv : Values64 d M j x A V) :
    0 < sumSq M x ∧ 0 ≤ V ∧ ∃ r, autocorrelation .fabs d {} "natural" "fractional" = .ok r ∧ ∀ m < M, ∃ v : ℚ,
      r.At j (M - 1 + m) (.fin ((m * p : ℤ) * pow2 e)) (.fin v) ∧
      |v - autoCov M x m / sumSq M x| ≤ 500 * V * (M * A ^ 2 / sumSq M x) :=
  ⟨(facts64 (ex := ex) (fu := fu) (by linarith [ht.two_le]) ht.le hv.amin hv.amax hv.unit hv.small hv.bound hv.float hv.spread).2.2.1,
    (mul_nonneg (Nat.cast_nonneg _) (pow2_pos (-53)).le).trans hv.unit,
    C61_binary64 e ht.emin ht.emax d ht.built M a p ht.step ht.times ht.two_le ht.le ht.span A V hv.amin hv.amax hv.unit hv.small j x hv.row
      hv.bound hv.float hv.spread⟩

/-- **C74 in binary64**: default calls for a regular series and for the same values backwards: at every lag of `m ≥ 0` steps the correlations differ by at most `1000 V κ`. -/
theorem C74_binary64 {a a' p : ℤ} (ht : Regular64 d M a p e) (ht' : Regular64 d' M a' p e) (hv : Values64 d M j x A V)
    (hrow : d'.HasRow j' (samples M y)) (hy : ∀ i < M, y i = x (M - 1 - i)) :
    ∃ r r', autocorrelation .fabs d {} "natural" "fractional" = .ok r ∧ autocorrelation .fabs d' {} "natural" "fractional" = .ok r' ∧
      ∀ m < M, ∃ v v' : ℚ, r.At j (M - 1 + m) (.fin ((m * p : ℤ) * pow2 e)) (.fin v) ∧
        r'.At j' (M - 1 + m) (.fin ((m * p : ℤ) * pow2 e)) (.fin v') ∧ |v - v'| ≤ 1000 * V * (M * A ^ 2 / sumSq M x) := by
  have hv' : Values64 d' M j' y A V :=
    ⟨hrow, fun i hi => by rw [hy i hi]; exact hv.bound _ (by omega), hv.amin, hv.amax, hv.unit, hv.small,
      hv.float.imp id fun h i hi => by rw [hy i hi]; exact h _ (by omega), by rw [sumSq_reverse hy]; exact hv.spread⟩
  obtain ⟨_, _, r, hr, h1⟩ := ht.result hv
  obtain ⟨_, _, r', hr', h1'⟩ := ht'.result hv'
  refine ⟨r, r', hr, hr', fun m hm => ?_⟩
  obtain ⟨v, h2, h3⟩ := h1 m hm
  obtain ⟨v', h2', h3'⟩ := h1' m hm
  rw [autoCov_reverse hy, sumSq_reverse hy] at h3'
  refine ⟨v, v', h2, h2', ?_⟩
  have := abs_sub_le v (autoCov M x m / sumSq M x) v'
  rw [abs_sub_comm (autoCov M x m / sumSq M x) v'] at this
  linarith

/-- **C75 in binary64**: a lag at which the series repeats. -/
theorem C75_binary64_repetition (ht : Times64 d M τ e) (hv : Values64 d M j x A V) (ga : LagArgs (D64 ex fu)) (wt : String)
    (hw : wt = "fractional" ∨ wt = "fractional_squared") (r : AcResult (D64 ex fu))
    (hr : autocorrelation .fabs d ga "natural" wt = .ok r) (α : ℚ) (hα : r.corr.alpha = .fin α) (hα0 : pow2 (e - 400) ≤ α)
    (n : ℕ) (k : ℤ) (hn : r.lags[n]? = some (.fin (k * pow2 e))) (hk : |k| + (τ (M - 1) - τ 0) ≤ 2 ^ 53)
    (hrep : ∀ i < M, τ i + k ≤ τ (M - 1) → ∃ i' < M, τ i' = τ i + k ∧ x i' = x i) :
    ∃ v : ℚ, r.At j n (.fin (k * pow2 e)) (.fin v) ∧
      |v - (∑ i ∈ range M with τ i + k ≤ τ (M - 1), dev M x i ^ 2) / sumSq M x| ≤ 500 * V * (M * A ^ 2 / sumSq M x) := by
  obtain ⟨hN, hV0⟩ := hv.pos ht
  have hpe := pow2_pos e
  obtain ⟨s, hs⟩ := selects_exists M (fun i => (τ i : ℚ) * pow2 e) (k * pow2 e)
  have hiff : ∀ i, ((τ i : ℚ) * pow2 e + k * pow2 e ≤ (τ (M - 1) : ℚ) * pow2 e) ↔ τ i + k ≤ τ (M - 1) := by
    intro i
    rw [← add_mul, mul_le_mul_iff_left₀ hpe]
    exact_mod_cast Iff.rfl
  have hρ := sacf_repeat (w := weight ex wt α)
    (weight_zero (ex := ex) (wt := wt) (by unfold KnownWeight; tauto) (by rcases hw with rfl | rfl <;> simp) α) hs (x := x)
    (by
      intro i hi hle
      obtain ⟨i', h1, h2, h3⟩ := hrep i hi ((hiff i).1 hle)
      exact ⟨i', h1, by simp only [h2]; push_cast; ring, h3⟩) ht.increasing (sumSq M x)
  simp only [hiff] at hρ
  obtain ⟨v, h1, h2⟩ := error64 ht hv hw hr hα hα0 hn hk hs
  rw [hρ] at h2
  refine ⟨v, h1, h2.trans ?_⟩
  have hle : ∑ i ∈ range M with τ i + k ≤ τ (M - 1), dev M x i ^ 2 ≤ sumSq M x :=
    Finset.sum_le_sum_of_subset_of_nonneg (Finset.filter_subset _ _) fun i _ _ => sq_nonneg _
  have h0 : 0 ≤ ∑ i ∈ range M with τ i + k ≤ τ (M - 1), dev M x i ^ 2 := Finset.sum_nonneg fun i _ => sq_nonneg _
  have hb : |(∑ i ∈ range M with τ i + k ≤ τ (M - 1), dev M x i ^ 2) / sumSq M x| ≤ 1 := by
    rw [abs_of_nonneg (div_nonneg h0 hN.le)]
    exact (div_le_one hN).2 hle
  have hc : 0 ≤ 250 * V * (M * A ^ 2 / sumSq M x) := by positivity
  nlinarith

/-- **C75 in binary64**: the default call for `a` full periods of `P` samples on a regular grid: at `m` periods the correlation is `1 - m / a` up to `500 V κ`. -/
theorem C75_binary64_periodic {b p : ℤ} {P a : ℕ} (ht : Regular64 d (a * P) b p e) (hv : Values64 d (a * P) j x A V)
    (hx : ∀ i, i + P < a * P → x (i + P) = x i) :
    ∃ r, autocorrelation .fabs d {} "natural" "fractional" = .ok r ∧ ∀ m < a, ∃ v : ℚ,
      r.At j (a * P - 1 + m * P) (.fin (((m * P : ℕ) * p : ℤ) * pow2 e)) (.fin v) ∧
      |v - (1 - m / a)| ≤ 500 * V * ((a * P : ℕ) * A ^ 2 / sumSq (a * P) x) := by
  obtain ⟨hN, _, r, hr, h1⟩ := ht.result hv
  refine ⟨r, hr, fun m hm => ?_⟩
  have hP : 0 < P := by
    rcases Nat.eq_zero_or_pos P with rfl | h0
    · have := ht.two_le; omega
    · exact h0
  obtain ⟨v, h2, h3⟩ := h1 (m * P) (Nat.mul_lt_mul_of_pos_right hm hP)
  obtain ⟨e1, e2⟩ := autoCov_periodic hx hm.le
  have ha : (a : ℚ) ≠ 0 := by exact_mod_cast (by omega : a ≠ 0)
  have hS : ∑ i ∈ range P, dev (a * P) x i ^ 2 ≠ 0 := by
    intro h0; rw [e2, h0, mul_zero] at hN; exact lt_irrefl _ hN
  have e3 : autoCov (a * P) x (m * P) / sumSq (a * P) x = 1 - m / a := by
    rw [e1, e2, Nat.cast_sub hm.le]
    field_simp
  rw [e3] at h3
  exact ⟨v, h2, h3⟩

/-- **C76 in binary64**: the correlations of a default call at the positive lags of a regular series sum to `-1/2` up to `M - 1` error bounds. -/
theorem C76_binary64 {a p : ℤ} (ht : Regular64 d M a p e) (hv : Values64 d M j x A V) :
    ∃ r, autocorrelation .fabs d {} "natural" "fractional" = .ok r ∧ ∃ v : ℕ → ℚ,
      (∀ m < M, r.At j (M - 1 + m) (.fin ((m * p : ℤ) * pow2 e)) (.fin (v m))) ∧
      |∑ m ∈ Finset.Ico 1 M, v m + 1 / 2| ≤ (M - 1 : ℕ) * (500 * V * (M * A ^ 2 / sumSq M x)) := by
  obtain ⟨hN, _, r, hr, h1⟩ := ht.result hv
  choose! v h2 using h1
  refine ⟨r, hr, v, fun m hm => (h2 m hm).1, ?_⟩
  have hM : 0 < M := by linarith [ht.two_le]
  have e1 : ∑ m ∈ Finset.Ico 1 M, v m + 1 / 2 = ∑ m ∈ Finset.Ico 1 M, (v m - autoCov M x m / sumSq M x) := by
    rw [Finset.sum_sub_distrib, sum_autoCov hM hN.ne']; ring
  rw [e1]
  refine (Finset.abs_sum_le_sum_abs _ _).trans ?_
  refine (Finset.sum_le_card_nsmul _ _ _ fun m hm => (h2 m (Finset.mem_Ico.1 hm).2).2).trans ?_
  rw [Nat.card_Ico, nsmul_eq_mul]

/-- **C77 in binary64, large `alpha`**. -/
theorem C77_binary64_large (ht : Times64 d M τ e) (hv : Values64 d M j x A V) (ga : LagArgs (D64 ex fu)) (wt : String)
    (hw : wt = "fractional" ∨ wt = "fractional_squared") (r : AcResult (D64 ex fu))
    (hr : autocorrelation .fabs d ga "natural" wt = .ok r) (α : ℚ) (hα : r.corr.alpha = .fin α) (hα0 : pow2 (e - 400) ≤ α)
    (n : ℕ) (k : ℤ) (hn : r.lags[n]? = some (.fin (k * pow2 e))) (hk : |k| + (τ (M - 1) - τ 0) ≤ 2 ^ 53)
    (s : ℕ → ℕ) (hs : Selects M (fun i => (τ i : ℚ) * pow2 e) (k * pow2 e) s) (D : ℚ) (hD : 0 < D)
    (hDs : ∀ i < M, (τ i : ℚ) * pow2 e + k * pow2 e ≤ (τ (M - 1) : ℚ) * pow2 e →
      |(τ (s i) : ℚ) * pow2 e - ((τ i : ℚ) * pow2 e + k * pow2 e)| ≤ D) (β : ℚ) (hβ : 0 ≤ β)
    (hB : ∀ i' < M, (((range M).filter fun i => (τ i : ℚ) * pow2 e + k * pow2 e ≤ (τ (M - 1) : ℚ) * pow2 e ∧ s i = i').card : ℚ) ≤ β ^ 2) :
    ∃ v : ℚ, r.At j n (.fin (k * pow2 e)) (.fin v) ∧
      |v - sacf M (fun i => (τ i : ℚ) * pow2 e) x (fun _ => 1) s (sumSq M x) (k * pow2 e)|
        ≤ (if wt = "fractional" then D / α else (D / α) ^ 2) * β + 250 * V * (M * A ^ 2 / sumSq M x) * (1 + β) := by
  obtain ⟨hN, hV0⟩ := hv.pos ht
  have hαp : 0 < α := lt_of_lt_of_le (pow2_pos _) hα0
  obtain ⟨v, h1, h2⟩ := error64 ht hv hw hr hα hα0 hn hk hs
  refine ⟨v, h1, ?_⟩
  have hB' : ∀ i' < M, ((range M).filter fun i => (τ i : ℚ) * pow2 e + k * pow2 e ≤ (τ (M - 1) : ℚ) * pow2 e ∧ s i = i').card
      ≤ ⌊β ^ 2⌋₊ := fun i' hi' => by rw [Nat.le_floor_iff (sq_nonneg β)]; exact hB i' hi'
  have hfl := Nat.floor_le (sq_nonneg β)
  have hb : sacf M (fun i => (τ i : ℚ) * pow2 e) x (weight ex wt α) s (sumSq M x) (k * pow2 e) ^ 2 ≤ (⌊β ^ 2⌋₊ : ℕ) :=
    sacf_bound (fun y hy => weight_bounds (ex := ex) (by unfold KnownWeight; tauto) (by rcases hw with rfl | rfl <;> simp) hαp hy)
      (fun i hi hk => (hs i hi hk).1) hB' hN.ne'
  have hb' := abs_le_of_sq_le_sq (hb.trans hfl) hβ
  have hl := sacf_large (ex := ex) hαp hw hN.ne' hs hD hDs hB'
  have hc : 0 ≤ 250 * V * (M * A ^ 2 / sumSq M x) := by positivity
  have hq0 : 0 ≤ (if wt = "fractional" then D / α else (D / α) ^ 2) := by split <;> positivity
  have hl' := abs_le_of_sq_le_sq (hl.trans ((mul_le_mul_of_nonneg_left hfl (sq_nonneg _)).trans_eq (mul_pow _ β 2).symm)) (mul_nonneg hq0 hβ)
  refine (abs_sub_le v _ _).trans ((add_le_add h2 hl').trans ?_)
  nlinarith

/-- **C77 in binary64, small `alpha`** (not below `2^-400` units of time). -/
theorem C77_binary64_small (ht : Times64 d M τ e) (hv : Values64 d M j x A V) (ga : LagArgs (D64 ex fu)) (wt : String)
    (hw : wt = "fractional" ∨ wt = "fractional_squared") (r : AcResult (D64 ex fu))
    (hr : autocorrelation .fabs d ga "natural" wt = .ok r) (α : ℚ) (hα : r.corr.alpha = .fin α) (hα0 : pow2 (e - 400) ≤ α)
    (n : ℕ) (k : ℤ) (hn : r.lags[n]? = some (.fin (k * pow2 e))) (hk : |k| + (τ (M - 1) - τ 0) ≤ 2 ^ 53)
    (s : ℕ → ℕ) (hs : Selects M (fun i => (τ i : ℚ) * pow2 e) (k * pow2 e) s) (β : ℚ) (hβ : 0 ≤ β)
    (hB : ∀ i' < M, (((range M).filter fun i => (τ i : ℚ) * pow2 e + k * pow2 e ≤ (τ (M - 1) : ℚ) * pow2 e ∧ s i = i').card : ℚ) ≤ β ^ 2) :
    ∃ v : ℚ, r.At j n (.fin (k * pow2 e)) (.fin v) ∧
      |v - sacf M (fun i => (τ i : ℚ) * pow2 e) x (fun δ => if δ = 0 then 1 else 0) s (sumSq M x) (k * pow2 e)|
        ≤ (if wt = "fractional" then α / pow2 e else (α / pow2 e) ^ 2) * β + 250 * V * (M * A ^ 2 / sumSq M x) * (1 + β) := by
  obtain ⟨hN, hV0⟩ := hv.pos ht
  have hαp : 0 < α := lt_of_lt_of_le (pow2_pos _) hα0
  have hpe := pow2_pos e
  obtain ⟨v, h1, h2⟩ := error64 ht hv hw hr hα hα0 hn hk hs
  refine ⟨v, h1, ?_⟩
  have hB' : ∀ i' < M, ((range M).filter fun i => (τ i : ℚ) * pow2 e + k * pow2 e ≤ (τ (M - 1) : ℚ) * pow2 e ∧ s i = i').card
      ≤ ⌊β ^ 2⌋₊ := fun i' hi' => by rw [Nat.le_floor_iff (sq_nonneg β)]; exact hB i' hi'
  have hfl := Nat.floor_le (sq_nonneg β)
  have hb : sacf M (fun i => (τ i : ℚ) * pow2 e) x (weight ex wt α) s (sumSq M x) (k * pow2 e) ^ 2 ≤ (⌊β ^ 2⌋₊ : ℕ) :=
    sacf_bound (fun y hy => weight_bounds (ex := ex) (by unfold KnownWeight; tauto) (by rcases hw with rfl | rfl <;> simp) hαp hy)
      (fun i hi hk => (hs i hi hk).1) hB' hN.ne'
  have hb' := abs_le_of_sq_le_sq (hb.trans hfl) hβ
  have hεs : ∀ i < M, (τ i : ℚ) * pow2 e + k * pow2 e ≤ (τ (M - 1) : ℚ) * pow2 e → (τ (s i) : ℚ) * pow2 e ≠ (τ i : ℚ) * pow2 e + k * pow2 e →
      pow2 e ≤ |(τ (s i) : ℚ) * pow2 e - ((τ i : ℚ) * pow2 e + k * pow2 e)| := by
    intro i _ _ hne
    have e1 : (τ (s i) : ℚ) * pow2 e - ((τ i : ℚ) * pow2 e + k * pow2 e) = ((τ (s i) - (τ i + k) : ℤ) : ℚ) * pow2 e := by push_cast; ring
    rw [e1, abs_mul, abs_of_pos hpe]
    have hz : τ (s i) - (τ i + k) ≠ 0 := by
      intro h0
      rw [h0, Int.cast_zero, zero_mul] at e1
      exact hne (sub_eq_zero.1 e1)
    have h1z : (1 : ℚ) ≤ |((τ (s i) - (τ i + k) : ℤ) : ℚ)| := by exact_mod_cast Int.one_le_abs hz
    nlinarith
  have hl := sacf_small (ex := ex) hαp hw hN.ne' hs hpe hεs hB'
  have hc : 0 ≤ 250 * V * (M * A ^ 2 / sumSq M x) := by positivity
  have hq0 : 0 ≤ (if wt = "fractional" then α / pow2 e else (α / pow2 e) ^ 2) := by split <;> positivity
  have hl' := abs_le_of_sq_le_sq (hl.trans ((mul_le_mul_of_nonneg_left hfl (sq_nonneg _)).trans_eq (mul_pow _ β 2).symm)) (mul_nonneg hq0 hβ)
  refine (abs_sub_le v _ _).trans ((add_le_add h2 hl').trans ?_)
  nlinarith

end binary64

/-! ### cases in binary64 -/

theorem signal_times {d : DS Sacf.B} (hc : Constructed d) (ht : d.timeseries = samples 4 fun i => ((5 + i * 3 : ℤ) : ℚ) * pow2 0) :
    Regular64 d 4 5 3 0 :=
  ⟨hc, ht, by norm_num, by norm_num, by norm_num, by norm_num, by norm_num, by norm_num⟩

theorem signal_object (y : ℕ → ℚ) : ∃ d : DS Sacf.B, Constructed d ∧ d.timeseries = (samples 4 fun i => ((5 + i * 3 : ℤ) : ℚ) * pow2 0) ∧
    d.HasRow 0 (samples 4 y) := by
  obtain ⟨d, hd, ht, hrow, _⟩ := C03_round_trip (F := Sacf.B) (samples 4 fun i => ((5 + i * 3 : ℤ) : ℚ) * pow2 0) [samples 4 y]
    (by simp [samples]) (by simp) (by simp [Rect, samples])
  exact ⟨d, .table hd, ht, _, hrow, rfl⟩

/-- C74_binary64: times 5, 8, 11, 14, values 1, 2, 6, 3 and 3, 6, 2, 1 -/
example : ∃ (d d' : DS Sacf.B) (r r' : AcResult Sacf.B), autocorrelation .fabs d = .ok r ∧ autocorrelation .fabs d' = .ok r' ∧
    ∃ v v' : ℚ, r.At 0 4 (.fin 3) (.fin v) ∧ r'.At 0 4 (.fin 3) (.fin v') ∧ |v - v'| ≤ pow2 (-35) := by
  obtain ⟨d, hc, ht, hrow⟩ := signal_object wX'
  obtain ⟨d', hc', ht', hrow'⟩ := signal_object wY
  obtain ⟨r, r', hr, hr', hv⟩ := C74_binary64 (signal_times hc ht) (signal_times hc' ht') (A := 8) (V := pow2 (-51)) ⟨hrow, by decide +kernel, by decide +kernel,
    by decide +kernel, by decide +kernel, by decide +kernel, .inr (by decide +kernel), by decide +kernel⟩ hrow' (by decide +kernel)
  obtain ⟨v, v', h1, h2, h3⟩ := hv 1 (by norm_num)
  refine ⟨d, d', r, r', hr, hr', v, v', ?_, ?_, h3.trans (by decide +kernel)⟩
  · simpa [pow2_zero] using h1
  · simpa [pow2_zero] using h2

/-- C75_binary64_periodic and C76_binary64: values 1, 3, 1, 3 -/
example : ∃ (d : DS Sacf.B) (r : AcResult Sacf.B), autocorrelation .fabs d = .ok r ∧
    (∃ v : ℚ, r.At 0 5 (.fin 6) (.fin v) ∧ |v - 1/2| ≤ pow2 (-35)) ∧
    ∃ v : ℕ → ℚ, (∀ m < 4, r.At 0 (3 + m) (.fin ((m * 3 : ℤ) * pow2 0)) (.fin (v m))) ∧ |∑ m ∈ Finset.Ico 1 4, v m + 1 / 2| ≤ pow2 (-35) := by
  obtain ⟨d, hc, ht, hrow⟩ := signal_object wP
  have hv : Values64 d 4 0 wP 4 (pow2 (-51)) := ⟨hrow, by decide +kernel, by decide +kernel,
    by decide +kernel, by decide +kernel, by decide +kernel, .inr (by decide +kernel), by decide +kernel⟩
  obtain ⟨r, hr, hv1⟩ := C75_binary64_periodic (a := 2) (P := 2) (signal_times hc ht) hv (by
    intro i hi
    have : i < 2 := by omega
    interval_cases i <;> rfl)
  obtain ⟨r', hr', v, h3, h4⟩ := C76_binary64 (signal_times hc ht) hv
  rw [hr] at hr'
  cases hr'
  obtain ⟨w, h1, h2⟩ := hv1 1 (by norm_num)
  refine ⟨d, r, hr, ⟨w, ?_, ?_⟩, v, h3, h4.trans (by decide +kernel)⟩
  · simpa [pow2_zero] using h1
  · have e1 : (1 - ((1 : ℕ) : ℚ) / (2 : ℕ)) = 1/2 := by norm_num
    rw [e1] at h2
    exact h2.trans (by decide +kernel)

/-- values 4, 1, 4 -/
def eR (i : ℕ) : ℚ := [4, 1, 4].getD i 0

/-- C75_binary64_repetition: times 0, 1, 3, values 4, 1, 4, lag 3: only sample 0 counts, and has 1/6 of the sum of squares -/
example : ∃ (d : DS Sacf.B) (r : AcResult Sacf.B) (n : ℕ) (v : ℚ),
    autocorrelation .fabs d { alpha := some (.fin 1) } "natural" "fractional" = .ok r ∧ r.At 0 n (.fin 3) (.fin v) ∧
    |v - 1/6| ≤ pow2 (-35) := by
  obtain ⟨d, r, _, hc, ht, hrow, hr, hα, hlags⟩ := irregular_case (ex := fun x => 1 / (1 - x)) (fu := false) eR (wt := "fractional")
    (by unfold KnownWeight; simp)
  obtain ⟨n, hn⟩ := hlags 3 (by norm_num) (by norm_num)
  have hv : Values64 d 3 0 eR 4 (pow2 (-51)) := ⟨hrow, by decide +kernel, by decide +kernel,
    by decide +kernel, by decide +kernel, by decide +kernel, .inr (by decide +kernel), by decide +kernel⟩
  obtain ⟨v, h1, h2⟩ := C75_binary64_repetition (case_times hc ht) hv _ "fractional" (.inl rfl) r hr 1 hα (by decide +kernel)
    n 3 hn (by decide) (by decide +kernel)
  have e1 : (∑ i ∈ range 3 with eT i + 3 ≤ eT (3 - 1), dev 3 eR i ^ 2) / sumSq 3 eR = 1/6 := by decide +kernel
  rw [e1] at h2
  exact ⟨d, r, n, v, hr, by simpa [pow2_zero] using h1, h2.trans (by decide +kernel)⟩

/-- C77_binary64_large and C77_binary64_small: times 0, 1, 3, values 1, 2, 4, lag 2, `alpha` 1024 and 1/1024 -/
example : (∃ (d : DS Sacf.B) (r : AcResult Sacf.B) (n : ℕ) (v : ℚ),
      autocorrelation .fabs d { alpha := some (.fin 1024) } "natural" "fractional" = .ok r ∧ r.At 0 n (.fin 2) (.fin v) ∧ |v - (-25/42)| ≤ 1 / 500) ∧
    ∃ (d : DS Sacf.B) (r : AcResult Sacf.B) (n : ℕ) (v : ℚ),
      autocorrelation .fabs d { alpha := some (.fin (1/1024)) } "natural" "fractional" = .ok r ∧ r.At 0 n (.fin 2) (.fin v) ∧ |v - (-5/42)| ≤ 1 / 500 := by
  constructor
  · obtain ⟨d, r, _, hc, ht, hrow, hr, hα, hlags⟩ := irregular_case (ex := fun x => 1 / (1 - x)) (fu := false) eY (wt := "fractional")
      (by unfold KnownWeight; simp) 1024
    obtain ⟨n, hn⟩ := hlags 2 (by norm_num) (by norm_num)
    obtain ⟨v, h1, h2⟩ := C77_binary64_large (case_times hc ht) (case_values hrow) _ "fractional" (.inl rfl) r hr 1024 hα (by decide +kernel)
      n 2 hn (by decide) _ irregular_selects 1 one_pos (by decide +kernel) (3/2) (by norm_num) (by decide +kernel)
    have e1 : sacf 3 (fun i => (eT i : ℚ) * pow2 0) eY (fun _ => 1) (fun _ => 2) (sumSq 3 eY) ((2 : ℤ) * pow2 0) = -25/42 := by decide +kernel
    rw [e1] at h2
    exact ⟨d, r, n, v, hr, by simpa [pow2_zero] using h1, h2.trans (by decide +kernel)⟩
  · obtain ⟨d, r, _, hc, ht, hrow, hr, hα, hlags⟩ := irregular_case (ex := fun x => 1 / (1 - x)) (fu := false) eY (wt := "fractional")
      (by unfold KnownWeight; simp) (1/1024)
    obtain ⟨n, hn⟩ := hlags 2 (by norm_num) (by norm_num)
    obtain ⟨v, h1, h2⟩ := C77_binary64_small (case_times hc ht) (case_values hrow) _ "fractional" (.inl rfl) r hr (1/1024) hα (by decide +kernel)
      n 2 hn (by decide) _ irregular_selects (3/2) (by norm_num) (by decide +kernel)
    have e1 : sacf 3 (fun i => (eT i : ℚ) * pow2 0) eY (fun δ => if δ = 0 then 1 else 0) (fun _ => 2) (sumSq 3 eY) ((2 : ℤ) * pow2 0) = -5/42 := by
      decide +kernel
    rw [e1] at h2
    exact ⟨d, r, n, v, hr, by simpa [pow2_zero] using h1, h2.trans (by decide +kernel)⟩

end Sacf
