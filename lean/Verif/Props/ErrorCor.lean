import Verif.Props.Error64
import Verif.Spec.Error64

/-!
# Consequences of the error bound: C05, C25, C27, C33 in rounded arithmetic
-/

namespace Sacf

open Finset

/-! ### C05 -/

section
variable {K : Type} [Field K] [LinearOrder K] [IsStrictOrderedRing K] [FloorRing K] {R : Rnd K} {u η big V A : K} {M : ℕ} {x : ℕ → K}

/-- **C05 in any rounding**: the computed mean is within `5 V A` of the mean, every normalised value within `9 V A` of the deviation. -/
theorem C05_error (h : Moderate R u η big V A M) (d : DS (XF R)) (hd : Constructed d) (j : ℕ) (hrow : d.HasRow j (samples M x))
    (hx : ∀ i < M, |x i| ≤ A) :
    ∃ (μ : K) (y : ℕ → K) (rows : List (List (XF R))), d.meanData[j]? = some (.fin μ) ∧ |μ - mean M x| ≤ 5 * (V * A) ∧
      d.normData2d = .ok rows ∧ rows[j]? = some (samples M y) ∧ ∀ i < M, |y i - dev M x i| ≤ 9 * (V * A) := by
  obtain ⟨t, data, err, N, _, hb⟩ := hd.built
  obtain ⟨hj, hrow⟩ := hb.row hrow
  obtain ⟨μ, hμ, hμe⟩ := near_mean h hx
  have hmean : meanOf (rowOf data t.length j) = (.fin μ : XF R) := by
    rw [hrow]
    exact (meanOf_seqMean (fun i _ => by simp)).trans hμ
  have hdev : ∀ i : ℕ, ∃ y : K, i < M → (Arith.sub (.fin (x i)) (.fin μ) : XF R) = .fin y ∧ |y - dev M x i| ≤ 9 * (V * A) := by
    intro i
    by_cases hi : i < M
    · obtain ⟨y, hy, hye⟩ := near_dev h hx hi
      refine ⟨y, fun _ => ⟨?_, hye⟩⟩
      rw [← hy]
      unfold seqDev
      rw [hμ]
    · exact ⟨0, fun h => absurd h hi⟩
  choose y hy using hdev
  refine ⟨μ, y, _, ?_, hμe, unflatten_ok hd.wf.norm_len, ?_, fun i hi => (hy i hi).2⟩
  · show d.dataMean[j]? = _
    rw [hb.mean]
    simp only [List.getElem?_map, List.getElem?_range hj, Option.map_some]
    rw [hmean]
  · simp only [List.getElem?_map, hb.hN, List.getElem?_range hj, Option.map_some]
    have := hb.nrow hj
    unfold DS.nrow at this
    rw [this, hmean, hrow]
    unfold samples
    rw [List.map_map]
    congr 1
    apply List.map_congr_left
    intro i hi
    exact (hy i (List.mem_range.1 hi)).1

/-- the correlation formula does not change under an affine change of the values -/
theorem sacf_affine {t : ℕ → K} {w : K → K} {s : ℕ → ℕ} {k a c : K} (ha : a ≠ 0) {y : ℕ → K} (hM : 1 ≤ M)
    (hy : ∀ i < M, y i = a * x i + c) (hs : Selects M t k s) :
    sacf M t y w s (sumSq M y) k = sacf M t x w s (sumSq M x) k := by
  have hM0 : (M : K) ≠ 0 := by
    have : M ≠ 0 := by omega
    exact_mod_cast this
  have hmean : mean M y = a * mean M x + c := by
    unfold mean
    rw [sum_congr rfl fun i hi => hy i (mem_range.1 hi), sum_add_distrib, ← mul_sum, sum_const, card_range, nsmul_eq_mul]
    field_simp
  have hdev : ∀ i < M, dev M y i = a * dev M x i := by
    intro i hi
    unfold dev
    rw [hmean, hy i hi]; ring
  have hsq : sumSq M y = a ^ 2 * sumSq M x := by
    unfold sumSq
    rw [mul_sum]
    refine sum_congr rfl fun i hi => ?_
    rw [hdev i (mem_range.1 hi)]; ring
  unfold sacf
  rw [hsq]
  have : ∀ i ∈ (range M).filter (fun i => t i + k ≤ t (M - 1)), w |t (s i) - (t i + k)| * dev M y i * dev M y (s i)
      = a ^ 2 * (w |t (s i) - (t i + k)| * dev M x i * dev M x (s i)) := by
    intro i hi
    obtain ⟨h1, h2⟩ := mem_filter.1 hi
    have h3 := mem_range.1 h1
    rw [hdev i h3, hdev _ (hs i h3 h2).1]; ring
  rw [sum_congr rfl this, ← mul_sum, mul_div_mul_left _ _ (pow_ne_zero 2 ha)]

end

variable {ex : ℚ → ℚ} {fu : Bool} {d d' : DS (D64 ex fu)} {M j : ℕ} {τ : ℕ → ℤ} {e : ℤ} {x : ℕ → ℚ} {A V A' V' : ℚ}

/-- **C05 in binary64**: with at most `2^29` values of size at most `A`, the mean is within `5 M 2^-53 A`. -/
theorem C05_binary64 (hd : Constructed d) (hM : 1 ≤ M) (hM29 : M ≤ 2 ^ 29) (hA : pow2 (-126) ≤ A) (hA' : A ≤ pow2 127)
    (hrow : d.HasRow j (samples M x)) (hx : ∀ i < M, |x i| ≤ A) :
    ∃ (μ : ℚ) (y : ℕ → ℚ) (rows : List (List (D64 ex fu))), d.meanData[j]? = some (.fin μ) ∧
      |μ - mean M x| ≤ 5 * (M * pow2 (-53) * A) ∧ d.normData2d = .ok rows ∧ rows[j]? = some (samples M y) ∧
      ∀ i < M, |y i - dev M x i| ≤ 9 * (M * pow2 (-53) * A) := by
  have hV : 100 * ((M : ℚ) * pow2 (-53)) ≤ 1 := by
    have h1 : (M : ℚ) ≤ 2 ^ 29 := by exact_mod_cast hM29
    have h2 : pow2 (-53) * 2 ^ 53 = 1 := by
      have : (2 : ℚ) ^ 53 = pow2 53 := by rw [show (53 : ℤ) = ((53 : ℕ) : ℤ) from rfl, pow2_nat]; norm_num
      rw [this, ← pow2_add, show (-53 + 53 : ℤ) = 0 from rfl, pow2_zero]
    have h3 := mul_le_mul_of_nonneg_right h1 (pow2_pos (-53)).le
    have h4 := pow2_pos (-53)
    norm_num at h2 h3 ⊢
    linarith
  exact C05_error (moderate64 (ex := ex) (fu := fu) hM hM29 le_rfl hV hA hA') d hd j hrow hx

theorem Times64.increasing (h : Times64 d M τ e) : Increasing M fun i => (τ i : ℚ) * pow2 e := by
  intro i i' hij hi'
  exact mul_lt_mul_of_pos_right (by exact_mod_cast h.inc i i' hij hi') (pow2_pos e)

/-- the deviation of a computed correlation from the exact formula is at most `250 V κ (1 + |ρ|)` -/
theorem error64 (ht : Times64 d M τ e) (hv : Values64 d M j x A V) {ga : LagArgs (D64 ex fu)} {wt : String}
    (hw : wt = "fractional" ∨ wt = "fractional_squared") {r : AcResult (D64 ex fu)}
    (hr : autocorrelation .fabs d ga "natural" wt = .ok r) {α : ℚ} (hα : r.corr.alpha = .fin α) (hα0 : pow2 (e - 400) ≤ α)
    {n : ℕ} {k : ℤ} (hn : r.lags[n]? = some (.fin (k * pow2 e))) (hk : |k| + (τ (M - 1) - τ 0) ≤ 2 ^ 53)
    {s : ℕ → ℕ} (hs : Selects M (fun i => (τ i : ℚ) * pow2 e) (k * pow2 e) s) :
    ∃ v : ℚ, r.At j n (.fin (k * pow2 e)) (.fin v) ∧
      |v - sacf M (fun i => (τ i : ℚ) * pow2 e) x (weight ex wt α) s (sumSq M x) (k * pow2 e)|
        ≤ 250 * V * (M * A ^ 2 / sumSq M x) *
          (1 + |sacf M (fun i => (τ i : ℚ) * pow2 e) x (weight ex wt α) s (sumSq M x) (k * pow2 e)|) :=
  C61_binary64_irregular e ht.emin ht.emax d ht.built M τ ht.times ht.inc ht.one_le ht.le A V hv.amin hv.amax hv.unit hv.small j x hv.row
    hv.bound hv.float hv.spread ga wt hw r hr α hα hα0 n k hn hk s hs

theorem Values64.pos (ht : Times64 d M τ e) (hv : Values64 d M j x A V) : 0 < sumSq M x ∧ 0 ≤ V :=
  ⟨(facts64 (ex := ex) (fu := fu) ht.one_le ht.le hv.amin hv.amax hv.unit hv.small hv.bound hv.float hv.spread).2.2.1,
    (mul_nonneg (Nat.cast_nonneg _) (pow2_pos (-53)).le).trans hv.unit⟩

/-- **C25 in binary64**: the correlation at lag zero is within `500 V κ` of one. -/
theorem C25_error (ht : Times64 d M τ e) (hv : Values64 d M j x A V) (hspan : τ (M - 1) - τ 0 ≤ 2 ^ 53) (ga : LagArgs (D64 ex fu))
    (wt : String) (hw : wt = "fractional" ∨ wt = "fractional_squared") (r : AcResult (D64 ex fu))
    (hr : autocorrelation .fabs d ga "natural" wt = .ok r) (α : ℚ) (hα : r.corr.alpha = .fin α) (hα0 : pow2 (e - 400) ≤ α)
    (n : ℕ) (hn : r.lags[n]? = some (.fin 0)) :
    ∃ v : ℚ, r.At j n (.fin 0) (.fin v) ∧ |v - 1| ≤ 500 * V * (M * A ^ 2 / sumSq M x) := by
  obtain ⟨hN, _⟩ := hv.pos ht
  have e0 : ((0 : ℤ) : ℚ) * pow2 e = 0 := by simp
  have hs := selects_zero ht.increasing
  obtain ⟨v, h1, h2⟩ := error64 ht hv hw hr hα hα0 (n := n) (k := 0) (by rw [e0]; exact hn) (by simpa using hspan)
    (s := fun i => i) (by rw [e0]; exact hs)
  rw [e0] at h1 h2
  rw [sacf_zero (weight_zero (by unfold KnownWeight; tauto) (by rcases hw with rfl | rfl <;> simp) α) ht.increasing, div_self hN.ne',
    abs_one] at h2
  exact ⟨v, h1, h2.trans (by linarith)⟩

/-- **C33 in binary64**: on a regular grid the correlation at a lag of `m ≥ 0` steps is at most `1 + 500 V κ` in size. -/
theorem C33_error_partial (a p : ℤ) (hp : 0 < p) (ht : Times64 d M (fun i => a + i * p) e) (hv : Values64 d M j x A V)
    (ga : LagArgs (D64 ex fu)) (wt : String) (hw : wt = "fractional" ∨ wt = "fractional_squared") (r : AcResult (D64 ex fu))
    (hr : autocorrelation .fabs d ga "natural" wt = .ok r) (α : ℚ) (hα : r.corr.alpha = .fin α) (hα0 : pow2 (e - 400) ≤ α)
    (n m : ℕ) (hm : m < M) (hspan : 2 * M * p ≤ 2 ^ 53) (hn : r.lags[n]? = some (.fin ((m * p : ℤ) * pow2 e))) :
    ∃ v : ℚ, r.At j n (.fin ((m * p : ℤ) * pow2 e)) (.fin v) ∧ |v| ≤ 1 + 500 * V * (M * A ^ 2 / sumSq M x) := by
  obtain ⟨hN, hV0⟩ := hv.pos ht
  have hpe := pow2_pos e
  have htimes : (fun i : ℕ => ((a + i * p : ℤ) : ℚ) * pow2 e) = fun i : ℕ => ((a : ℚ) * pow2 e) + i * ((p : ℚ) * pow2 e) := by
    funext i; push_cast; ring
  have hlag : ((m * p : ℤ) : ℚ) * pow2 e = m * ((p : ℚ) * pow2 e) := by push_cast; ring
  obtain ⟨hsel, heq⟩ := sacf_regular (t0 := (a : ℚ) * pow2 e) (δ := (p : ℚ) * pow2 e) (mul_pos (by exact_mod_cast hp) hpe)
    (w := weight ex wt α) (weight_zero (by unfold KnownWeight; tauto) (by rcases hw with rfl | rfl <;> simp) α) M m hm x (sumSq M x)
  rw [← htimes, ← hlag] at hsel heq
  have hMpz : ((M - 1 : ℕ) : ℤ) * p ≤ M * p := mul_le_mul_of_nonneg_right (by omega) hp.le
  have hmpz : (m : ℤ) * p ≤ M * p := mul_le_mul_of_nonneg_right (by omega) hp.le
  have hmp0 : 0 ≤ (m : ℤ) * p := mul_nonneg (by omega) hp.le
  obtain ⟨v, h1, h2⟩ := error64 ht hv hw hr hα hα0 hn (by rw [abs_of_nonneg hmp0]; push_cast; linarith) hsel
  rw [heq] at h2
  refine ⟨v, h1, ?_⟩
  have hρ := autoCov_le (x := x) hm hN.ne'
  have hc : 0 ≤ 250 * V * (M * A ^ 2 / sumSq M x) := by positivity
  have e1 : v = (v - autoCov M x m / sumSq M x) + autoCov M x m / sumSq M x := by ring
  rw [e1]
  refine (abs_add_le _ _).trans ?_
  nlinarith

/-- **C33 in binary64, any increasing times and any lag**: if no sample is matched more than `β²` times, the correlation is at most `β` in size, up to the error
bound. -/
theorem C33_error_bound_partial (ht : Times64 d M τ e) (hv : Values64 d M j x A V) (ga : LagArgs (D64 ex fu)) (wt : String)
    (hw : wt = "fractional" ∨ wt = "fractional_squared") (r : AcResult (D64 ex fu))
    (hr : autocorrelation .fabs d ga "natural" wt = .ok r) (α : ℚ) (hα : r.corr.alpha = .fin α) (hα0 : pow2 (e - 400) ≤ α)
    (n : ℕ) (k : ℤ) (hn : r.lags[n]? = some (.fin (k * pow2 e))) (hk : |k| + (τ (M - 1) - τ 0) ≤ 2 ^ 53) (β : ℚ) (hβ : 0 ≤ β)
    (s : ℕ → ℕ) (hs : Selects M (fun i => (τ i : ℚ) * pow2 e) (k * pow2 e) s)
    (hB : ∀ i' < M, (((range M).filter fun i => (τ i : ℚ) * pow2 e + k * pow2 e ≤ (τ (M - 1) : ℚ) * pow2 e ∧ s i = i').card : ℚ) ≤ β ^ 2) :
    ∃ v : ℚ, r.At j n (.fin (k * pow2 e)) (.fin v) ∧ |v| ≤ β + 250 * V * (M * A ^ 2 / sumSq M x) * (1 + β) := by
  obtain ⟨hN, hV0⟩ := hv.pos ht
  have hαp : 0 < α := lt_of_lt_of_le (pow2_pos _) hα0
  obtain ⟨v, h1, h2⟩ := error64 ht hv hw hr hα hα0 hn hk hs
  refine ⟨v, h1, ?_⟩
  have hM0 := ht.one_le
  have hb : sacf M (fun i => (τ i : ℚ) * pow2 e) x (weight ex wt α) s (sumSq M x) (k * pow2 e) ^ 2 ≤ (⌊β ^ 2⌋₊ : ℕ) := by
    apply sacf_bound (fun y hy => weight_bounds (ex := ex) (by unfold KnownWeight; tauto) (by rcases hw with rfl | rfl <;> simp) hαp hy)
      (fun i hi hk => (hs i hi hk).1) _ hN.ne'
    intro n' hn'
    rw [Nat.le_floor_iff (sq_nonneg β)]
    exact hB n' hn'
  have hb' := abs_le_of_sq_le_sq (hb.trans (Nat.floor_le (sq_nonneg β))) hβ
  have hc : 0 ≤ 250 * V * (M * A ^ 2 / sumSq M x) := by positivity
  generalize sacf M (fun i => (τ i : ℚ) * pow2 e) x (weight ex wt α) s (sumSq M x) (k * pow2 e) = ρ at *
  have e1 : v = (v - ρ) + ρ := by ring
  rw [e1]
  refine (abs_add_le _ _).trans ?_
  nlinarith

/-- **C31 in binary64**: on a regular grid the correlations at minus and plus `m` steps differ by the surplus `S` of the samples that are shifted before the
first time, up to the error bounds of the two values. -/
theorem C31_error_partial (a p : ℤ) (hp : 0 < p) (ht : Times64 d M (fun i => a + i * p) e) (hv : Values64 d M j x A V)
    (ga : LagArgs (D64 ex fu)) (wt : String) (hw : wt = "fractional" ∨ wt = "fractional_squared") (r : AcResult (D64 ex fu))
    (hr : autocorrelation .fabs d ga "natural" wt = .ok r) (α : ℚ) (hα : r.corr.alpha = .fin α) (hα0 : pow2 (e - 400) ≤ α)
    (n n' m : ℕ) (hm : m < M) (hspan : 2 * M * p ≤ 2 ^ 53) (hn : r.lags[n]? = some (.fin ((-(m * p) : ℤ) * pow2 e)))
    (hn' : r.lags[n']? = some (.fin ((m * p : ℤ) * pow2 e))) (S : ℚ)
    (hS : S = (∑ i ∈ range m, weight ex wt α ((m - i : ℕ) * (p * pow2 e)) * dev M x i * dev M x 0) / sumSq M x) :
    ∃ v v' : ℚ, r.At j n (.fin ((-(m * p) : ℤ) * pow2 e)) (.fin v) ∧ r.At j n' (.fin ((m * p : ℤ) * pow2 e)) (.fin v') ∧
      |v - v' - S| ≤ 250 * V * (M * A ^ 2 / sumSq M x) * (4 + |S|) := by
  obtain ⟨hN, hV0⟩ := hv.pos ht
  have hpe := pow2_pos e
  have hw0 := weight_zero (ex := ex) (wt := wt) (by unfold KnownWeight; tauto) (by rcases hw with rfl | rfl <;> simp) α
  have htimes : (fun i : ℕ => ((a + i * p : ℤ) : ℚ) * pow2 e) = fun i : ℕ => ((a : ℚ) * pow2 e) + i * ((p : ℚ) * pow2 e) := by
    funext i; push_cast; ring
  have hlag : ((m * p : ℤ) : ℚ) * pow2 e = m * ((p : ℚ) * pow2 e) := by push_cast; ring
  have hlag' : ((-(m * p) : ℤ) : ℚ) * pow2 e = -(m * ((p : ℚ) * pow2 e)) := by push_cast; ring
  obtain ⟨hsel', heq'⟩ := sacf_regular (t0 := (a : ℚ) * pow2 e) (δ := (p : ℚ) * pow2 e) (mul_pos (by exact_mod_cast hp) hpe)
    (w := weight ex wt α) hw0 M m hm x (sumSq M x)
  obtain ⟨hsel, heq⟩ := sacf_regular_neg (t0 := (a : ℚ) * pow2 e) (δ := (p : ℚ) * pow2 e) (mul_pos (by exact_mod_cast hp) hpe)
    (w := weight ex wt α) hw0 M m hm x (sumSq M x)
  rw [← htimes, ← hlag] at hsel' heq'
  rw [← htimes, ← hlag'] at hsel heq
  rw [add_div, ← hS] at heq
  have hMpz : ((M - 1 : ℕ) : ℤ) * p ≤ M * p := mul_le_mul_of_nonneg_right (by omega) hp.le
  have hmpz : (m : ℤ) * p ≤ M * p := mul_le_mul_of_nonneg_right (by omega) hp.le
  have hmp0 : 0 ≤ (m : ℤ) * p := mul_nonneg (by omega) hp.le
  obtain ⟨v', h1', h2'⟩ := error64 ht hv hw hr hα hα0 hn' (by rw [abs_of_nonneg hmp0]; push_cast; linarith) hsel'
  obtain ⟨v, h1, h2⟩ := error64 ht hv hw hr hα hα0 hn (by rw [abs_neg, abs_of_nonneg hmp0]; push_cast; linarith) hsel
  rw [heq'] at h2'
  rw [heq] at h2
  refine ⟨v, v', h1, h1', ?_⟩
  have hρ := autoCov_le (x := x) hm hN.ne'
  have hc : 0 ≤ 250 * V * (M * A ^ 2 / sumSq M x) := by positivity
  have e1 : v - v' - S = (v - (autoCov M x m / sumSq M x + S)) - (v' - autoCov M x m / sumSq M x) := by ring
  have e2 := abs_add_le (autoCov M x m / sumSq M x) S
  rw [e1]
  refine (abs_sub _ _).trans ?_
  nlinarith

/-- **C27 in binary64**: rows `x` and `a x + c` (both stored exactly) over the same times have correlations that differ by no more than
the sum of the two error bounds. -/
theorem C27_error (ht : Times64 d M τ e) (ht' : Times64 d' M τ e) {j' : ℕ} {y : ℕ → ℚ} (hv : Values64 d M j x A V)
    (hv' : Values64 d' M j' y A' V') (a c : ℚ) (ha : a ≠ 0) (hy : ∀ i < M, y i = a * x i + c)
    (ga : LagArgs (D64 ex fu)) (wt : String) (hw : wt = "fractional" ∨ wt = "fractional_squared") (r r' : AcResult (D64 ex fu))
    (hr : autocorrelation .fabs d ga "natural" wt = .ok r) (hr' : autocorrelation .fabs d' ga "natural" wt = .ok r')
    (α : ℚ) (hα : r.corr.alpha = .fin α) (hα' : r'.corr.alpha = .fin α) (hα0 : pow2 (e - 400) ≤ α)
    (n n' : ℕ) (k : ℤ) (hn : r.lags[n]? = some (.fin (k * pow2 e))) (hn' : r'.lags[n']? = some (.fin (k * pow2 e)))
    (hk : |k| + (τ (M - 1) - τ 0) ≤ 2 ^ 53) (s : ℕ → ℕ) (hs : Selects M (fun i => (τ i : ℚ) * pow2 e) (k * pow2 e) s) :
    ∃ v v' : ℚ, r.At j n (.fin (k * pow2 e)) (.fin v) ∧ r'.At j' n' (.fin (k * pow2 e)) (.fin v') ∧
      |v - v'| ≤ 250 * (V * (M * A ^ 2 / sumSq M x) + V' * (M * A' ^ 2 / sumSq M y)) *
        (1 + |sacf M (fun i => (τ i : ℚ) * pow2 e) x (weight ex wt α) s (sumSq M x) (k * pow2 e)|) := by
  obtain ⟨v, h1, h2⟩ := error64 ht hv hw hr hα hα0 hn hk hs
  obtain ⟨v', h1', h2'⟩ := error64 ht' hv' hw hr' hα' hα0 hn' hk hs
  rw [sacf_affine ha ht.one_le hy hs] at h2'
  refine ⟨v, v', h1, h1', ?_⟩
  have := abs_sub_le v (sacf M (fun i => (τ i : ℚ) * pow2 e) x (weight ex wt α) s (sumSq M x) (k * pow2 e)) v'
  rw [abs_sub_comm (sacf M _ x _ s _ _) v'] at this
  refine this.trans ?_
  linarith

/-! ### cases: the irregular times 0, 1, 3 with values 1, 2, 4 and -2, 0, 4; regular times -/

theorem case_times (hd : Constructed d) (ht : d.timeseries = samples 3 fun i => (eT i : ℚ) * pow2 0) : Times64 d 3 eT 0 :=
  ⟨hd, ht, eT_inc, by norm_num, by norm_num, by norm_num, by norm_num⟩

theorem case_values (hrow : d.HasRow j (samples 3 eY)) : Values64 d 3 j eY 4 (pow2 (-24)) :=
  ⟨hrow, by decide +kernel, by decide +kernel, by decide +kernel, by decide +kernel, by decide +kernel, .inl le_rfl, by decide +kernel⟩

/-- values -2, 0, 4, that is `2 · eY - 4` -/
def eZ (i : ℕ) : ℚ := [-2, 0, 4].getD i 0

theorem case_values' (hrow : d.HasRow j (samples 3 eZ)) : Values64 d 3 j eZ 4 (3 * pow2 (-53)) :=
  ⟨hrow, by decide +kernel, by decide +kernel, by decide +kernel, by decide +kernel, by decide +kernel, .inr (by decide +kernel),
    by decide +kernel⟩

/-- C33_error_bound_partial applied to the lag 2, at which the samples 0 and 1 are both matched with sample 2 -/
example : ∃ (d : DS Sacf.B) (r : AcResult Sacf.B) (n : ℕ) (v : ℚ),
    autocorrelation .fabs d { alpha := some (.fin 1) } "natural" "fractional" = .ok r ∧ r.At 0 n (.fin 2) (.fin v) ∧ |v| ≤ 3/2 + 1 / 2000 := by
  obtain ⟨d, r, _, hc, ht, hrow, hr, hα, hlags⟩ := irregular_case (ex := fun x => 1 / (1 - x)) (fu := false) eY (wt := "fractional")
    (by unfold KnownWeight; simp)
  obtain ⟨n, hn⟩ := hlags 2 (by norm_num) (by norm_num)
  obtain ⟨v, h1, h2⟩ := C33_error_bound_partial (case_times hc ht) (case_values hrow) _ "fractional" (.inl rfl) r hr 1 hα (by decide +kernel)
    n 2 hn (by decide) (3/2) (by norm_num) _ irregular_selects (by decide +kernel)
  have e0 : ((2 : ℤ) : ℚ) * pow2 0 = 2 := by rw [pow2_zero]; norm_num
  rw [e0] at h1
  exact ⟨d, r, n, v, hr, h1, h2.trans (by decide +kernel)⟩

/-- C25_error, C27_error and C05_binary64 applied; `5 · 3 · 2^-53 · 4 = 15 · 2^-51` -/
example : ∃ (d d' : DS Sacf.B) (r r' : AcResult Sacf.B),
    autocorrelation .fabs d { alpha := some (.fin 1) } "natural" "fractional" = .ok r ∧
    autocorrelation .fabs d' { alpha := some (.fin 1) } "natural" "fractional" = .ok r' ∧
    (∃ (n : ℕ) (v : ℚ), r.At 0 n (.fin 0) (.fin v) ∧ |v - 1| ≤ 1 / 2000) ∧
    (∃ (n n' : ℕ) (v v' : ℚ), r.At 0 n (.fin 2) (.fin v) ∧ r'.At 0 n' (.fin 2) (.fin v') ∧ |v - v'| ≤ 1 / 2000) ∧
    ∃ μ : ℚ, d.meanData[0]? = some (.fin μ) ∧ |μ - 7/3| ≤ 15 * pow2 (-51) := by
  obtain ⟨d, r, _, hc, ht, hrow, hr, hα, hlags⟩ := irregular_case (ex := fun x => 1 / (1 - x)) (fu := false) eY (wt := "fractional")
    (by unfold KnownWeight; simp)
  obtain ⟨d', r', _, hc', ht', hrow', hr', hα', hlags'⟩ := irregular_case (ex := fun x => 1 / (1 - x)) (fu := false) eZ
    (wt := "fractional") (by unfold KnownWeight; simp)
  refine ⟨d, d', r, r', hr, hr', ?_, ?_, ?_⟩
  · obtain ⟨n, hn⟩ := hlags 0 (by norm_num) (by norm_num)
    have e0 : ((0 : ℤ) : ℚ) * pow2 0 = 0 := by simp
    rw [e0] at hn
    obtain ⟨v, h1, h2⟩ := C25_error (case_times hc ht) (case_values hrow) (by decide) _ "fractional" (.inl rfl) r hr 1 hα
      (by decide +kernel) n hn
    exact ⟨n, v, h1, h2.trans (by decide +kernel)⟩
  · obtain ⟨n, hn⟩ := hlags 2 (by norm_num) (by norm_num)
    obtain ⟨n', hn'⟩ := hlags' 2 (by norm_num) (by norm_num)
    obtain ⟨v, v', h1, h2, h3⟩ := C27_error (case_times hc ht) (case_times hc' ht') (case_values hrow) (case_values' hrow') 2 (-4)
      (by norm_num) (by decide +kernel) _ "fractional" (.inl rfl) r r' hr hr' 1 hα hα' (by decide +kernel) n n' 2 hn hn' (by decide)
      _ irregular_selects
    have e0 : ((2 : ℤ) : ℚ) * pow2 0 = 2 := by rw [pow2_zero]; norm_num
    rw [e0] at h1 h2
    exact ⟨n, n', v, v', h1, h2, h3.trans (by decide +kernel)⟩
  · obtain ⟨μ, _, _, h1, h2, _⟩ := C05_binary64 hc (A := 4) (by norm_num) (by norm_num) (by decide +kernel) (by decide +kernel) hrow
      (by decide +kernel)
    refine ⟨μ, h1, ?_⟩
    have e1 : mean 3 eY = 7/3 := by decide +kernel
    rw [e1] at h2
    exact h2.trans (by decide +kernel)

/-- C33_error_partial and C31_error_partial applied to the times 5, 8, 11, values 1, 2, 4 and the lags 3 and -3: the two values differ by 4/21 up to 1/1000 -/
example : ∃ (d : DS Sacf.B) (r : AcResult Sacf.B), autocorrelation .fabs d = .ok r ∧
    (∃ v : ℚ, r.At 0 3 (.fin 3) (.fin v) ∧ |v| ≤ 1 + 1 / 2000) ∧
    ∃ v v' : ℚ, r.At 0 1 (.fin (-3)) (.fin v) ∧ r.At 0 3 (.fin 3) (.fin v') ∧ |v - v' - 4/21| ≤ 1 / 1000 := by
  obtain ⟨d, hd, ht, hrow, _⟩ := C03_round_trip (F := Sacf.B) (samples 3 fun i => ((5 + i * 3 : ℤ) : ℚ) * pow2 0) [samples 3 eY]
    (by simp [samples]) (by simp) (by simp [Rect, samples])
  have hc : Constructed d := .table hd
  obtain ⟨r, hr, hl, _⟩ := C60_binary64 0 (by norm_num) (by norm_num) d hc 3 5 3 (by norm_num) ht (by norm_num) (by norm_num)
    (by norm_num)
  have ht' : d.timeseries = samples 3 fun i => ((10 + i * (2 * 3) : ℤ) : ℚ) * pow2 (-1) := by rw [ht]; decide +kernel
  have hmed := regular_median (exactUnit64 (ex := fun x => 1 / (1 - x)) (fu := false) (-1) (by norm_num) (by norm_num)) hc
    (by norm_num) ht' (by norm_num) (by norm_num)
  have hα := (result_params hc.wf hr).2.2.2
  simp only [Option.getD_none] at hα
  rw [hmed] at hα
  have e0 : ((1 : ℕ) * 3 : ℤ) * pow2 0 = (3 : ℚ) := by decide +kernel
  have hn : r.lags[3]? = some (.fin (((1 : ℕ) * 3 : ℤ) * pow2 0)) := by rw [hl]; decide +kernel
  obtain ⟨v, h1, h2⟩ := C33_error_partial 5 3 (by norm_num)
    (⟨hc, ht, fun i i' h _ => by omega, by norm_num, by norm_num, by norm_num, by norm_num⟩ : Times64 d 3 _ 0)
    (case_values (j := 0) ⟨_, hrow, rfl⟩) _ "fractional" (.inl rfl) r hr _ hα (by decide +kernel) 3 1 (by norm_num) (by norm_num) hn
  rw [e0] at h1
  refine ⟨d, r, hr, ⟨v, h1, h2.trans (by decide +kernel)⟩, ?_⟩
  have e0' : (-((1 : ℕ) * 3) : ℤ) * pow2 0 = (-3 : ℚ) := by decide +kernel
  obtain ⟨v, v', h3, h4, h5⟩ := C31_error_partial 5 3 (by norm_num)
    (⟨hc, ht, fun i i' h _ => by omega, by norm_num, by norm_num, by norm_num, by norm_num⟩ : Times64 d 3 _ 0)
    (case_values (j := 0) ⟨_, hrow, rfl⟩) _ "fractional" (.inl rfl) r hr _ hα (by decide +kernel) 1 3 1 (by norm_num) (by norm_num)
    (by rw [hl]; decide +kernel) hn (4/21) (by decide +kernel)
  rw [e0'] at h3
  rw [e0] at h4
  exact ⟨v, v', h3, h4, h5.trans (by decide +kernel)⟩

end Sacf
