import Verif.Props.ErrorCor
import Verif.Props.Stability

/-!
# C26 in binary64: the normaliser of the values narrowed to `float`
-/

namespace Sacf

open Finset

variable {ex : ℚ → ℚ} {fu : Bool} {d : DS (D64 ex fu)} {M j : ℕ} {τ : ℕ → ℤ} {e : ℤ} {x : ℕ → ℚ} {A V : ℚ}

/-- the sum of squares of the narrowed values about the mean of the values is not much larger than that of the values -/
theorem narrowedSumSq_le (hM : 1 ≤ M) (hA : pow2 (-126) ≤ A) (hx : ∀ i < M, |x i| ≤ A) :
    narrowedSumSq (roundTo 24 (-149)) M x ≤ 2 * (M * A ^ 2) := by
  have hA0 : 0 < A := lt_of_lt_of_le (pow2_pos _) hA
  have h1 := sumSq_le hM hx
  have hclose : ∀ i < M, |roundTo 24 (-149) (x i) - x i| ≤ A / 10 := by
    intro i hi
    refine (roundTo_accurate (x i)).trans ?_
    have e1 : pow2 (-((24 : ℕ) : ℤ)) * |x i| ≤ pow2 (-24) * A := mul_le_mul_of_nonneg_left (hx i hi) (pow2_pos _).le
    have e2 : pow2 (-149 - 1) ≤ pow2 (-24) * A := by
      have : pow2 (-149 - 1) = pow2 (-24) * pow2 (-126) := by rw [← pow2_add]; rfl
      rw [this]; exact mul_le_mul_of_nonneg_left hA (pow2_pos _).le
    have e3 : pow2 (-24) * A ≤ 1 / 20 * A := mul_le_mul_of_nonneg_right (by decide +kernel) hA0.le
    exact (add_le_add e1 e2).trans (by linarith)
  have h2 : narrowedSumSq (roundTo 24 (-149)) M x ≤ ∑ i ∈ range M, (3 / 2 * dev M x i ^ 2 + 3 / 100 * A ^ 2) := by
    refine sum_le_sum fun i hi => ?_
    have h3 := hclose i (mem_range.1 hi)
    have h4 : (roundTo 24 (-149) (x i) - x i) ^ 2 ≤ (A / 10) ^ 2 := sq_le_sq' (by linarith [(abs_le.1 h3).1]) (abs_le.1 h3).2
    have h5 : roundTo 24 (-149) (x i) - mean M x = dev M x i + (roundTo 24 (-149) (x i) - x i) := by unfold dev; ring
    rw [h5]
    nlinarith [sq_nonneg (dev M x i - 2 * (roundTo 24 (-149) (x i) - x i))]
  rw [sum_add_distrib, ← mul_sum, sum_const, card_range, nsmul_eq_mul] at h2
  have h3 : ∑ i ∈ range M, dev M x i ^ 2 = sumSq M x := rfl
  have : 0 ≤ (M : ℚ) * A ^ 2 := by positivity
  rw [h3] at h2
  linarith

/-- **C26 in binary64**: what is returned is the published formula times the ratio of the two sums of squares, within `250 V κ (1 + |·|)`,
where `V ≥ M 2^-53` and `κ = M A² / Σ (float(x) - mean)²`, whether or not the values are representable as `float`. -/
theorem C26_binary64_partial (ht : Times64 d M τ e) (hM : 2 ≤ M) (hrow : d.HasRow j (samples M x)) (hA : pow2 (-126) ≤ A) (hA' : A ≤ pow2 127)
    (hx : ∀ i < M, |x i| ≤ A) (hx' : ∀ i < M, |roundTo 24 (-149) (x i)| ≤ A) (hV : M * pow2 (-53) ≤ V) (hV' : 100 * V ≤ 1)
    (hκ : 122 * V * (M * A ^ 2) ≤ narrowedSumSq (roundTo 24 (-149)) M x) (hS : 0 < sumSq M x)
    (ga : LagArgs (D64 ex fu)) (wt : String) (hw : wt = "fractional" ∨ wt = "fractional_squared") (r : AcResult (D64 ex fu))
    (hr : autocorrelation .fabs d ga "natural" wt = .ok r) (α : ℚ) (hα : r.corr.alpha = .fin α) (hα0 : pow2 (e - 400) ≤ α)
    (n : ℕ) (k : ℤ) (hn : r.lags[n]? = some (.fin (k * pow2 e))) (hk : |k| + (τ (M - 1) - τ 0) ≤ 2 ^ 53)
    (s : ℕ → ℕ) (hs : Selects M (fun i => (τ i : ℚ) * pow2 e) (k * pow2 e) s) :
    ∃ v ρ : ℚ, r.At j n (.fin (k * pow2 e)) (.fin v) ∧
      ρ = sacf M (fun i => (τ i : ℚ) * pow2 e) x (weight ex wt α) s (sumSq M x) (k * pow2 e) *
        (sumSq M x / narrowedSumSq (roundTo 24 (-149)) M x) ∧
      |v - ρ| ≤ 250 * V * (M * A ^ 2 / narrowedSumSq (roundTo 24 (-149)) M x) * (1 + |ρ|) := by
  have hkw : KnownWeight wt := by unfold KnownWeight; tauto
  have hMA : 0 ≤ (M : ℚ) * A ^ 2 := by positivity
  obtain ⟨hmod, hN, hb1, hb2, hb3⟩ := sizes64 (ex := ex) (fu := fu) ht.one_le ht.le hA hA' hV hV' hκ
  obtain ⟨hu, hη, hM1, huV, hV0, h1, h2, huA, h3, h4, h5, h6, h7, h8, h9⟩ := hmod.facts
  have hαp : 0 < α := lt_of_lt_of_le (pow2_pos _) hα0
  have hsmall : 100 * pow2 (-53) ≤ 1 := by linarith
  have hN2 := narrowedSumSq_le ht.one_le hA hx
  have hmean := abs_mean_le ht.one_le hx
  have hnorm : Near (seqNorm M fun i => (.fin (x i) : D64 ex fu)) (narrowedSumSq (roundTo 24 (-149)) M x) (61 * V * (M * A ^ 2)) := by
    refine near_norm_of hmod hx (y := fun i => roundTo 24 (-149) (x i)) (fun i hi => ?_) (fun i hi => ?_)
    · exact (abs_sub _ _).trans (by linarith [hx' i hi])
    · rw [narrow64 hA' (hx i hi)]
      refine ⟨_, rfl, ?_⟩
      rw [sub_self, abs_zero]
      have := mul_nonneg hV0 hmod.pos.le
      linarith
  have hNle : pow2 (-53) * narrowedSumSq (roundTo 24 (-149)) M x ≤ V * (M * A ^ 2) := by
    have e1 : 2 * pow2 (-53) ≤ V := by
      have : (2 : ℚ) ≤ M := by exact_mod_cast hM
      exact (mul_le_mul_of_nonneg_right this hu).trans hV
    have e2 := mul_le_mul_of_nonneg_left hN2 hu
    have e3 := mul_le_mul_of_nonneg_right e1 hMA
    linarith
  obtain ⟨v, g1, g2⟩ := error_core_of (exactUnit64 (ex := ex) (fu := fu) e ht.emin ht.emax) hmod d ht.built τ ht.times ht.inc j hrow hx hnorm
    hNle hN2 ga wt hkw r hr α hα n k hn hk hκ hN hb1 hb2 (weight ex wt α)
    (fun δ h0 h1 => near_weight hmod.acc hsmall hmod.under1 hb3 hw hαp h0 (by
      have e1 : δ / α ≤ ((2 ^ 53 : ℤ) : ℚ) * pow2 e / α := (div_le_div_iff_of_pos_right hαp).2 h1
      have e2 := pow_le_pow_left₀ (div_nonneg h0 hαp.le) e1 2
      have e3 := scale64 hα0
      linarith) _) s hs
  refine ⟨v, _, g1, rfl, ?_⟩
  have e : sacf M (fun i => (τ i : ℚ) * pow2 e) x (weight ex wt α) s (narrowedSumSq (roundTo 24 (-149)) M x) (k * pow2 e)
      = sacf M (fun i => (τ i : ℚ) * pow2 e) x (weight ex wt α) s (sumSq M x) (k * pow2 e) *
        (sumSq M x / narrowedSumSq (roundTo 24 (-149)) M x) := by
    unfold sacf
    have := hS.ne'
    field_simp
  rw [e] at g2
  exact g2

/-- **C26 in binary64, lag zero**: the value is the ratio of the two sums of squares, within `250 V κ (1 + ratio)`. -/
theorem C26_zero_binary64_partial (ht : Times64 d M τ e) (hM : 2 ≤ M) (hrow : d.HasRow j (samples M x)) (hA : pow2 (-126) ≤ A) (hA' : A ≤ pow2 127)
    (hx : ∀ i < M, |x i| ≤ A) (hx' : ∀ i < M, |roundTo 24 (-149) (x i)| ≤ A) (hV : M * pow2 (-53) ≤ V) (hV' : 100 * V ≤ 1)
    (hκ : 122 * V * (M * A ^ 2) ≤ narrowedSumSq (roundTo 24 (-149)) M x) (hS : 0 < sumSq M x) (hspan : τ (M - 1) - τ 0 ≤ 2 ^ 53)
    (ga : LagArgs (D64 ex fu)) (wt : String) (hw : wt = "fractional" ∨ wt = "fractional_squared") (r : AcResult (D64 ex fu))
    (hr : autocorrelation .fabs d ga "natural" wt = .ok r) (α : ℚ) (hα : r.corr.alpha = .fin α) (hα0 : pow2 (e - 400) ≤ α)
    (n : ℕ) (hn : r.lags[n]? = some (.fin 0)) :
    ∃ v q : ℚ, r.At j n (.fin 0) (.fin v) ∧ q = sumSq M x / narrowedSumSq (roundTo 24 (-149)) M x ∧
      |v - q| ≤ 250 * V * (M * A ^ 2 / narrowedSumSq (roundTo 24 (-149)) M x) * (1 + q) := by
  have e0 : ((0 : ℤ) : ℚ) * pow2 e = 0 := by simp
  have hs := selects_zero ht.increasing
  obtain ⟨v, ρ, h1, h2, h3⟩ := C26_binary64_partial ht hM hrow hA hA' hx hx' hV hV' hκ hS ga wt hw r hr α hα hα0 n 0 (by rw [e0]; exact hn)
    (by simpa using hspan) (fun i => i) (by rw [e0]; exact hs)
  rw [e0] at h1 h2
  rw [sacf_zero (weight_zero (by unfold KnownWeight; tauto) (by rcases hw with rfl | rfl <;> simp) α) ht.increasing, div_self hS.ne', one_mul] at h2
  have hN : 0 ≤ narrowedSumSq (roundTo 24 (-149)) M x := sum_nonneg fun _ _ => sq_nonneg _
  rw [abs_of_nonneg (a := ρ) (h2 ▸ div_nonneg hS.le hN)] at h3
  exact ⟨v, ρ, h1, h2, h3⟩

/-- the doubles nearest to 0.1, 0.2, 0.3, 0.5 -/
def nX (i : ℕ) : ℚ := [b64 (1/10), b64 (2/10), b64 (3/10), b64 (1/2)].getD i 0

/-- C26_binary64_partial, C26_zero_binary64_partial: four values of which three are not representable as `float`, lags 0 and 2304 units of
`2^-10`; the value at lag zero is not 1 -/
example : ∃ (r : AcResult B) (v ρ v₀ : ℚ), r.At 0 1 (.fin (2304 * pow2 (-10))) (.fin v) ∧
    ρ = sacf 4 (fun i => (kτ i : ℚ) * pow2 (-10)) nX (weight (fun x => 1 / (1 - x)) "fractional" 1) kS (sumSq 4 nX) (2304 * pow2 (-10)) *
        (sumSq 4 nX / narrowedSumSq (roundTo 24 (-149)) 4 nX) ∧ |v - ρ| ≤ 1 / 10 ^ 10 ∧
    r.At 0 0 (.fin 0) (.fin v₀) ∧ 1 + 1 / 10 ^ 9 < v₀ := by
  obtain ⟨d, r, ht, hrow, hr, hα, hl⟩ := lag64_lags kτ nX 2304 kτ_inc (by decide +kernel)
  have hM : 2 ≤ 4 := by norm_num
  obtain ⟨v, ρ, h1, h2, h3⟩ := C26_binary64_partial ht hM hrow (A := 51/100) (V := pow2 (-51)) (by decide +kernel)
    (by decide +kernel) (by decide +kernel) (by decide +kernel) (by decide +kernel) (by decide +kernel) (by decide +kernel) (by decide +kernel)
    _ "fractional" (.inl rfl) r hr 1 hα (by decide +kernel) 1 2304 (by rw [hl]; rfl) (by decide +kernel) kS (by
      unfold Selects IsNearest
      decide +kernel)
  obtain ⟨v₀, ρ₀, g1, g2, g3⟩ := C26_zero_binary64_partial ht hM hrow (A := 51/100) (V := pow2 (-51)) (by decide +kernel)
    (by decide +kernel) (by decide +kernel) (by decide +kernel) (by decide +kernel) (by decide +kernel) (by decide +kernel) (by decide +kernel)
    (by decide +kernel) _ "fractional" (.inl rfl) r hr 1 hα (by decide +kernel) 0 (by rw [hl]; rfl)
  refine ⟨r, v, ρ, v₀, h1, h2, h3.trans ?_, g1, ?_⟩
  · rw [h2]; decide +kernel
  · have := neg_le_sub_iff_le_add.1 (abs_le.1 g3).1
    rw [g2] at this
    refine lt_of_lt_of_le ?_ (sub_le_iff_le_add.2 this)
    decide +kernel

end Sacf
