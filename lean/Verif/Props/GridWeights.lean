import Verif.Props.Alpha
import Verif.Props.Error64

/-!
# Coinciding samples and the weights (C103)

At a lag at which every shifted sample coincides with a sample, all weights are 1: neither the weight function nor `alpha` has any influence, to the last bit.
-/

set_option linter.unusedSectionVars false
set_option exponentiation.threshold 3000

namespace Sacf

open Arith

variable {K : Type} [Field K] [LinearOrder K] [IsStrictOrderedRing K] [FloorRing K] {R : Rnd K} {g : K} {B : ℤ}

/-- `alpha` gives the distance zero the weight 1 in this arithmetic: it is a number other than 0 and, for the Gaussian weight, `2 * alpha * alpha` is not computed as zero and
the library's `exp(0)` is 1 -/
structure PlainAlpha (wt : String) (α : XF R) : Prop where
  known : KnownWeight wt
  fin : ∃ a : K, α = .fin a ∧ a ≠ 0
  gauss : wt = "gaussian" → R.expK 0 = 1 ∧ ∃ D : K, Arith.mul (Arith.mul Arith.two α) α = .fin D ∧ D ≠ 0

theorem PlainAlpha.one {wt : String} {α : XF R} (h : PlainAlpha wt α) : fweight wt α (.fin 0) = .fin 1 := by
  obtain ⟨a, rfl, ha⟩ := h.fin
  rcases h.known with rfl | rfl | rfl
  · obtain ⟨he, D, hD, hD0⟩ := h.gauss rfl
    unfold fweight
    rw [if_pos rfl, hD]
    have e1 : (Arith.mul (.fin 0) (.fin 0) : XF R) = .fin 0 := by
      show XF.round (0 * 0) = _
      rw [zero_mul]; exact round_zero
    have e2 : (Arith.neg (.fin 0) : XF R) = .fin 0 := by
      show (.fin (-0) : XF R) = _
      rw [neg_zero]
    have e3 : (Arith.div (.fin 0) (.fin D) : XF R) = .fin 0 := by
      show (if D = 0 then _ else XF.round (0 / D)) = _
      rw [if_neg hD0, zero_div]; exact round_zero
    rw [e1, e2, e3]
    show XF.round (R.expK 0) = _
    rw [he]; exact round_one
  · exact fweight_zero (by tauto) ha
  · exact fweight_zero (by tauto) ha

/-- **C103** (any rounding in which the multiples of the unit `g` are exact): increasing time stamps `τ i g`, a lag `k g` such that every sample which, shifted, is not beyond
the last time falls on a sample.  Two calls with any weight functions, any `alpha` and any lag parameters that report this lag give it the same value in every row, whatever
the values (NaN and infinities included). -/
theorem C103_coinciding (h : ExactUnit R g B) {d : DS (XF R)} (hd : Constructed d) {M : ℕ} {τ : ℕ → ℤ}
    (ht : d.timeseries = samples M fun i => (τ i : K) * g) (hinc : IncreasingZ M τ) {ga ga' : LagArgs (XF R)} {wt wt' : String} {r r' : AcResult (XF R)}
    (hr : autocorrelation .fabs d ga "natural" wt = .ok r) (hr' : autocorrelation .fabs d ga' "natural" wt' = .ok r')
    (hα : PlainAlpha wt r.corr.alpha) (hα' : PlainAlpha wt' r'.corr.alpha) (n n' : ℕ) (k : ℤ)
    (hn : r.lags[n]? = some (.fin (k * g))) (hn' : r'.lags[n']? = some (.fin (k * g))) (hk : |k| + (τ (M - 1) - τ 0) ≤ B)
    (hc : ∀ i < M, τ i + k ≤ τ (M - 1) → ∃ i' < M, τ i' = τ i + k) (j : ℕ) (row : List (XF R)) (hrow : d.HasRow j row) :
    ∃ v, r.At j n (.fin (k * g)) v ∧ r'.At j n' (.fin (k * g)) v := by
  obtain ⟨ps, hps, hat⟩ := result_at hd hr hrow hn
  obtain ⟨ps', hps', hat'⟩ := result_at hd hr' hrow hn'
  suffices ps = ps' by
    subst this
    exact ⟨_, hat, hat'⟩
  have hM0 : 0 < M := by
    obtain ⟨t', data, err, N, hN, hbu⟩ := hd.built
    have e : t' = samples M fun i => (τ i : K) * g := by rw [← hbu.ht]; exact ht
    subst e
    simpa using List.length_pos_iff.2 hbu.tne
  have hle : ∀ i < M, 0 ≤ τ i - τ 0 ∧ τ i - τ 0 ≤ τ (M - 1) - τ 0 := fun i hi => by
    have a1 := hinc.le (Nat.zero_le i) hi
    have a2 := hinc.le (show i ≤ M - 1 by omega) (by omega)
    omega
  have hk0 := abs_nonneg k
  have hk1 := neg_abs_le k
  have hk2 := le_abs_self k
  obtain ⟨_, hnt⟩ := ticks_normT h hd ht (fun i hi => by
    have := hle i hi
    rw [abs_of_nonneg this.1]; omega)
  have hu : IncreasingZ M fun i => τ i - τ 0 := fun i j hij hj => by have := hinc i j hij hj; simp only; omega
  have hz : ∀ i < M, τ i - τ 0 + k ≤ τ (M - 1) - τ 0 → ∀ s : ℕ, IsNearest M (fun i => ((τ i - τ 0 : ℤ) : K) * g) (((τ i - τ 0 + k : ℤ) : K) * g) s →
      τ s = τ i + k := by
    intro i hi hik s hs
    obtain ⟨i', hi', he⟩ := hc i hi (by omega)
    have h1 := hs.2 i' hi'
    simp only at h1
    rw [show τ i' - τ 0 = τ i - τ 0 + k by omega, sub_self, abs_zero] at h1
    have h2 : |((τ s - τ 0 : ℤ) : K) * g - ((τ i - τ 0 + k : ℤ) : K) * g| = 0 := by
      rcases h1 with h1 | h1
      · exact absurd h1 (not_lt.2 (abs_nonneg _))
      · exact h1.1
    rw [abs_eq_zero, sub_eq_zero] at h2
    have h3 := mul_right_cancel₀ h.pos.ne' h2
    have h4 : τ s - τ 0 = τ i - τ 0 + k := by exact_mod_cast h3
    omega
  have plan : ∀ {wt : String} {α : XF R}, PlainAlpha wt α → ∃ (m : ℕ) (s : ℕ → ℕ), m ≤ M ∧ (∀ i < M, (i < m ↔ τ i - τ 0 + k ≤ τ (M - 1) - τ 0)) ∧
      (∀ i < m, s i < M ∧ τ (s i) = τ i + k) ∧ lagPlan .fabs "natural" wt d.normT α (.fin (k * g)) = .ok ((List.range m).map fun i => (.fin 1, s i)) := by
    intro wt α hα
    obtain ⟨m, s, p1, p2, p3, p4⟩ := lagPlan_ticks h hM0 hu k (fun i hi => by
        have := hle i hi
        rw [abs_le]; constructor <;> omega) (fun i hi i' hi' hle' => by
        have a1 := hle i hi
        have a2 := hle i' hi'
        rw [abs_le]; constructor <;> omega) (planWt_fweight hα.known) α
    have p5 : ∀ i < m, s i < M ∧ τ (s i) = τ i + k := fun i hi => ⟨(p3 i hi).1, hz i (by omega) ((p2 i (by omega)).1 hi) _ (p3 i hi)⟩
    refine ⟨m, s, p1, p2, p5, ?_⟩
    rw [hnt, p4]
    congr 1
    apply List.map_congr_left
    intro i hi
    have e1 : τ (s i) - τ 0 - (τ i - τ 0 + k) = 0 := by
      have := (p5 i (List.mem_range.1 hi)).2
      omega
    rw [e1, abs_zero, Int.cast_zero, zero_mul, hα.one]
  obtain ⟨m, s, p1, p2, p3, p4⟩ := plan hα
  obtain ⟨m', s', q1, q2, q3, q4⟩ := plan hα'
  rw [p4] at hps
  rw [q4] at hps'
  have em : m = m' := by
    by_contra hne
    rcases Nat.lt_or_gt_of_ne hne with hl | hl
    · exact absurd ((p2 m (by omega)).2 ((q2 m (by omega)).1 hl)) (lt_irrefl _)
    · exact absurd ((q2 m' (by omega)).2 ((p2 m' (by omega)).1 hl)) (lt_irrefl _)
  subst em
  rw [← Res.ok.inj hps, ← Res.ok.inj hps']
  apply List.map_congr_left
  intro i hi
  have hi := List.mem_range.1 hi
  have e1 : s i = s' i := by
    have a1 := p3 i hi
    have a2 := q3 i hi
    by_contra hne
    rcases Nat.lt_or_gt_of_ne hne with hl | hl
    · have := hinc _ _ hl a2.1; omega
    · have := hinc _ _ hl a1.1; omega
  rw [e1]

section binary64
variable {ex : ℚ → ℚ} {fu : Bool}

/-- in binary64 every positive `alpha` is plain, for the Gaussian weight if it is a double with `2^-1076 < alpha²` and `2 alpha²` does not overflow -/
theorem plain64 {wt : String} (hw : KnownWeight wt) {α : ℚ} (h0 : 0 < α)
    (hg : wt = "gaussian" → ex 0 = 1 ∧ b64 α = α ∧ pow2 (-1076) < α ^ 2 ∧ 2 * α ^ 2 ≤ big) : PlainAlpha wt (.fin α : D64 ex fu) := by
  refine ⟨hw, ⟨α, rfl, h0.ne'⟩, fun hwg => ?_⟩
  obtain ⟨h1, h2, h3, h4⟩ := hg hwg
  refine ⟨h1, _, twoSquare64 h0 h2 h4, fun h => ?_⟩
  have := (b64_eq_zero (by positivity)).1 h
  have e2 : pow2 (-1075) = 2 * pow2 (-1076) := by decide +kernel
  linarith

/-- **C103 in binary64**: `M` regular samples at the times `(a + i p) 2^e`.  A call with default lags, any known weight function and any positive `alpha` (as in `plain64`)
returns the lags of the default call and, at every lag `m p 2^e`, `m ≥ 0`, the values of the default call, bit for bit, whatever the values. -/
theorem C103_binary64 {d : DS (D64 ex fu)} {M : ℕ} {a p e : ℤ} (ht : Regular64 d M a p e) {wt : String} (hw : KnownWeight wt) {α : ℚ} (h0 : 0 < α)
    (hg : wt = "gaussian" → ex 0 = 1 ∧ b64 α = α ∧ pow2 (-1076) < α ^ 2 ∧ 2 * α ^ 2 ≤ big) :
    ∃ r r', autocorrelation .fabs d {} "natural" "fractional" = .ok r ∧ autocorrelation .fabs d { alpha := some (.fin α) } "natural" wt = .ok r' ∧
      r'.lags = r.lags ∧ ∀ (j : ℕ) (row : List (D64 ex fu)), d.HasRow j row → ∀ m < M, ∃ v,
        r.At j (M - 1 + m) (.fin ((m * p : ℤ) * pow2 e)) v ∧ r'.At j (M - 1 + m) (.fin ((m * p : ℤ) * pow2 e)) v := by
  have hu := exactUnit64 (ex := ex) (fu := fu) (e - 1) (by have := ht.emin; omega) (by have := ht.emax; omega)
  have hpe : pow2 e = 2 * pow2 (e - 1) := by
    rw [← pow2_one, ← pow2_add]; congr 1; ring
  have hscale : ∀ z : ℤ, (z : ℚ) * pow2 e = ((2 * z : ℤ) : ℚ) * pow2 (e - 1) := by
    intro z; rw [hpe]; push_cast; ring
  have hp := ht.step
  have hM := ht.two_le
  have hspan := ht.span
  have ht' : d.timeseries = samples M fun i => ((2 * a + i * (2 * p) : ℤ) : ℚ) * pow2 (e - 1) := by
    rw [ht.times]
    congr 1
    funext i
    rw [hscale]
    congr 2; ring
  have hM30 : M < 2 ^ 30 := by have := ht.le; norm_num at this ⊢; omega
  have hMle : 2 * (M : ℤ) ≤ 2 ^ 53 := by
    have : (M : ℤ) < 2 ^ 30 := by exact_mod_cast hM30
    norm_num at this ⊢; omega
  obtain ⟨r, hr, hl⟩ := C60_regular_lags hu d ht.built M (2 * a) (2 * p) (by omega) ht' hM (by linarith) hM30
    (fun n hn => round_int64 n (hn.trans hMle)) none "fractional" (by unfold KnownWeight; simp)
  obtain ⟨r', hr', hl'⟩ := C60_regular_lags hu d ht.built M (2 * a) (2 * p) (by omega) ht' hM (by linarith) hM30
    (fun n hn => round_int64 n (hn.trans hMle)) (some (.fin α)) wt hw
  refine ⟨r, r', hr, hr', hl'.trans hl.symm, fun j row hrow m hm => ?_⟩
  have hmed := regular_median hu ht.built hp ht' hM (by linarith)
  have hα : PlainAlpha "fractional" r.corr.alpha := by
    rw [(result_params ht.built.wf hr).2.2.2]
    simp only [Option.getD_none]
    rw [hmed]
    refine plain64 (by unfold KnownWeight; simp) ?_ (fun h => absurd h (by decide))
    exact mul_pos (by exact_mod_cast mul_pos (show (0 : ℤ) < (M : ℤ) - 1 by omega) hp) (pow2_pos _)
  have hα' : PlainAlpha wt r'.corr.alpha := by
    rw [(result_params ht.built.wf hr').2.2.2]
    exact plain64 hw h0 hg
  have hidx : ∀ l : List (D64 ex fu), l = (List.range (2 * M - 1)).map (fun n => .fin (((((n : ℤ) - (M - 1)) * (2 * p) : ℤ) : ℚ) * pow2 (e - 1))) →
      l[M - 1 + m]? = some (.fin ((m * (2 * p) : ℤ) * pow2 (e - 1))) := by
    rintro l rfl
    rw [List.getElem?_map, List.getElem?_range (by omega)]
    simp only [Option.map_some, Option.some.injEq, XF.fin.injEq]
    have : (((M - 1 + m : ℕ) : ℤ) - (M - 1)) = m := by omega
    rw [this]
  have hmono : ∀ i i' : ℤ, i * (2 * p) ≤ i' * (2 * p) ↔ i ≤ i' := fun i i' => mul_le_mul_iff_left₀ (by omega)
  have hM1 : ((M - 1 : ℕ) : ℤ) = M - 1 := by omega
  obtain ⟨v, h1, h2⟩ := C103_coinciding hu ht.built (τ := fun i => 2 * a + i * (2 * p)) ht' (fun i i' hij _ => by
      have : (i : ℤ) * (2 * p) < i' * (2 * p) := mul_lt_mul_of_pos_right (by exact_mod_cast hij) (by omega)
      simp only
      linarith) hr hr' hα hα' (M - 1 + m) (M - 1 + m) (m * (2 * p)) (hidx _ hl) (hidx _ hl') (by
      have h1 : (m : ℤ) * (2 * p) ≤ M * (2 * p) := (hmono _ _).2 (by omega)
      have h2 : ((M : ℤ) - 1) * (2 * p) ≤ M * (2 * p) := (hmono _ _).2 (by omega)
      have h0 : 0 ≤ (m : ℤ) * (2 * p) := mul_nonneg (by omega) (by omega)
      simp only [hM1]
      rw [abs_of_nonneg h0]
      push_cast
      linarith) (fun i hi hik => by
      have : (i + m : ℤ) * (2 * p) ≤ ((M - 1 : ℕ) : ℤ) * (2 * p) := by linarith
      rw [hmono] at this
      refine ⟨i + m, by omega, ?_⟩
      push_cast
      ring) j row hrow
  refine ⟨v, ?_, ?_⟩
  · rw [show ((m * p : ℤ) : ℚ) * pow2 e = ((m * (2 * p) : ℤ) : ℚ) * pow2 (e - 1) by rw [hscale]; congr 2; ring]
    exact h1
  · rw [show ((m * p : ℤ) : ℚ) * pow2 e = ((m * (2 * p) : ℤ) : ℚ) * pow2 (e - 1) by rw [hscale]; congr 2; ring]
    exact h2

/-- **C103**: at negative lags the weights do matter, for regular samples too: times 0, 1, values 0, 2, lag -1: -1/4 for `alpha = 1`, 0 for `alpha = 2^60`. -/
theorem C103_negative_lags : ∃ d : DS Sacf.B, Regular64 d 2 0 1 0 ∧ ∃ r r' : AcResult Sacf.B,
    autocorrelation .fabs d { alpha := some (.fin 1) } "natural" "fractional" = .ok r ∧
    autocorrelation .fabs d { alpha := some (.fin (pow2 60)) } "natural" "fractional" = .ok r' ∧
    r.At 0 0 (.fin (-1)) (.fin (-1/4)) ∧ r'.At 0 0 (.fin (-1)) (.fin 0) := by
  obtain ⟨d, r, hd, hr, ht, h1, h2⟩ := callOf_ok .fabs (b [0, 1]) [b [0, 2]] { alpha := some (.fin 1) } "natural" "fractional"
    (fun d r => d.timeseries = samples 2 (fun i => ((0 + i * 1 : ℤ) : ℚ) * pow2 0) ∧ r.lags[0]? = some (.fin (-1)) ∧
      (r.corrs.rows[0]?.bind (·[0]?)) = some (.fin (-1/4))) (by decide +kernel)
  obtain ⟨d', r', hd', hr', h1', h2'⟩ := callOf_ok .fabs (b [0, 1]) [b [0, 2]] { alpha := some (.fin (pow2 60)) } "natural" "fractional"
    (fun d r => r.lags[0]? = some (.fin (-1)) ∧ (r.corrs.rows[0]?.bind (·[0]?)) = some (.fin 0)) (by decide +kernel)
  obtain rfl := Res.ok.inj (hd.symm.trans hd')
  exact ⟨d, ⟨.table hd, ht, by norm_num, by norm_num, by norm_num, by norm_num, by norm_num, by norm_num⟩, r, r', hr, hr',
    ⟨h1, Option.bind_eq_some_iff.1 h2⟩, ⟨h1', Option.bind_eq_some_iff.1 h2'⟩⟩

end binary64
end Sacf
