import Verif.Props.AnyLags

/-!
# Changing the origin and the unit of time, with rounding (C28, C29)
-/

set_option linter.unusedSectionVars false
set_option linter.unusedVariables false

namespace Sacf

open Finset

section general
variable {K : Type} [Field K] [LinearOrder K] [IsStrictOrderedRing K] [FloorRing K] {M : ℕ} {t t' x : ℕ → K}

theorem NearlySelects.mono {k ε ε' : K} {m : ℕ} {s : ℕ → ℕ} (h : NearlySelects M t k ε m s) (hle : ε ≤ ε') : NearlySelects M t k ε' m s :=
  ⟨h.le, fun i hi => (h.inside i hi).trans (by linarith), fun i h1 h2 => (h.outside i h1 h2).trans (by linarith), h.index,
    fun i hi n hn => (h.nearest i hi n hn).trans (by linarith)⟩

/-- distances after an affine change of the times with errors -/
theorem affine_dist {c b e k k' : K} (hc : 0 < c) (ht : ∀ i < M, |t' i - (c * t i + b)| ≤ e) (hk : |k' - c * k| ≤ e) {i n : ℕ} (hi : i < M) (hn : n < M) :
    |t' n - (t' i + k') - c * (t n - (t i + k))| ≤ 3 * e := by
  have e1 : t' n - (t' i + k') - c * (t n - (t i + k)) = (t' n - (c * t n + b)) - (t' i - (c * t i + b)) - (k' - c * k) := by ring
  rw [e1]
  refine (abs_sub _ _).trans ?_
  have := (abs_sub (t' n - (c * t n + b)) (t' i - (c * t i + b))).trans (add_le_add (ht n hn) (ht i hi))
  linarith

theorem affine_abs {c b e k k' : K} (hc : 0 < c) (ht : ∀ i < M, |t' i - (c * t i + b)| ≤ e) (hk : |k' - c * k| ≤ e) {i n : ℕ} (hi : i < M) (hn : n < M) :
    abs (|t' n - (t' i + k')| - c * |t n - (t i + k)|) ≤ 3 * e := by
  have h1 : c * |t n - (t i + k)| = |c * (t n - (t i + k))| := by rw [abs_mul, abs_of_pos hc]
  rw [h1]
  exact (abs_abs_sub_abs_le_abs_sub _ _).trans (affine_dist hc ht hk hi hn)

theorem NearlySelects.affine {c b e k k' ε : K} (hc : 0 < c) (ht : ∀ i < M, |t' i - (c * t i + b)| ≤ e) (hk : |k' - c * k| ≤ e) {m : ℕ} {s : ℕ → ℕ}
    (h : NearlySelects M t' k' ε m s) : NearlySelects M t k ((ε + 6 * e) / c) m s := by
  have he : 0 ≤ e := (abs_nonneg _).trans hk
  refine ⟨h.le, fun i hi => ?_, fun i hmi hi => ?_, h.index, fun i hi n hn => ?_⟩
  · have hle := h.le
    have h1 := h.inside i hi
    have h2 := (abs_le.1 (affine_dist hc ht hk (show i < M by omega) (show M - 1 < M by omega))).2
    have : t i + k - t (M - 1) ≤ (ε + 6 * e) / c := by
      rw [le_div_iff₀ hc]
      linarith
    linarith
  · have h1 := h.outside i hmi hi
    have h2 := (abs_le.1 (affine_dist hc ht hk hi (show M - 1 < M by omega))).1
    have : t (M - 1) - (t i + k) ≤ (ε + 6 * e) / c := by
      rw [le_div_iff₀ hc]
      linarith
    linarith
  · have hle := h.le
    have h1 := h.nearest i hi n hn
    have h2 := (abs_le.1 (affine_abs hc ht hk (show i < M by omega) (h.index i hi))).1
    have h3 := (abs_le.1 (affine_abs hc ht hk (show i < M by omega) hn)).2
    have : |t (s i) - (t i + k)| - |t n - (t i + k)| ≤ (ε + 6 * e) / c := by
      rw [le_div_iff₀ hc]
      linarith
    linarith

/-- the weight depends on distance and time scale through their quotient -/
theorem weight_rescale {wt : String} (hw : wt = "fractional" ∨ wt = "fractional_squared") {c α δ : K} (hc : 0 < c) (e : K → K) :
    weight e wt (c * α) (c * δ) = weight e wt α δ := by
  have h : c * δ / (c * α) = δ / α := mul_div_mul_left δ α hc.ne'
  rcases hw with rfl | rfl
  · show 1 / (1 + c * δ / (c * α)) = 1 / (1 + δ / α); rw [h]
  · show 1 / (1 + (c * δ / (c * α)) ^ 2) = 1 / (1 + (δ / α) ^ 2); rw [h]

/-- how much the time scale matters -/
theorem weight_alpha_lip {wt : String} (hw : wt = "fractional" ∨ wt = "fractional_squared") {α α' δ : K} (hα : 0 < α) (hα' : 0 < α') (hδ : 0 ≤ δ)
    (e : K → K) : |weight e wt α' δ - weight e wt α δ| ≤ 2 * (|α' - α| / α') := by
  rcases hw with rfl | rfl
  · have e1 : weight e "fractional" α' δ - weight e "fractional" α δ = (α' - α) * δ / ((α + δ) * (α' + δ)) := by
      show 1 / (1 + δ / α') - 1 / (1 + δ / α) = _
      have : α + δ ≠ 0 := by positivity
      have : α' + δ ≠ 0 := by positivity
      field_simp
      ring
    have hp : 0 < (α + δ) * (α' + δ) := by positivity
    rw [e1, abs_div, abs_mul, abs_of_nonneg hδ, abs_of_pos hp, div_le_iff₀ hp]
    have h2 : 2 * (|α' - α| / α') * ((α + δ) * (α' + δ)) = |α' - α| * (2 * ((α + δ) * (α' + δ)) / α') := by ring
    rw [h2]
    apply mul_le_mul_of_nonneg_left _ (abs_nonneg _)
    rw [le_div_iff₀ hα']
    nlinarith [mul_pos hα hα', mul_nonneg hα.le hδ, mul_nonneg hδ hδ, mul_nonneg hα'.le hδ]
  · have e1 : weight e "fractional_squared" α' δ - weight e "fractional_squared" α δ
        = (α' - α) * ((α' + α) * δ ^ 2) / ((α ^ 2 + δ ^ 2) * (α' ^ 2 + δ ^ 2)) := by
      show 1 / (1 + (δ / α') ^ 2) - 1 / (1 + (δ / α) ^ 2) = _
      have : α ^ 2 + δ ^ 2 ≠ 0 := by positivity
      have : α' ^ 2 + δ ^ 2 ≠ 0 := by positivity
      field_simp
      ring
    have hp : 0 < (α ^ 2 + δ ^ 2) * (α' ^ 2 + δ ^ 2) := by positivity
    have hn : 0 ≤ (α' + α) * δ ^ 2 := by positivity
    rw [e1, abs_div, abs_mul, abs_of_nonneg hn, abs_of_pos hp, div_le_iff₀ hp]
    have h2 : 2 * (|α' - α| / α') * ((α ^ 2 + δ ^ 2) * (α' ^ 2 + δ ^ 2))
        = |α' - α| * (2 * ((α ^ 2 + δ ^ 2) * (α' ^ 2 + δ ^ 2)) / α') := by ring
    rw [h2]
    apply mul_le_mul_of_nonneg_left _ (abs_nonneg _)
    rw [le_div_iff₀ hα']
    -- `α' (α' + α) δ² ≤ 2 (α² + δ²) (α'² + δ²)`
    have a1 : α' * α ≤ α' ^ 2 / 2 + α ^ 2 / 2 := by nlinarith [sq_nonneg (α' - α)]
    have a2 : 0 ≤ δ ^ 2 := sq_nonneg δ
    have a3 : 0 ≤ α ^ 2 := sq_nonneg α
    have a4 : 0 ≤ α' ^ 2 := sq_nonneg α'
    have a5 := mul_le_mul_of_nonneg_right a1 a2
    have e2 : (α' + α) * δ ^ 2 * α' = α' ^ 2 * δ ^ 2 + α' * α * δ ^ 2 := by ring
    have e3 : 2 * ((α ^ 2 + δ ^ 2) * (α' ^ 2 + δ ^ 2)) = 2 * (α ^ 2 * α' ^ 2) + 2 * (α ^ 2 * δ ^ 2) + 2 * (δ ^ 2 * α' ^ 2) + 2 * (δ ^ 2 * δ ^ 2) := by ring
    rw [e2, e3]
    have := mul_nonneg a3 a4
    have := mul_nonneg a3 a2
    have := mul_nonneg a2 a4
    have := mul_nonneg a2 a2
    linarith

/-- the defining formula after an affine change of the times with errors -/
theorem matchedAcf_affine {A c b e k k' α α' ε : K} (hM : 1 ≤ M) (hx : ∀ i < M, |x i| ≤ A) (hN : 0 < sumSq M x) (hc : 0 < c)
    (ht : ∀ i < M, |t' i - (c * t i + b)| ≤ e) (hk : |k' - c * k| ≤ e) (hα : 0 < α) (hα' : 0 < α') (hαe : |α' - c * α| ≤ e) {m : ℕ} {s : ℕ → ℕ}
    (h : NearlySelects M t' k' ε m s) {wt : String} (hw : wt = "fractional" ∨ wt = "fractional_squared") (ex : K → K) :
    |matchedAcf m M t' x (weight ex wt α') s (sumSq M x) k' - matchedAcf m M t x (weight ex wt α) s (sumSq M x) k|
      ≤ 20 * (M * A ^ 2 / sumSq M x) * (e / α') := by
  have he : 0 ≤ e := (abs_nonneg _).trans hk
  have hA : 0 ≤ A := (abs_nonneg _).trans (hx 0 (by omega))
  unfold matchedAcf
  rw [← sub_div, abs_div, abs_of_pos hN, div_le_iff₀ hN, ← sum_sub_distrib]
  have e0 : 20 * (M * A ^ 2 / sumSq M x) * (e / α') * sumSq M x = M * (4 * A ^ 2 * (5 * (e / α'))) := by
    field_simp
    ring
  rw [e0]
  have hmM : (m : K) ≤ M := by exact_mod_cast h.le
  have hpos : 0 ≤ 4 * A ^ 2 * (5 * (e / α')) := by positivity
  refine (abs_sum_le_sum_abs _ _).trans ?_
  refine (sum_le_card_nsmul (range m) _ (4 * A ^ 2 * (5 * (e / α'))) fun i hi => ?_).trans ?_
  · have hi : i < m := by simpa using hi
    have hiM : i < M := by have := h.le; omega
    have e1 : weight ex wt α' |t' (s i) - (t' i + k')| * dev M x i * dev M x (s i) - weight ex wt α |t (s i) - (t i + k)| * dev M x i * dev M x (s i)
        = (dev M x i * dev M x (s i)) * (weight ex wt α' |t' (s i) - (t' i + k')| - weight ex wt α |t (s i) - (t i + k)|) := by ring
    rw [e1, abs_mul, abs_mul]
    have d1 := abs_dev_le hM hx hiM
    have d2 := abs_dev_le hM hx (h.index i hi)
    have e2 : 4 * A ^ 2 * (5 * (e / α')) = (2 * A) * (2 * A) * (5 * (e / α')) := by ring
    rw [e2]
    refine mul_le_mul (mul_le_mul d1 d2 (abs_nonneg _) (by linarith)) ?_ (abs_nonneg _) (by positivity)
    have w1 := weight_lip hw hα' (abs_nonneg (t' (s i) - (t' i + k'))) (mul_nonneg hc.le (abs_nonneg (t (s i) - (t i + k)))) ex
    have w2 := weight_alpha_lip hw (mul_pos hc hα) hα' (mul_nonneg hc.le (abs_nonneg (t (s i) - (t i + k)))) ex
    rw [weight_rescale hw hc] at w2
    have w3 := (div_le_div_iff_of_pos_right hα').2 (affine_abs hc ht hk hiM (h.index i hi))
    have w4 := (div_le_div_iff_of_pos_right hα').2 hαe
    have e3 : ∀ a b c : K, a - c = (a - b) + (b - c) := fun a b c => by ring
    rw [e3 _ (weight ex wt α' (c * |t (s i) - (t i + k)|)) _]
    refine (abs_add_le _ _).trans ?_
    have e4 : 3 * e / α' = 3 * (e / α') := by ring
    linarith
  · rw [card_range, nsmul_eq_mul]
    exact mul_le_mul_of_nonneg_right hmM hpos

end general

section binary64
variable {ex : ℚ → ℚ} {fu : Bool} {M : ℕ} {t t' x : ℕ → ℚ} {A V : ℚ} {j j' : ℕ}

/-- rounding of the times at lag `k`, in binary64 -/
local notation "tol(" M ", " t ", " k ")" => (pow2 (-53) * (t (M - 1) - t 0 + |k|) + pow2 (-1075))

/-- **C29 in binary64**: the same values at the time stamps `t` and at `t' = c t + b` up to an error `e`, with lags `k` and `k' = c k`, time scales `α` and
`α' = c α` up to the same error (all arbitrary doubles).  When no decision at lag `k` is closer than the tolerance, the two values differ by at most
`500 V κ (1 + |ρ|) + κ (65 q / α + 65 q' / α' + 61 e / α')`. -/
theorem C29_error {d d' : DS (D64 ex fu)} (ht : AnyTimes64 d M t) (ht' : AnyTimes64 d' M t') (hv : Values64 d M j x A V)
    (hv' : Values64 d' M j' x A V) (c b e : ℚ) (hc : 0 < c) (htt : ∀ i < M, |t' i - (c * t i + b)| ≤ e)
    (ga ga' : LagArgs (D64 ex fu)) (wt : String)
    (hw : wt = "fractional" ∨ wt = "fractional_squared") (r r' : AcResult (D64 ex fu))
    (hr : autocorrelation .fabs d ga "natural" wt = .ok r) (hr' : autocorrelation .fabs d' ga' "natural" wt = .ok r')
    (α α' : ℚ) (hα : r.corr.alpha = .fin α) (hα' : r'.corr.alpha = .fin α') (hα0 : pow2 (-600) ≤ α) (hα0' : pow2 (-600) ≤ α')
    (hαe : |α' - c * α| ≤ e)
    (n n' : ℕ) (k k' : ℚ) (hn : r.lags[n]? = some (.fin k)) (hn' : r'.lags[n']? = some (.fin k')) (hk : |k' - c * k| ≤ e)
    (hD : t (M - 1) - t 0 + |k| ≤ pow2 1000) (hD' : t' (M - 1) - t' 0 + |k'| ≤ pow2 1000)
    (hDα : t (M - 1) - t 0 + |k| ≤ pow2 400 * α) (hDα' : t' (M - 1) - t' 0 + |k'| ≤ pow2 400 * α') (s : ℕ → ℕ) (ε : ℚ)
    (hε : 10 * tol(M, t, k) ≤ ε) (hε' : 10 * tol(M, t', k') + 6 * e ≤ c * ε) (hcl : ClearCut M t k ε s) :
    ∃ v v' : ℚ, r.At j n (.fin k) (.fin v) ∧ r'.At j' n' (.fin k') (.fin v') ∧
      |v' - v| ≤ 500 * V * (M * A ^ 2 / sumSq M x) * (1 + |sacf M t x (weight ex wt α) s (sumSq M x) k|) +
        M * A ^ 2 / sumSq M x * (65 * (tol(M, t, k) / α) + 65 * (tol(M, t', k') / α') + 61 * (e / α')) := by
  obtain ⟨m, s1, v, h1, h2, h3⟩ := C70_binary64 ht hv ga wt hw r hr α hα hα0 n k hn hD hDα
  obtain ⟨m', s2, v', h1', h2', h3'⟩ := C70_binary64 ht' hv' ga' wt hw r' hr' α' hα' hα0' n' k' hn' hD' hDα'
  obtain ⟨hmod, hf, hN, hb1, hb2, hb3⟩ := facts64 (ex := ex) (fu := fu) ht.one_le ht.le hv.amin hv.amax hv.unit hv.small hv.bound hv.float
    hv.spread
  have hαp : 0 < α := lt_of_lt_of_le (pow2_pos _) hα0
  have hαp' : 0 < α' := lt_of_lt_of_le (pow2_pos _) hα0'
  have he : 0 ≤ e := (abs_nonneg _).trans hk
  obtain ⟨_, e1⟩ := C70_clear_cut (x := x) (nrm := sumSq M x) (h1.mono hε) hcl (weight ex wt α)
  obtain ⟨_, e2⟩ := C70_clear_cut (x := x) (nrm := sumSq M x)
    ((h1'.affine hc htt hk).mono (by rw [div_le_iff₀ hc]; linarith)) hcl (weight ex wt α)
  have e3 := matchedAcf_affine (x := x) ht.one_le hv.bound hN hc htt hk hαp hαp' hαe h1' hw ex
  rw [e1] at h3
  rw [e2] at e3
  refine ⟨v, v', h2, h2', ?_⟩
  set ρ := sacf M t x (weight ex wt α) s (sumSq M x) k with hρ
  set ρ' := matchedAcf m' M t' x (weight ex wt α') s2 (sumSq M x) k' with hρ'
  set κ := M * A ^ 2 / sumSq M x with hκ
  have hV0 : 0 ≤ V := hmod.facts.2.2.2.2.1
  have hκ0 : 0 ≤ κ := div_nonneg (mul_nonneg (Nat.cast_nonneg M) (sq_nonneg A)) hN.le
  have hVκ : 122 * (V * κ) ≤ 1 := by
    have e : 122 * (V * κ) = 122 * V * (M * A ^ 2) / sumSq M x := by rw [hκ]; ring
    rw [e, div_le_one hN]; exact hv.spread
  have hq : 0 ≤ κ * (e / α') := mul_nonneg hκ0 (div_nonneg he hαp'.le)
  have hρρ : |ρ'| ≤ |ρ| + 20 * κ * (e / α') := near_abs e3 le_rfl
  have a1 := mul_le_mul_of_nonneg_left hρρ (mul_nonneg hV0 hκ0)
  have a2 := mul_le_mul_of_nonneg_right hVκ hq
  have e4 : v' - v = (v' - ρ') + (ρ' - ρ) - (v - ρ) := by ring
  rw [e4]
  refine (abs_sub _ _).trans ?_
  have := abs_add_le (v' - ρ') (ρ' - ρ)
  linarith

/-- **C28 in binary64**: the same values at `t` and at `t' = t + b` up to an error `e` – for example, dates counted from another day – with the same lag and
the same time scale. -/
theorem C28_error {d d' : DS (D64 ex fu)} (ht : AnyTimes64 d M t) (ht' : AnyTimes64 d' M t') (hv : Values64 d M j x A V)
    (hv' : Values64 d' M j' x A V) (b e : ℚ) (htt : ∀ i < M, |t' i - (t i + b)| ≤ e)
    (ga ga' : LagArgs (D64 ex fu)) (wt : String)
    (hw : wt = "fractional" ∨ wt = "fractional_squared") (r r' : AcResult (D64 ex fu))
    (hr : autocorrelation .fabs d ga "natural" wt = .ok r) (hr' : autocorrelation .fabs d' ga' "natural" wt = .ok r')
    (α : ℚ) (hα : r.corr.alpha = .fin α) (hα' : r'.corr.alpha = .fin α) (hα0 : pow2 (-600) ≤ α)
    (n n' : ℕ) (k : ℚ) (hn : r.lags[n]? = some (.fin k)) (hn' : r'.lags[n']? = some (.fin k))
    (hD : t (M - 1) - t 0 + |k| + 2 * e ≤ pow2 1000) (hDα : t (M - 1) - t 0 + |k| + 2 * e ≤ pow2 400 * α) (s : ℕ → ℕ) (ε : ℚ)
    (hε : 10 * tol(M, t, k) + 7 * e ≤ ε) (hcl : ClearCut M t k ε s) :
    ∃ v v' : ℚ, r.At j n (.fin k) (.fin v) ∧ r'.At j' n' (.fin k) (.fin v') ∧
      |v' - v| ≤ 500 * V * (M * A ^ 2 / sumSq M x) * (1 + |sacf M t x (weight ex wt α) s (sumSq M x) k|) +
        M * A ^ 2 / sumSq M x * (130 * (tol(M, t, k) / α) + 62 * (e / α)) := by
  have hM := ht.one_le
  have he : 0 ≤ e := (abs_nonneg _).trans (htt 0 (by omega))
  have hαp : 0 < α := lt_of_lt_of_le (pow2_pos _) hα0
  have hsp : t' (M - 1) - t' 0 ≤ t (M - 1) - t 0 + 2 * e := by
    have := (abs_le.1 (htt (M - 1) (by omega))).2
    have := (abs_le.1 (htt 0 (by omega))).1
    linarith
  have hp53 : 0 ≤ pow2 (-53) := (pow2_pos _).le
  have h130 : 65 * (2 * pow2 (-53)) ≤ 1 := by decide +kernel
  have htol : tol(M, t', k) ≤ tol(M, t, k) + 2 * (pow2 (-53) * e) := by
    have := mul_le_mul_of_nonneg_left hsp hp53
    linarith
  have h1 : 65 * (2 * (pow2 (-53) * e)) ≤ e := by
    have := mul_le_mul_of_nonneg_right h130 he
    linarith
  obtain ⟨v, v', g1, g2, g3⟩ := C29_error ht ht' hv hv' 1 b e one_pos (fun i hi => by rw [one_mul]; exact htt i hi) ga ga' wt hw r r' hr hr' α α
    hα hα' hα0 hα0 (by rw [one_mul, sub_self, abs_zero]; exact he) n n' k k hn hn' (by rw [one_mul, sub_self, abs_zero]; exact he)
    (by linarith) (by linarith) (by linarith) (by linarith) s ε (by linarith) (by rw [one_mul]; linarith) hcl
  refine ⟨v, v', g1, g2, g3.trans ?_⟩
  have h2 : 65 * (tol(M, t', k) / α) ≤ 65 * (tol(M, t, k) / α) + e / α := by
    have e1 : 65 * (tol(M, t', k) / α) = (65 * tol(M, t', k)) / α := by ring
    have e2 : 65 * (tol(M, t, k) / α) + e / α = (65 * tol(M, t, k) + e) / α := by ring
    rw [e1, e2, div_le_div_iff_of_pos_right hαp]
    linarith
  have hκ0 : 0 ≤ (M : ℚ) * A ^ 2 / sumSq M x := by
    obtain ⟨_, _, hN, _⟩ := facts64 (ex := ex) (fu := fu) ht.one_le ht.le hv.amin hv.amax hv.unit hv.small hv.bound hv.float hv.spread
    exact div_nonneg (mul_nonneg (Nat.cast_nonneg M) (sq_nonneg A)) hN.le
  have h3 := mul_le_mul_of_nonneg_left h2 hκ0
  linarith

/-! ### a concrete case: the times 0.1, 0.4, 1.1, 2.0 and the Julian dates 2450000.1, 2450000.4, 2450001.1, 2450002.0, as doubles -/

/-- the doubles nearest to 2450000.1, 2450000.4, 2450001.1, 2450002.0 -/
def jdTimes (i : ℕ) : ℚ := roundTo 53 (-1074) (2450000 + ([1/10, 4/10, 11/10, 2] : List ℚ).getD i 0)

/-- the dates are not the times plus a constant -/
example : jdTimes 0 - decTimes 0 ≠ 2450000 ∧ jdTimes 1 - decTimes 1 ≠ 2450000 := by decide +kernel

theorem jdTimes_inc : Increasing 4 jdTimes := by
  have h : ∀ j < 4, ∀ i < 4, i < j → jdTimes i < jdTimes j := by decide +kernel
  exact fun i j hij hj => h j hj i (by omega) hij

theorem jd_case {β : Type} (g : LagArgs Sacf.B) (f : AcResult Sacf.B → β) (z : β) (h : ((mkTable (samples 4 jdTimes : List Sacf.B) [samples 4 decValues]).bind fun d =>
      (autocorrelation .fabs d g).bind fun r => .ok (f r)) = .ok z) : ∃ (d : DS Sacf.B) (r : AcResult Sacf.B),
    AnyTimes64 d 4 jdTimes ∧ Values64 d 4 0 decValues 4 (4 * pow2 (-53)) ∧ autocorrelation .fabs d g = .ok r ∧ f r = z := by
  obtain ⟨d, hd, ht, hrow, _⟩ := C03_round_trip (F := Sacf.B) (samples 4 jdTimes) [samples 4 decValues]
    (by simp [samples]) (by simp) (by simp [Rect, samples])
  have hc : Constructed d := .table hd
  rw [hd, Res.ok_bind, Res.bind_eq_ok] at h
  obtain ⟨r, hr, h⟩ := h
  simp only [Res.ok.injEq] at h
  refine ⟨d, r, ⟨hc, ht, fun i j hij hj => jdTimes_inc.le hij hj, by norm_num, by norm_num⟩,
    ⟨⟨_, hrow, rfl⟩, by decide +kernel, by decide +kernel, by decide +kernel, by decide +kernel, by decide +kernel, .inr (by decide +kernel),
      by decide +kernel⟩, hr, h⟩

/-- C28_error applied at the lag 1/4: counting the days from another origin changes the value by at most `2 ^ -22` (the dates have a resolution of `2 ^ -31`) -/
example : ∃ (d d' : DS Sacf.B) (r r' : AcResult Sacf.B) (v v' : ℚ),
    AnyTimes64 d 4 decTimes ∧ AnyTimes64 d' 4 jdTimes ∧
    autocorrelation .fabs d { minLag := some (.fin (1/4)), maxLag := some (.fin (1/4)), alpha := some (.fin 1) } = .ok r ∧
    autocorrelation .fabs d' { minLag := some (.fin (1/4)), maxLag := some (.fin (1/4)), alpha := some (.fin 1) } = .ok r' ∧
    r.At 0 1 (.fin (1/4)) (.fin v) ∧ r'.At 0 1 (.fin (1/4)) (.fin v') ∧ |v' - v| ≤ pow2 (-22) := by
  obtain ⟨d, r, ht, hv, hr, hf⟩ := dec_case { minLag := some (.fin (1/4)), maxLag := some (.fin (1/4)), alpha := some (.fin 1) }
    (fun r => (r.lags, r.corr.alpha)) ([.fin 0, .fin (1/4)], .fin 1) (by decide +kernel)
  obtain ⟨d', r', ht', hv', hr', hf'⟩ := jd_case { minLag := some (.fin (1/4)), maxLag := some (.fin (1/4)), alpha := some (.fin 1) }
    (fun r => (r.lags, r.corr.alpha)) ([.fin 0, .fin (1/4)], .fin 1) (by decide +kernel)
  have hl := congrArg Prod.fst hf
  have hα := congrArg Prod.snd hf
  have hl' := congrArg Prod.fst hf'
  have hα' := congrArg Prod.snd hf'
  obtain ⟨v, v', h1, h1', h2⟩ := C28_error ht ht' hv hv' 2450000 (pow2 (-32)) (by decide +kernel) _ _ "fractional" (.inl rfl) r r' hr hr' 1 hα hα'
    (by decide +kernel) 1 1 (1/4) (by rw [show r.lags = _ from hl]; rfl) (by rw [show r'.lags = _ from hl']; rfl) (by decide +kernel)
    (by decide +kernel) decSel (pow2 (-20)) (by decide +kernel) ⟨by decide +kernel, by decide +kernel, by decide +kernel⟩
  exact ⟨d, d', r, r', v, v', ht, ht', hr, hr', h1, h1', h2.trans (by decide +kernel)⟩

end binary64

end Sacf
