import Verif.Cases.Base
import Verif.Props.Rounded
import Verif.Props.Rescale
import Verif.Props.Units
import Verif.Props.StatsRounded
import Verif.Props.LagRounded
import Verif.Props.Constant
import Verif.Props.Error64
import Verif.Props.ErrorExp
import Verif.Props.ErrorCor
import Verif.Props.AnyLags
import Verif.Props.AnyShift

/-! Cases for `Props/Rounded.lean`, `Rescale.lean`, `Units.lean`, `StatsRounded.lean`, `LagRounded.lean`, `Constant.lean`, `Error.lean`, `ErrorCor.lean`,
`AnyTimes.lean`, `AnyLags.lean` and `AnyShift.lean`, in binary64. -/

namespace Sacf

local notation "R64" => Rnd.binary64 (fun x : ℚ => 1 / (1 - x)) false

/-- C59_negation and C59_binary64: 0.1, 0.2, 0.7 and a second row with NaN -/
example : ∃ d d' : DS B, d.data2d = .ok [b [1/10, 2/10, 7/10], [.fin 1, .nan, .fin 2]] ∧
    d'.data2d = .ok ([b [1/10, 2/10, 7/10], [.fin 1, .nan, .fin 2]].map fun row => row.map Arith.neg) ∧
    acOut .fabs d' {} "natural" "gaussian" = acOut .fabs d {} "natural" "gaussian" ∧ acOut .intAbs d' {} "fast" "fractional" = acOut .intAbs d {} "fast" "fractional" := by
  obtain ⟨d, hd, h1, h2, _⟩ := C03_round_trip (b [0, 1, 3]) [b [1/10, 2/10, 7/10], [.fin 1, .nan, .fin 2]] (by decide) (by decide) (by simp [Rect, b])
  obtain ⟨d', hd', h1', h2', _⟩ := C03_round_trip (b [0, 1, 3]) ([b [1/10, 2/10, 7/10], [.fin 1, .nan, .fin 2]].map fun row => row.map Arith.neg) (by decide) (by decide)
    (by simp [Rect, b])
  exact ⟨d, d', h2, h2', C59_negation (oddFloat64 _ _) _ (.table hd) (.table hd') (h1.trans h1'.symm) _ h2 h2' _ _ _,
    C59_binary64 _ (.table hd) (.table hd') (h1.trans h1'.symm) _ h2 h2' _ _ _⟩

/-- C53_float_overflow: a value of 10^39 -/
example : ∃ r : AcResult B, ∀ n k v, r.At 0 n k v → v = .fin 0 ∨ v = .nan := by
  obtain ⟨d, r, hd, hr, h1⟩ := callOf_ok .fabs (b [0, 1, 3]) [[.fin 1, .fin (10 ^ 39), .fin 2]] {} "natural" "fractional"
    (fun d _ => d.data2d = .ok [[.fin 1, .fin (10 ^ 39), .fin 2]]) (by decide +kernel)
  exact ⟨r, C53_float_overflow _ d (.table hd) _ _ _ r hr 0 _ ⟨_, h1, rfl⟩ (.fin (10 ^ 39)) (by simp) (.inl (by decide +kernel))⟩

/-- C55_alpha_sign -/
example : ∃ d : DS B, d.timeseries = b [0, 1, 3] ∧
    acOut .fabs d { alpha := some (Arith.neg (.fin (1/2))) } "natural" "gaussian" = acOut .fabs d { alpha := some (.fin (1/2)) } "natural" "gaussian" := by
  obtain ⟨d, hd, ht, _⟩ := object (b [0, 1, 3]) (b [1, 2, 6]) (by decide) (by decide)
  exact ⟨d, ht, C55_alpha_sign _ d (.flat hd) {} _ _ (.inl rfl) _⟩

/-- C54_single: one sample with two values -/
example : ∃ d : DS B, d.timeseries = [.fin 5] ∧ acOut .fabs d {} "natural" "fractional" = .ok ([.fin 0], .table [[.nan], [.nan]]) := by
  obtain ⟨d, hd, h1, h2, _⟩ := C03_round_trip ([.fin 5] : List B) [[.fin 1], [.fin 2]] (by decide) (by decide) (by simp [Rect])
  exact ⟨d, h1, (C54_single (by decide +kernel) (by decide +kernel) d (.table hd) 5 h1 _ known_fractional _ h2).trans (by decide +kernel)⟩

/-- C55_alpha_zero (exact arithmetic) -/
example : ∃ r : AcResult Q, r.At 0 3 (.fin 0) .nan := by
  obtain ⟨d, r, hd, hr, h1, h2, h3, h4⟩ := callOf_ok .fabs (samples 3 wT : List Q) [samples 3 wX] { alpha := some (.fin 0) } "natural" "fractional"
    (fun d r => d.timeseries = samples 3 wT ∧ d.data2d = .ok [samples 3 wX] ∧ r.corr.alpha = .fin 0 ∧ r.lags[3]? = some (.fin 0)) (by decide +kernel)
  exact ⟨r, C55_alpha_zero d (.table hd) _ _ r hr known_fractional 3 wT h1 wT_inc h3 0 _ ⟨_, h2, rfl⟩ 3 h4⟩

/-- C29_rounded: times 0, 1, 3 quarters and 5, 8, 14 (three per quarter, from 5 on) in eighths, `alpha` 1 and 3/2; the lags are multiples of a quarter and of 3/8 -/
example : ∃ (d d' : DS B) (r r' : AcResult B), d.timeseries = b [0, 1/4, 3/4] ∧ d'.timeseries = b [5/8, 1, 7/4] ∧
    autocorrelation .fabs d { alpha := some (.fin 1) } "natural" "fractional" = .ok r ∧
    autocorrelation .fabs d' { alpha := some (.fin (3/2)) } "natural" "fractional" = .ok r' ∧ r'.corrs = r.corrs := by
  obtain ⟨d, r, hd, hr, h1, h2, h3, h4, h4'⟩ := callOf_ok .fabs (b [0, 1/4, 3/4]) [b [1/10, 2/10, 7/10]] { alpha := some (.fin 1) } "natural" "fractional"
    (fun d r => d.timeseries = (samples 3 fun i => (eT i : ℚ) * pow2 (-2)) ∧ d.data2d = .ok [b [1/10, 2/10, 7/10]] ∧ r.corr.alpha = .fin 1 ∧
      r.lags = ([-3, -2, -1, 0, 1, 2, 3] : List ℤ).map (fun k => .fin (k * pow2 (-2))) ∧ d.timeseries = b [0, 1/4, 3/4]) (by decide +kernel)
  obtain ⟨d', r', hd', hr', h5, h6, h7, h8, h8'⟩ := callOf_ok .fabs (b [5/8, 1, 7/4]) [b [1/10, 2/10, 7/10]] { alpha := some (.fin (3/2)) } "natural" "fractional"
    (fun d r => d.timeseries = (samples 3 fun i => ((5 + 3 * eT i : ℤ) : ℚ) * pow2 (-3)) ∧ d.data2d = .ok [b [1/10, 2/10, 7/10]] ∧ r.corr.alpha = .fin (3/2) ∧
      r.lags = ([-3, -2, -1, 0, 1, 2, 3] : List ℤ).map (fun k => .fin ((3 * k : ℤ) * pow2 (-3))) ∧ d.timeseries = b [5/8, 1, 7/4]) (by decide +kernel)
  exact ⟨d, d', r, r', h4', h8', hr, hr', C29_rounded (exactUnit64 (-2) (by norm_num) (by norm_num)) (exactUnit64 (-3) (by norm_num) (by norm_num)) d d' (.table hd) (.table hd')
    (h2.trans h6.symm) 3 eT eT_inc 5 3 (by norm_num) h1 h5 _ _ _ (.inl rfl) r r' hr hr' 1 (3/2) h3 h7 (by norm_num) (by norm_num) (by decide +kernel)
    [-3, -2, -1, 0, 1, 2, 3] h4 h8 (by decide) (by decide)⟩

/-- C60_default_lags and C60_value: times 0, 1, 3 and values 0.1, 0.2, 0.7; the lag 2 -/
example : ∃ (d : DS B) (r : AcResult B), autocorrelation .fabs d {} "natural" "gaussian" = .ok r ∧ .fin 2 ∈ r.lags ∧
    ∃ (m : ℕ) (s : ℕ → ℕ), m ≤ 3 ∧ r.At 0 5 (.fin 2) (Arith.mul (seqDot (fun i => Arith.mul
      (fweight "gaussian" r.corr.alpha (.fin (((|eT (s i) - (eT i + 2)| : ℤ) : ℚ)))) (seqDev 3 uX i)) (fun i => seqDev 3 uX (s i)) m) (Arith.div Arith.one (seqNorm 3 uX))) := by
  obtain ⟨d, r, hd, hr, h1, h2, h3⟩ := callOf_ok .fabs (b [0, 1, 3]) [b [1/10, 2/10, 7/10]] {} "natural" "gaussian"
    (fun d r => d.timeseries = (samples 3 fun i => (eT i : ℚ) * pow2 0) ∧ d.data2d = .ok [(List.range 3).map uX] ∧ r.lags[5]? = some (.fin ((2 : ℤ) * pow2 0)))
    (by decide +kernel)
  have hu := exactUnit64 (ex := fun x : ℚ => 1 / (1 - x)) (fu := false) 0 (by norm_num) (by norm_num)
  obtain ⟨r', hr', ks, h4, _, h5⟩ := C60_default_lags hu d (.table hd) 3 eT h1 (by norm_num) eT_inc 1 ⟨⟨0, 1, by norm_num, by norm_num, by decide⟩, by
    intro i j hij hj
    interval_cases j <;> interval_cases i <;> decide⟩ (by decide) 6 (by decide) (by norm_num) (fun n hn => round_int64 n (hn.trans (by norm_num))) none "gaussian" known_gaussian
  obtain rfl := Res.ok.inj (hr.symm.trans hr')
  obtain ⟨m, s, hm, _, _, h6⟩ := C60_value hu d (.table hd) 3 eT h1 eT_inc 0 uX ⟨_, h2, rfl⟩ (by
    intro i hi
    interval_cases i <;> decide +kernel) _ _ known_gaussian r hr 5 2 h3 (by decide)
  refine ⟨d, r, hr, ?_, m, s, hm, ?_⟩
  · rw [h4, List.mem_map]
    exact ⟨2, (h5 2).2 (.inl ⟨5, by decide, by decide +kernel⟩), rfl⟩
  · simpa [pow2_zero] using h6

/-- C60_textbook and C60_regular_lags: times 10, 10.25, 10.5, values 0.1, 0.2, 0.7, a given `alpha` -/
example : ∃ (d : DS B) (r : AcResult B), d.timeseries = b [10, 10 + 1/4, 10 + 1/2] ∧ autocorrelation .fabs d { alpha := some (.fin 3) } "natural" "fractional" = .ok r ∧
    r.lags.length = 5 ∧ r.At 0 3 (.fin (1/4)) (Arith.mul (seqDot (seqDev 3 uX) (fun i => seqDev 3 uX (i + 1)) 2) (Arith.div Arith.one (seqNorm 3 uX))) := by
  obtain ⟨d, r, hd, hr, h0, h1, h2, h3, h4⟩ := callOf_ok .fabs (b [10, 10 + 1/4, 10 + 1/2]) [b [1/10, 2/10, 7/10]] { alpha := some (.fin 3) } "natural" "fractional"
    (fun d r => d.timeseries = b [10, 10 + 1/4, 10 + 1/2] ∧ d.timeseries = (samples 3 fun i => ((40 + i * 1 : ℤ) : ℚ) * pow2 (-2)) ∧ d.data2d = .ok [(List.range 3).map uX] ∧
      r.corr.alpha = .fin 3 ∧ r.lags[3]? = some (.fin (((1 : ℕ) * 1 : ℤ) * pow2 (-2)))) (by decide +kernel)
  have hu := exactUnit64 (ex := fun x : ℚ => 1 / (1 - x)) (fu := false) (-2) (by norm_num) (by norm_num)
  obtain ⟨r', hr', h5⟩ := C60_regular_lags hu d (.table hd) 3 40 1 one_pos h1 (by norm_num) (by norm_num) (by norm_num)
    (fun n hn => round_int64 n (hn.trans (by norm_num))) (some (.fin 3)) "fractional" known_fractional
  obtain rfl := Res.ok.inj (hr.symm.trans hr')
  refine ⟨d, r, h0, hr, by simp [h5], ?_⟩
  have h6 := C60_textbook hu d (.table hd) 3 40 1 one_pos h1 0 uX ⟨_, h2, rfl⟩ (by
    intro i hi
    interval_cases i <;> decide +kernel) _ _ (.inl rfl) r hr 3 h3 (by norm_num) 3 1 (by norm_num) h4 (by norm_num)
  have e : (((1 : ℕ) * 1 : ℤ) : ℚ) * pow2 (-2) = 1/4 := by decide +kernel
  rw [e] at h6
  exact h6

/-- 0.1, 0.3, 1.7 as stored -/
def dT (i : ℕ) : ℚ := [b64 (1/10), b64 (3/10), b64 (17/10)].getD i 0

theorem dT_order : InOrder 3 dT := by
  intro i j hij hj
  interval_cases j <;> interval_cases i <;> decide +kernel

/-- C15_rounded and C06_binary64: times 0.1, 0.3, 1.7 -/
example : ∃ (d : DS B) (c : Corr B) (m : ℚ), d.timeseries = b [1/10, 3/10, 17/10] ∧ Corr.new d = .ok c ∧ c.maxLag = XF.round (dT 2 - dT 0) ∧ c.alpha = d.medianTime ∧
    d.medianTime = .fin m ∧ 0 ≤ m := by
  obtain ⟨d, c, hd, hc, h0, h1⟩ := newOf_ok (b [1/10, 3/10, 17/10]) [b [1, 2, 6]] (fun d _ => d.timeseries = b [1/10, 3/10, 17/10] ∧ d.timeseries = samples 3 dT) (by decide +kernel)
  obtain ⟨h2, _, h3, _⟩ := C15_rounded d (.table hd) 3 dT h1 (by norm_num) dT_order c hc (by decide +kernel)
  obtain ⟨m, u, h4, _, _, _, h5, _⟩ := C06_binary64 d (.table hd) 3 dT h1 dT_order (by decide +kernel)
  exact ⟨d, c, m, h0, hc, h2, h3, h4, h5⟩

/-- 0, 2^53 + 2, 2^53 + 4 seen from -1: both become 2^53 + 4 (to even) -/
def closeT (i : ℕ) : ℚ := [-1, 2 ^ 53 + 2, 2 ^ 53 + 4].getD i 0

/-- C16_rounded: different times that become equal -/
example : ∃ d : DS B, d.timeseries = samples 3 closeT ∧ Corr.new d = .ub := by
  obtain ⟨d, hd, ht, _⟩ := object (samples 3 closeT : List B) (samples 3 wX) (by decide) (by decide)
  refine ⟨d, ht, C16_rounded (by decide +kernel) d (.flat hd) 3 closeT ht ?_ 1 (by norm_num) (by decide +kernel)⟩
  intro i j hij hj
  interval_cases j <;> interval_cases i <;> decide +kernel

/-- C52_rounded: lag 5 beyond times 0.1, 0.3, 1.7 -/
example : ∃ r : AcResult B, r.At 0 1 (.fin 5) (.fin 0) := by
  obtain ⟨d, r, hd, hr, h1, h2, h3, h4, h5, h6⟩ := callOf_ok .fabs (samples 3 dT : List B) [b [1, 2, 6]] ⟨some (.fin 0), some (.fin 5), some (.fin 5), none⟩ "natural" "fractional"
    (fun d r => d.timeseries = samples 3 dT ∧ d.data2d = .ok [b [1, 2, 6]] ∧ r.lags[1]? = some (.fin 5) ∧ (r.corrs.rows[0]?.bind (·[1]?)).isSome ∧ r.lags[0]? = some (.fin 0) ∧
      r.corrs.rows[0]?.bind (·[0]?) = some (.fin 1)) (by decide +kernel)
  obtain ⟨v, hv⟩ := Option.isSome_iff_exists.1 h4
  obtain ⟨row, h7, h8⟩ := Option.bind_eq_some_iff.1 hv
  obtain ⟨row', h7', h8'⟩ := Option.bind_eq_some_iff.1 h6
  have h9 := (C52_rounded d (.table hd) 3 dT h1 _ _ known_fractional r hr 0 _ ⟨_, h2, rfl⟩ 1 5 (by unfold XF.IsDouble; decide +kernel) (by decide +kernel) v ⟨h3, row, h7, h8⟩).2
    ⟨0, _, _, h5, row', h7', h8'⟩
  exact ⟨r, h3, row, h7, h9 ▸ h8⟩

/-- C17_rounded, C18_rounded_partial and C18_default_rounded_partial: the default lags of times 0.1, 0.3, 1.7 -/
example : ∃ r : AcResult B, r.lags.Pairwise (fun x y => Arith.lt x y = true) ∧ r.lags.count (.fin 0) = 1 ∧ ∀ x ∈ r.lags, Arith.le x (XF.round (dT 2 - dT 0)) = true := by
  obtain ⟨d, r, hd, hr, h1, h2, h3, h4, h5⟩ := callOf_ok .fabs (samples 3 dT : List B) [b [1, 2, 6]] {} "natural" "fractional"
    (fun d r => d.timeseries = samples 3 dT ∧ r.corr.minLag = XF.round (-(dT 2 - dT 0)) ∧ Arith.le r.corr.minLag (.fin 0) = true ∧ Arith.lt (.fin 0) r.corr.lagRes = true ∧
      (Arith.le (.fin 0) (gridPt r.corr.minLag r.corr.lagRes 9) = true ∧ Arith.le (gridPt r.corr.minLag r.corr.lagRes 9) r.corr.maxLag = true)) (by decide +kernel)
  have hlo : r.corr.minLag.IsDouble := by rw [h2]; exact round_isDouble _
  have hlo' : Arith.lt .ninf r.corr.minLag = true := by rw [h2]; decide +kernel
  exact ⟨r, (C17_rounded _ d (.table hd) _ _ _ r hr hlo hlo' h4).1, (C18_rounded_partial _ d (.table hd) _ _ _ r hr hlo hlo' h3 h4 ⟨9, h5⟩).1,
    fun x hx => ((C18_default_rounded_partial (by decide +kernel) _ d (.table hd) 3 dT h1 (by norm_num) dT_order none _ _ r hr).2 x hx).2⟩

/-- C34_rounded_partial and C34_binary64_partial: three times 3/8 -/
example : ∃ (r : AcResult B) (row : List B), r.corrs.rows[0]? = some row ∧ row = List.replicate r.lags.length .nan := by
  obtain ⟨d, r, hd, hr, h1⟩ := callOf_ok .fabs (samples 3 dT : List B) [List.replicate 3 (.fin (3/8))] {} "natural" "fractional"
    (fun d _ => d.data2d = .ok [List.replicate 3 (.fin (3/8))]) (by decide +kernel)
  exact ⟨r, C34_rounded_partial _ d (.table hd) _ _ _ r hr 3 0 (3/8) ⟨_, h1, rfl⟩ (by decide +kernel) (by decide +kernel)⟩

example : ∃ (r : AcResult B) (row : List B), r.corrs.rows[0]? = some row ∧ row = List.replicate r.lags.length .nan := by
  obtain ⟨d, r, hd, hr, h1⟩ := callOf_ok .fabs (samples 3 dT : List B) [List.replicate 3 (.fin ((3 : ℤ) * pow2 (-3)))] {} "natural" "fractional"
    (fun d _ => d.data2d = .ok [List.replicate 3 (.fin ((3 : ℤ) * pow2 (-3)))]) (by decide +kernel)
  exact ⟨r, C34_binary64_partial _ d (.table hd) _ _ _ r hr 3 0 3 (-3) (by norm_num) (by norm_num) (by norm_num) (by norm_num) (by norm_num) ⟨_, h1, rfl⟩⟩

theorem eY_facts (ex : ℚ → ℚ) (fu : Bool) : Moderate (Rnd.binary64 ex fu) (pow2 (-53)) (pow2 (-1075)) Sacf.big (pow2 (-24)) 4 3 ∧
    (∀ i < 3, Near (Arith.toFloat (.fin (eY i) : D64 ex fu)) (eY i) (2 * (pow2 (-24) * 4))) ∧
    0 < sumSq 3 eY ∧ 2 ≤ sumSq 3 eY * Sacf.big ∧ 24 * ((3 : ℕ) * 4 ^ 2) ≤ sumSq 3 eY * Sacf.big ∧ 4 ≤ Sacf.big :=
  facts64 (by norm_num) (by norm_num) (by decide +kernel) (by decide +kernel) (by decide +kernel) (by decide +kernel) (by decide +kernel) (.inl le_rfl) (by decide +kernel)

/-- C61_error and C05_error: times 0, 1, 3, values 1, 2, 4, `alpha` 1, lag 2 -/
example : ∃ (d : DS B) (r : AcResult B) (n : ℕ) (v μ : ℚ), r.At 0 n (.fin 2) (.fin v) ∧ |v - -5/14| ≤ 1/2000 ∧ d.meanData[0]? = some (.fin μ) ∧ |μ - 7/3| ≤ 1/10^5 := by
  obtain ⟨d, r, _, hc, ht, hrow, hr, hα, hlags⟩ := irregular_case (ex := fun x => 1 / (1 - x)) (fu := false) eY (wt := "fractional") known_fractional
  obtain ⟨n, hn⟩ := hlags 2 (by norm_num) (by norm_num)
  obtain ⟨hmod, hf, hN, hb1, hb2, hb3⟩ := eY_facts (fun x => 1 / (1 - x)) false
  obtain ⟨v, hv1, hv2⟩ := C61_error (exactUnit64 0 (by norm_num) (by norm_num)) hmod d hc eT ht eT_inc 0 hrow (by decide +kernel) hf _ _ (.inl rfl) r hr 1 hα one_pos n 2 hn
    (by decide) (by decide +kernel) hN hb1 hb2 hb3 (by decide +kernel) _ irregular_selects
  obtain ⟨μ, y, rows, h1, h2, _⟩ := C05_error hmod d hc 0 hrow (by decide +kernel)
  have e1 : sacf 3 (fun i => (eT i : ℚ) * pow2 0) eY (weight (fun x => 1 / (1 - x)) "fractional" 1) (fun _ => 2) (sumSq 3 eY) ((2 : ℤ) * pow2 0) = -5/14 := by decide +kernel
  have e2 : mean 3 eY = 7/3 := by decide +kernel
  change |v - sacf 3 (fun i => (eT i : ℚ) * pow2 0) eY (weight (fun x => 1 / (1 - x)) "fractional" 1) (fun _ => 2) (sumSq 3 eY) ((2 : ℤ) * pow2 0)| ≤ _ *
    (1 + |sacf 3 (fun i => (eT i : ℚ) * pow2 0) eY (weight (fun x => 1 / (1 - x)) "fractional" 1) (fun _ => 2) (sumSq 3 eY) ((2 : ℤ) * pow2 0)|) at hv2
  rw [e1] at hv2
  rw [e2] at h2
  exact ⟨d, r, n, v, μ, by simpa [pow2_zero] using hv1, hv2.trans (by decide +kernel), h1, h2.trans (by decide +kernel)⟩

/-- C61_gaussian: the same with the Gaussian weight and an exponential function that is accurate to 2^-60 -/
example : ∃ (ex : ℚ → ℚ) (r : AcResult (D64 ex false)) (n : ℕ) (v : ℚ), r.At 0 n (.fin ((2 : ℤ) * pow2 0)) (.fin v) := by
  obtain ⟨ex, hex, _⟩ := exists_expLike (show 0 < pow2 (-60) from pow2_pos _)
  obtain ⟨d, r, _, hc, ht, hrow, hr, hα, hlags⟩ := irregular_case (ex := ex) (fu := false) eY (wt := "gaussian") known_gaussian
  obtain ⟨n, hn⟩ := hlags 2 (by norm_num) (by norm_num)
  obtain ⟨hmod, hf, hN, hb1, hb2, hb3⟩ := eY_facts ex false
  obtain ⟨v, hv1, _⟩ := C61_gaussian (exactUnit64 0 (by norm_num) (by norm_num)) hmod d hc eT ht eT_inc 0 hrow (by decide +kernel) hf _ r hr 1 hα one_pos n 2 hn
    (by decide) (by decide +kernel) hN hb1 hb2 hb3 ex hex (by decide +kernel) (fun x _ => by
      show |ex x - ex x| ≤ _
      rw [sub_self, abs_zero]
      decide +kernel) (by decide +kernel) (by decide +kernel) (by decide +kernel) (by decide +kernel) (by decide +kernel) (by decide +kernel) (by decide +kernel) _ irregular_selects
  exact ⟨ex, r, n, v, hv1⟩

theorem eT_order : InOrder 3 fun i => (eT i : ℚ) * pow2 0 := by
  intro i j hij hj
  interval_cases j <;> interval_cases i <;> decide +kernel

/-- C70_error and C70_gaussian on the same data -/
example : ∃ (r : AcResult B) (n : ℕ) (v : ℚ), r.At 0 n (.fin ((2 : ℤ) * pow2 0)) (.fin v) := by
  obtain ⟨d, r, _, hc, ht, hrow, hr, hα, hlags⟩ := irregular_case (ex := fun x => 1 / (1 - x)) (fu := false) eY (wt := "fractional") known_fractional
  obtain ⟨n, hn⟩ := hlags 2 (by norm_num) (by norm_num)
  obtain ⟨hmod, hf, hN, hb1, hb2, hb3⟩ := eY_facts (fun x => 1 / (1 - x)) false
  obtain ⟨_, _, v, _, hv, _⟩ := C70_error hmod d hc ht eT_order 0 hrow (by decide +kernel) hf _ _ (.inl rfl) r hr 1 hα one_pos n _ hn (by decide +kernel) (by decide +kernel) hN hb1
    hb2 hb3 (by decide +kernel)
  exact ⟨r, n, v, hv⟩

example : ∃ (ex : ℚ → ℚ) (r : AcResult (D64 ex false)) (n : ℕ) (v : ℚ), r.At 0 n (.fin ((2 : ℤ) * pow2 0)) (.fin v) := by
  obtain ⟨ex, hex, _⟩ := exists_expLike (show 0 < pow2 (-60) from pow2_pos _)
  obtain ⟨d, r, _, hc, ht, hrow, hr, hα, hlags⟩ := irregular_case (ex := ex) (fu := false) eY (wt := "gaussian") known_gaussian
  obtain ⟨n, hn⟩ := hlags 2 (by norm_num) (by norm_num)
  obtain ⟨hmod, hf, hN, hb1, hb2, hb3⟩ := eY_facts ex false
  obtain ⟨_, _, v, _, hv, _⟩ := C70_gaussian hmod d hc ht eT_order 0 hrow (by decide +kernel) hf _ r hr 1 hα one_pos n _ hn (by decide +kernel) (by decide +kernel) hN hb1 hb2 hb3
    ex hex (by decide +kernel) (fun x _ => by
      show |ex x - ex x| ≤ _
      rw [sub_self, abs_zero]
      decide +kernel) (by decide +kernel) (by decide +kernel) (by decide +kernel) (by decide +kernel) (by decide +kernel) (by decide +kernel) (by decide +kernel)
  exact ⟨ex, r, n, v, hv⟩

/-- C70_binary64 and C70_clear_cut: decimal times, lag 1/4 -/
example : ∃ (r : AcResult B) (m : ℕ) (s : ℕ → ℕ) (v : ℚ), r.At 0 1 (.fin (1/4)) (.fin v) ∧
    matchedAcf m 4 decTimes decValues (weight (fun x => 1 / (1 - x)) "fractional" 1) s (sumSq 4 decValues) (1/4)
      = sacf 4 decTimes decValues (weight (fun x => 1 / (1 - x)) "fractional" 1) decSel (sumSq 4 decValues) (1/4) := by
  obtain ⟨d, r, ht, hv, hr, hf⟩ := dec_case { minLag := some (.fin (1/4)), maxLag := some (.fin (1/4)), alpha := some (.fin 1) }
    (fun r => (r.lags, r.corr.alpha)) ([.fin 0, .fin (1/4)], .fin 1) (by decide +kernel)
  have hl := congrArg Prod.fst hf
  have hα := congrArg Prod.snd hf
  obtain ⟨m, s, v, h1, h2, _⟩ := C70_binary64 ht hv _ "fractional" (.inl rfl) r hr 1 hα (by decide +kernel) 1 (1/4) (by rw [show r.lags = _ from hl]; rfl)
    (by decide +kernel) (by decide +kernel)
  exact ⟨r, m, s, v, h2, (C70_clear_cut h1 dec_clear _).2⟩

theorem decTimes_gap : IsMinGap 4 decTimes (decTimes 1 - decTimes 0) :=
  ⟨⟨0, 1, by norm_num, by norm_num, rfl⟩, by
    have h : ∀ j < 4, ∀ i < 4, i < j → decTimes 1 - decTimes 0 ≤ decTimes j - decTimes i := by decide +kernel
    exact fun i j hij hj => h j hj i (by omega) hij⟩

/-- C71_drift: from -1/2 to 1/2 in steps of the double 0.1 -/
example : ∃ (r : AcResult B) (m : ℕ) (y : ℕ → ℚ), (r.lags.length = m ∨ r.lags.length = m + 1) ∧ ∀ n < m, |y n - (-1/2 + n * b64 (1/10))| ≤ n * (pow2 (-53) * 2 + pow2 (-1075)) := by
  obtain ⟨d, r, ht, hv, hr, hf⟩ := dec_case { minLag := some (.fin (-1/2)), maxLag := some (.fin (1/2)), lagRes := some (.fin (b64 (1/10))) }
    (fun r => (r.corr.minLag, r.corr.maxLag, r.corr.lagRes)) (.fin (-1/2), .fin (1/2), .fin (b64 (1/10))) (by decide +kernel)
  obtain ⟨m, y, h1, h2, _⟩ := C71_drift accurate64 _ d ht.built _ _ _ r hr (-1/2) (1/2) (b64 (1/10)) (congrArg Prod.fst hf) (by decide +kernel) (congrArg (·.2.1) hf)
    (congrArg (·.2.2) hf) (by decide +kernel) (by decide +kernel)
  refine ⟨r, m, y, h1, fun n hn => (h2 n hn).2.2.trans (mul_le_mul_of_nonneg_left ?_ (Nat.cast_nonneg _))⟩
  decide +kernel

/-- C71_default -/
example : ∃ (r : AcResult B) (m : ℕ) (y : ℕ → ℚ), (r.lags.length = m ∨ r.lags.length = m + 1) ∧ ∀ n < m, .fin (y n) ∈ r.lags := by
  obtain ⟨d, r, ht, hv, hr, _⟩ := dec_case {} (fun r => r.lags.length) 14 (by decide +kernel)
  obtain ⟨m, y, h1, h2, _⟩ := C71_default accurate64 (by decide +kernel) _ d ht.built 4 decTimes ht.times decTimes_inc _ decTimes_gap (by decide +kernel) (by decide +kernel)
    (by decide +kernel) none _ _ r hr
  exact ⟨r, m, y, h1, fun n hn => (h2 n hn).1⟩

end Sacf
