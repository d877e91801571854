import Verif.Cases.Base
import Verif.Props.Invariance
import Verif.Props.Weights
import Verif.Props.More
import Verif.Props.Missing
import Verif.Props.Fast

/-! Cases for `Props/Invariance.lean`, `Weights.lean`, `More.lean`, `Missing.lean` and `Fast.lean`. -/

namespace Sacf

/-- two tables and their contents -/
theorem two_objects {F : Type} [Arith F] (t t' : List F) (rows rows' : List (List F)) (ht : t ≠ []) (ht' : t' ≠ []) (hr : rows ≠ []) (hr' : rows' ≠ [])
    (h : ∀ r ∈ rows, r.length = t.length) (h' : ∀ r ∈ rows', r.length = t'.length) :
    ∃ d d', Constructed d ∧ Constructed d' ∧ d.timeseries = t ∧ d'.timeseries = t' ∧ d.data2d = .ok rows ∧ d'.data2d = .ok rows' := by
  obtain ⟨d, hd, h1, h2, _⟩ := C03_round_trip t rows ht hr h
  obtain ⟨d', hd', h1', h2', _⟩ := C03_round_trip t' rows' ht' hr' h'
  exact ⟨d, d', .table hd, .table hd', h1, h1', h2, h2'⟩

/-- C28_depends_on_differences in binary64: times 0, 1, 3 and 5, 6, 8 -/
example : ∃ d d' : DS B, d.timeseries = b [0, 1, 3] ∧ d'.timeseries = b [5, 6, 8] ∧
    acOut .fabs d { lagRes := some (.fin (1/2)) } "fast" "gaussian" = acOut .fabs d' { lagRes := some (.fin (1/2)) } "fast" "gaussian" := by
  obtain ⟨d, c, hd, hc, h1, h2, h3⟩ := newOf_ok (b [0, 1, 3]) [b [1, 2, 6]]
    (fun d _ => d.timeseries = b [0, 1, 3] ∧ d.normalisedTimeseries = b [0, 1, 3] ∧ d.data2d = .ok [b [1, 2, 6]]) (by decide +kernel)
  obtain ⟨d', c', hd', hc', h1', h2', h3'⟩ := newOf_ok (b [5, 6, 8]) [b [1, 2, 6]]
    (fun d _ => d.timeseries = b [5, 6, 8] ∧ d.normalisedTimeseries = b [0, 1, 3] ∧ d.data2d = .ok [b [1, 2, 6]]) (by decide +kernel)
  exact ⟨d, d', h1, h1', C28_depends_on_differences .fabs (.table hd) (.table hd') (h2.trans h2'.symm) (h3.trans h3'.symm) _ _ _⟩

/-- C28_shift: two rows, one with a missing value, times 0, 1, 3 and 5, 6, 8 -/
example : ∃ d d' : DS Q, d.timeseries = q [0, 1, 3] ∧ d'.timeseries = q [5, 6, 8] ∧ acOut .intAbs d {} "natural" "gaussian" = acOut .intAbs d' {} "natural" "gaussian" := by
  obtain ⟨d, d', hd, hd', h1, h2, h3, h4⟩ := two_objects (q [0, 1, 3]) (q [5, 6, 8]) [q [1, 2, 6], [.fin 1, .nan, .fin 2]] [q [1, 2, 6], [.fin 1, .nan, .fin 2]]
    (by decide) (by decide) (by decide) (by decide) (by decide) (by decide)
  exact ⟨d, d', h1, h2, C28_shift .intAbs hd hd' 5 (by rw [h1, h2]; decide +kernel) (h3.trans h4.symm) _ _ _⟩

/-- C29_time_unit: times 0, 1, 3 and 0, 2/3, 2, with lag resolution 3/2 and 1 -/
example : ∃ d d' : DS Q, d.timeseries = samples 3 wT ∧ d'.timeseries = samples 3 (fun i => 2/3 * wT i) ∧
    acOut .fabs d' { lagRes := some (.fin 1) } "natural" "fractional_squared"
      = (acOut .fabs d { lagRes := some (.fin (3/2)) } "natural" "fractional_squared").bind fun p => .ok (p.1.map (XF.scale (2/3)), p.2) := by
  obtain ⟨d, d', hd, hd', h1, h2, h3, h4⟩ := two_objects (samples 3 wT : List Q) (samples 3 fun i => 2/3 * wT i) [samples 3 wX] [samples 3 wX]
    (by decide) (by decide) (by decide) (by decide) (by decide) (by decide)
  have h := C29_time_unit hd hd' (by norm_num : (0 : ℚ) < 2/3) (by norm_num) h1 h2 (h3.trans h4.symm) (by
    intro i hi
    have : i < 2 := by omega
    interval_cases i <;> decide +kernel) { lagRes := some (.fin (3/2)) } "natural" "fractional_squared"
  have e : (({ lagRes := some (.fin (3/2)) } : LagArgs Q).map (XF.scale (2/3))) = { lagRes := some (.fin 1) } := by decide +kernel
  rw [e] at h
  exact ⟨d, d', h1, h2, h⟩

/-- C27_affine: two rows, the second with a missing value, changed by different maps, one of them reversing the sign -/
example : ∃ d d' : DS Q, d.data2d = .ok [q [1, 2, 6], [.fin 4, .nan, .fin 3]] ∧ d'.data2d = .ok [q [4, 2, -6], [.fin 9, .nan, .fin 7]] ∧
    acOut .fabs d' {} "natural" "gaussian" = acOut .fabs d {} "natural" "gaussian" := by
  let x : ℕ → ℕ → Option ℚ := fun j i => ([[some 1, some 2, some 6], [some 4, none, some 3]].getD j []).getD i none
  obtain ⟨d, d', hd, hd', h1, h2, h3, h4⟩ := two_objects (samples 3 wT : List Q) (samples 3 wT) [q [1, 2, 6], [.fin 4, .nan, .fin 3]]
    [q [4, 2, -6], [.fin 9, .nan, .fin 7]] (by decide) (by decide) (by decide) (by decide) (by decide) (by decide)
  exact ⟨d, d', h3, h4, C27_affine (N := 2) (M := 3) (x := x) (a := fun j => if j = 0 then -2 else 2) (b := fun j => if j = 0 then 6 else 1) .fabs hd hd' (h2.trans h1.symm)
    (h3.trans (by decide +kernel)) (h4.trans (by decide +kernel)) (by
      intro j _
      split <;> norm_num) (fun _ _ _ _ _ _ => ⟨rfl, rfl⟩) _ _ _⟩

/-- C32_values, C32_range, C32_decreasing, C32_ratio and C32_alpha: distances 0, 1, 3, `alpha` 2 -/
example : ∃ (c : Corr (RealX (10 ^ 100) id)) (it : CorrIt (RealX (10 ^ 100) id)),
    (c.getGaussianWeights it).weights = [0, 1, 3].map (fun δ => .fin (weight Real.exp "gaussian" 2 δ)) ∧
    (∃ ws : List ℝ, (c.getGaussianWeights it).weights = ws.map .fin ∧ ∀ w ∈ ws, 0 < w ∧ w ≤ 1) ∧
    ((c.setAlpha (.fin 4)).getGaussianWeights { it with deltaT := [0, 1, 3].map fun δ => .fin (2 * δ) }).weights = (c.getGaussianWeights it).weights ∧
    ∃ ws ws' : List ℝ, (c.getGaussianWeights it).weights = ws.map .fin ∧ ((c.setAlpha (.fin 4)).getGaussianWeights it).weights = ws'.map .fin ∧
      ∀ w w', ws[2]? = some w → ws'[2]? = some w' → w < w' := by
  obtain ⟨d, hd, ht, _⟩ := object ([.fin 0] : List (RealX (10 ^ 100) id)) [.fin 1] (by simp) (by simp)
  obtain ⟨c, hc, _⟩ := C16_single_partial d (.flat hd) 0 ht (by norm_num)
  let it : CorrIt (RealX (10 ^ 100) id) := { CorrIt.new (.fin 0) 1 with deltaT := [0, 1, 3].map .fin }
  have hf : weightFunction (F := RealX (10 ^ 100) id) "gaussian" = .ok Corr.getGaussianWeights := rfl
  have h0 : ∀ δ ∈ [(0 : ℝ), 1, 3], 0 ≤ δ := by simp
  have hw : it.weights = [] := rfl
  have h1 := C32_values _ known_gaussian _ hf (c.setAlpha (.fin 2)) 2 (by norm_num) rfl it [0, 1, 3] rfl h0
  obtain ⟨ws, h2, h3, h4⟩ := C32_range _ known_gaussian _ hf (c.setAlpha (.fin 2)) 2 (by norm_num) rfl it [0, 1, 3] rfl h0
  have h5 := C32_ratio _ known_gaussian _ hf (c.setAlpha (.fin 2)) 2 (by norm_num) rfl it [0, 1, 3] rfl h0 2 (by norm_num) ((c.setAlpha (.fin 2)).setAlpha (.fin 4))
    (by rw [show (2 : ℝ) * 2 = 4 by norm_num]; rfl) { it with deltaT := [0, 1, 3].map fun δ => .fin (2 * δ) } rfl rfl
  obtain ⟨us, us', h6, h7, h8, h9, h10⟩ := C32_alpha _ known_gaussian _ hf (c.setAlpha (.fin 2)) 2 (by norm_num) rfl it [0, 1, 3] rfl h0 4 (by norm_num)
    ((c.setAlpha (.fin 2)).setAlpha (.fin 4)) rfl
  rw [hw, List.nil_append] at h1 h2 h6 h7
  refine ⟨c.setAlpha (.fin 2), it, h1, ⟨ws, h2, ?_⟩, h5, us, us', h6, h7, fun w w' hw hw' => h10 2 3 w w' rfl hw hw' (by norm_num)⟩
  intro w hw
  obtain ⟨i, hi⟩ := List.mem_iff_getElem?.1 hw
  have hlt : i < 3 := by
    have := (List.getElem?_eq_some_iff.1 hi).1
    rw [h3] at this
    simpa using this
  obtain ⟨h11, h12, _⟩ := h4 i ([0, 1, 3][i]) w (by simp [hlt]) hi
  exact ⟨h11, h12⟩

/-- C32_rounded in binary64 with `alpha` 1/10 as stored -/
example : ∃ w1 : ℚ → ℚ, (∀ δ, 0 ≤ δ → Corr.fractionWeight (.fin (roundTo 53 (-1074) (1/10)) : B) (.fin δ) = .fin (w1 δ)) ∧ w1 0 = 1 ∧ w1 3 ≤ w1 (1/3) := by
  obtain ⟨w1, w2, h1, _, _, h4, _, h6⟩ := C32_rounded (R := Rnd.binary64 (fun x : ℚ => 1 / (1 - x)) false) (roundTo 53 (-1074) (1/10)) (by decide +kernel)
  exact ⟨w1, h1, h4, (h6 _ _ (by norm_num) (by norm_num)).1⟩

/-- C50_lag_only in binary64: lag 1 in the default grid and in the grid 0, 1/2, 1 -/
example : ∃ (d : DS B) (r r' : AcResult B) (v : B), autocorrelation .fabs d {} "natural" "gaussian" = .ok r ∧
    autocorrelation .fabs d ⟨some (.fin 0), some (.fin 1), some (.fin (1/2)), none⟩ "natural" "gaussian" = .ok r' ∧ r.At 0 4 (.fin 1) v ∧ r'.At 0 2 (.fin 1) v := by
  obtain ⟨d, r, hd, hr, h1, h2, h3⟩ := callOf_ok .fabs (b [0, 1, 3]) [b [1, 2, 6]] {} "natural" "gaussian"
    (fun _ r => r.lags[4]? = some (.fin 1) ∧ r.corrs.rows.length = 1 ∧ (r.corrs.rows[0]?.bind (·[4]?)).isSome) (by decide +kernel)
  obtain ⟨d', r', hd', hr', h1', h2', h3'⟩ := callOf_ok .fabs (b [0, 1, 3]) [b [1, 2, 6]] ⟨some (.fin 0), some (.fin 1), some (.fin (1/2)), none⟩ "natural" "gaussian"
    (fun _ r => r.lags[2]? = some (.fin 1) ∧ r.corrs.rows.length = 1 ∧ (r.corrs.rows[0]?.bind (·[2]?)).isSome) (by decide +kernel)
  obtain rfl := Res.ok.inj (hd.symm.trans hd')
  have key : ∀ (s : AcResult B) (n : ℕ), s.lags[n]? = some (.fin 1) → (s.corrs.rows[0]?.bind (·[n]?)).isSome → ∃ v, s.At 0 n (.fin 1) v := by
    intro s n h1 h2
    obtain ⟨v, hv⟩ := Option.isSome_iff_exists.1 h2
    obtain ⟨row, h3, h4⟩ := Option.bind_eq_some_iff.1 hv
    exact ⟨v, h1, row, h3, h4⟩
  obtain ⟨v, hv⟩ := key r 4 h1 h3
  obtain ⟨v', hv'⟩ := key r' 2 h1' h3'
  have e := C50_lag_only .fabs d (.table hd) {} ⟨some (.fin 0), some (.fin 1), some (.fin (1/2)), none⟩ rfl _ _ r r' hr hr' 0 4 2 _ v v' hv hv'
  exact ⟨d, r, r', v, hr, hr', hv, e ▸ hv'⟩

/-- C51_errors_unused and C51_errors_unused_table -/
example : (mkFlatErr (q [0, 1, 3]) (q [1, 2, 6]) (q [1/10, 1/5, 1/10])).bind (fun d => acOut .fabs d {} "fast" "fractional")
    = (mkFlat (q [0, 1, 3]) (q [1, 2, 6])).bind (fun d => acOut .fabs d {} "fast" "fractional") ∧
    (mkTableErr (q [0, 1, 3]) [q [1, 2, 6], q [0, 1, 0]] [q [1/10, 1/5, 1/10], q [0, 0, 0]]).bind (fun d => acOut .fabs d {} "natural" "fractional")
    = (mkTable (q [0, 1, 3]) [q [1, 2, 6], q [0, 1, 0]]).bind (fun d => acOut .fabs d {} "natural" "fractional") :=
  ⟨C51_errors_unused _ _ _ _ _ _ _, C51_errors_unused_table _ _ _ _ _ _ _⟩

/-- C52_span and C52_before: the lags 3 and -3 -/
example : ∃ r : AcResult Q, r.At 0 6 (.fin 3) (.fin (-3/7)) ∧ r.At 0 0 (.fin (-3)) (.fin (-13/42)) := by
  obtain ⟨d, r, h, hl, _⟩ := naturalRun_witness
  have hv : sumSq 3 wX ≠ 0 := by decide +kernel
  have h1 := C52_span h (fun _ _ => rfl) hv (by simp) 6 (by rw [hl]; decide +kernel)
  have h2 := C52_before h (fun _ _ => rfl) hv 0 (-3) (by rw [hl]; decide +kernel) (by decide +kernel)
  have e1 : wT (3 - 1) - wT 0 = 3 := by decide +kernel
  have e2 : dev 3 wX 0 * dev 3 wX (3 - 1) / sumSq 3 wX = -3/7 := by decide +kernel
  have e3 : dev 3 wX 0 * (∑ i ∈ Finset.range 3, weight (fun x : ℚ => 1 / (1 - x)) "fractional" 1 (wT 0 - wT i - -3) * dev 3 wX i) / sumSq 3 wX = -13/42 := by decide +kernel
  rw [e1, e2] at h1
  rw [e3] at h2
  exact ⟨r, h1, h2⟩

/-- C52_beyond: lag 5 at a span of 3 -/
example : ∃ r : AcResult Q, r.At 0 1 (.fin 5) (.fin 0) := by
  obtain ⟨d, r, hd, hr, h1, h2, h3, h4⟩ := callOf_ok .fabs (samples 3 wT : List Q) [samples 3 wX] ⟨some (.fin 0), some (.fin 5), some (.fin 5), none⟩ "natural" "fractional"
    (fun d r => d.timeseries = samples 3 wT ∧ d.data2d = .ok [samples 3 wX] ∧ r.corr.alpha = .fin 1 ∧ r.lags[1]? = some (.fin 5)) (by decide +kernel)
  exact ⟨r, C52_beyond ⟨.table hd, h1, wT_inc, ⟨_, h2, rfl⟩, hr, known_fractional, h3, one_pos⟩ (fun _ _ => rfl) (by decide +kernel) 1 5 h4 (by decide +kernel)⟩

/-- C35_formula_partial and C35_nan_iff_partial: five samples of which the third is missing; lag 3 does not use it, lag 1 does -/
example : ∃ r : AcResult Q, r.At 0 7 (.fin 3) (.fin (-9/22)) ∧ r.At 0 5 (.fin 1) .nan := by
  let t : ℕ → ℚ := fun i => i
  obtain ⟨d, r, hd, hr, h1, h2, h3, h4, h5⟩ := callOf_ok .fabs (samples 5 t : List Q) [obs 5 missX] {} "natural" "fractional"
    (fun d r => d.timeseries = samples 5 t ∧ d.data2d = .ok [obs 5 missX] ∧ r.corr.alpha = .fin 2 ∧ r.lags[7]? = some (.fin 3) ∧ r.lags[5]? = some (.fin 1)) (by decide +kernel)
  have hinc : Increasing 5 t := fun i j hij _ => by
    simp only [t]
    exact_mod_cast hij
  have hs : ∀ m : ℕ, m ≤ 3 → Selects 5 t m fun i => i + m := by
    intro m hm i hi hle
    have hle' : i + m ≤ 4 := by
      simp only [t] at hle
      exact_mod_cast hle
    refine ⟨by simp only; omega, fun i' _ => ?_⟩
    simp only [t]
    push_cast
    rw [sub_self, abs_zero]
    rcases eq_or_ne i' (i + m) with rfl | hne
    · exact .inr ⟨by push_cast; simp, le_rfl⟩
    · refine .inl (abs_pos.2 fun h => hne ?_)
      have := sub_eq_zero.1 h
      exact_mod_cast this
  have hv : obsSumSq 5 missX ≠ 0 := by decide +kernel
  have h6 := C35_formula_partial d (.table hd) _ _ r hr known_fractional 5 t h1 hinc 2 (by norm_num) h3 0 missX ⟨_, h2, rfl⟩ (fun _ _ _ _ => rfl) hv 7 3 h4 (fun i => i + 3)
    (by exact_mod_cast hs 3 le_rfl) (by
      intro i hi
      interval_cases i <;> decide +kernel)
  have e : (∑ i ∈ Finset.range 5 with t i + 3 ≤ t (5 - 1), weight (fun x : ℚ => 1 / (1 - x)) "fractional" 2 |t (i + 3) - (t i + 3)| * obsDev 5 missX i * obsDev 5 missX (i + 3))
      / obsSumSq 5 missX = -9/22 := by decide +kernel
  rw [e] at h6
  refine ⟨r, h6, (C35_nan_iff_partial d (.table hd) _ _ r hr known_fractional 5 t h1 hinc 2 (by norm_num) h3 0 missX ⟨_, h2, rfl⟩ (fun _ _ _ _ => rfl) hv 5 1 h5 (fun i => i + 1)
    (by exact_mod_cast hs 1 (by norm_num))).2 fun hun => ?_⟩
  have := hun 1 (by norm_num) (by decide +kernel)
  revert this
  decide +kernel

/-- C36_raises_iff_partial: the default lags of times 0, 1, 3 (lag 2 is between 1 and 3) -/
example : ∃ d : DS Q, d.timeseries = samples 3 wT ∧ autocorrelation .fabs d {} "fast" "fractional" = .exn .indexError := by
  obtain ⟨d, c, hd, hc, h1, h2, h3, h4, h5, h6⟩ := newOf_ok (samples 3 wT : List Q) [samples 3 wX]
    (fun d c => d.timeseries = samples 3 wT ∧ c.minLag = .fin (-3) ∧ c.maxLag = .fin 3 ∧ c.lagRes = .fin 1 ∧ c.alpha = .fin 1 ∧ c.lagTimeseries.length = 9)
    (by decide +kernel)
  have hs : ¬ SkipsZero (.fin (-3) : Q) (.fin 1) 7 := by
    rintro ⟨i, hi, h7, h8⟩
    interval_cases i <;> first
      | exact absurd h7 (by decide +kernel)
      | exact absurd (h8 3 (by norm_num)) (by decide +kernel)
  have hm : GridCount (.fin (-3) : Q) (.fin 3) (.fin 1) 7 := by
    refine ⟨fun i hi => ?_, by decide +kernel⟩
    interval_cases i <;> decide +kernel
  refine ⟨d, h1, (C36_raises_iff_partial (g := {}) (.table hd) h1 wT_inc (by norm_num) known_fractional hc h2 h3 h4 one_pos h5 one_pos hm ?_).1.2
    ⟨5, by decide +kernel, by decide +kernel, by decide +kernel⟩⟩
  unfold lagTotal
  rw [if_neg hs, h6]
  norm_num

/-- C36_formula_partial and C36_beyond_partial: the lags 1 and 3 of times 0, 1, 2, 3 -/
example : ∃ r : AcResult Q, (∃ b c, FirstFrom 4 wT' 1 b ∧ ShiftedCount 4 wT' 1 c ∧ 0 < c ∧
      r.At 0 4 (.fin 1) (.fin (fastAcf 4 wT' wX' (weight (fun x : ℚ => 1 / (1 - x)) "fractional" (3/2)) b c (sumSq 4 wX') 1))) ∧ r.At 0 6 (.fin 3) (.fin 0) := by
  obtain ⟨d, r, h, hl, _⟩ := fastRun_witness
  exact ⟨r, C36_formula_partial h (fun _ _ => rfl) wX'_sumSq 4 1 (by rw [hl]; rfl) (by norm_num) (by decide +kernel),
    C36_beyond_partial h (fun _ _ => rfl) wX'_sumSq 6 3 (by rw [hl]; rfl) (by decide +kernel)⟩

end Sacf
