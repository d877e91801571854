import Verif.Cases.Base
import Verif.Props.Selection
import Verif.Props.Acf

/-! Cases for `Props/Selection.lean` and `Props/Acf.lean`. -/

namespace Sacf

/-- C19_nearest: lag 1 at times 0, 1, 3 -/
example : ∃ (c : Corr Q) (it : CorrIt Q) (m : ℕ) (s : ℕ → ℕ), c.naturalSelection .fabs (CorrIt.new (.fin 1) 1) = .ok it ∧ it.selection = (List.range m).map s ∧
    (∀ i < 3, (i < m ↔ wT i + 1 ≤ 3)) ∧ ∀ i < m, IsNearest 3 wT (wT i + 1) (s i) := by
  obtain ⟨d, c, hd, hc, h1, h2⟩ := newOf_ok (samples 3 wT : List Q) [samples 3 wX] (fun d c => d.timeseries = samples 3 wT ∧ c.ds.timeseries = samples 3 wT) (by decide +kernel)
  have hds : c.ds = d := (C41_history .fabs d (.table hd) c c hc [] (by simp) rfl).2.2
  obtain ⟨it, m, s, h3, h4, _, h5, h6⟩ := C19_nearest c (hds ▸ .table hd) 3 wT h2 wT_inc 1 1
  exact ⟨c, it, m, s, h3, h4, h5, h6⟩

/-- C19_rounded in binary64: times 0, 1, 3, lag 1/10 as stored -/
example : ∃ (c : Corr B) (it : CorrIt B) (m : ℕ) (s : ℕ → ℕ), c.naturalSelection .fabs (CorrIt.new (.fin (roundTo 53 (-1074) (1/10))) 1) = .ok it ∧
    it.selection = (List.range m).map s ∧ ∀ i < m, s i < 3 := by
  obtain ⟨d, c, hd, hc, h2⟩ := newOf_ok (samples 3 wT : List B) [samples 3 wX] (fun _ c => c.ds.normT = samples 3 wT) (by decide +kernel)
  have hds : c.ds = d := (C41_history .fabs d (.table hd) c c hc [] (by simp) rfl).2.2
  obtain ⟨it, m, s, h3, h4, _, _, h6⟩ := C19_rounded c (hds ▸ .table hd) 3 wT h2 (fun i j hij hj => by
    rcases eq_or_lt_of_le hij with rfl | h
    · exact le_rfl
    · exact (wT_inc i j h hj).le) (roundTo 53 (-1074) (1/10)) 1
  exact ⟨c, it, m, s, h3, h4, fun i hi => (h6 i hi).1⟩

/-- C25_rounded in binary64: values 1, 2, 6 -/
example : ∃ (r : AcResult B) (m : B), r.At 0 3 (.fin 0) (Arith.mul (computedSumSq (b [1, 2, 6]) m) (Arith.div (.fin 1) (computedSumSq (b [1, 2, 6]) m))) := by
  obtain ⟨d, r, hd, hr, h1, h2, h3, h4, h5⟩ := callOf_ok .fabs (samples 3 wT : List B) [b [1, 2, 6]] {} "natural" "fractional"
    (fun d r => d.normT = samples 3 wT ∧ d.data2d = .ok [b [1, 2, 6]] ∧ d.dataMean[0]? = some (.fin 3) ∧ r.corr.alpha = .fin 1 ∧ r.lags[3]? = some (.fin 0)) (by decide +kernel)
  exact ⟨r, .fin 3, C25_rounded d (.table hd) _ r hr 3 wT h1 (by
    intro i hi
    interval_cases i <;> (unfold XF.IsDouble; decide +kernel)) wT_inc 0 _ ⟨_, h2, rfl⟩ _ h3 (by decide +kernel) 1 h4 (by norm_num) 3 h5⟩

/-- C20_integer_partial: times 0, 1, 3 with a least lag and a resolution that are whole numbers -/
example : ∃ d : DS Q, d.timeseries = q [0, 1, 3] ∧ autocorrelation .intAbs d { minLag := some (.fin (-2)), lagRes := some (.fin 2) } "fast" "gaussian"
    = autocorrelation .fabs d { minLag := some (.fin (-2)), lagRes := some (.fin 2) } "fast" "gaussian" := by
  let τ : ℕ → ℤ := fun i => [0, 1, 3].getD i 0
  obtain ⟨d, hd, ht, _⟩ := object (samples 3 (fun i => (τ i : ℚ)) : List Q) (samples 3 wX) (by simp [samples]) (by simp [samples])
  refine ⟨d, ht.trans (by decide +kernel), C20_integer_partial d (.flat hd) 3 τ ht (fun i j hij hj => ?_) (by norm_num) (by decide +kernel) _ (some (-2)) (by
    simp [dbl]) (some 2) (by simp [dbl]) (by simp) 3 (by norm_num) (by simp) (by decide) (by decide) _ _⟩
  interval_cases j <;> interval_cases i <;> decide

theorem wX_sumSq : sumSq 3 wX ≠ 0 := by decide +kernel

/-- C47_formula and C47_value at lag 1: sample 0 matches sample 1, sample 1 matches sample 2, which is 1 away and as near as sample 1 -/
example : ∃ r : AcResult Q, r.At 0 4 (.fin 1) (.fin (1/28)) ∧
    ∃ s, Selects 3 wT 1 s ∧ r.At 0 4 (.fin 1) (.fin (sacf 3 wT wX (weight (fun x : ℚ => 1 / (1 - x)) "fractional" 1) s (sumSq 3 wX) 1)) := by
  obtain ⟨d, r, h, hl, _⟩ := naturalRun_witness
  have h1 := C47_formula h (fun _ _ => rfl) wX_sumSq 4 1 (by rw [hl]; rfl) (fun i => if i = 0 then 1 else 2) (by
    unfold Selects IsNearest
    decide +kernel)
  have e : sacf 3 wT wX (weight (fun x : ℚ => 1 / (1 - x)) "fractional" 1) (fun i => if i = 0 then 1 else 2) (sumSq 3 wX) 1 = 1/28 := by decide +kernel
  rw [e] at h1
  exact ⟨r, h1, C47_value h (fun _ _ => rfl) wX_sumSq 4 1 (by rw [hl]; rfl)⟩

/-- C25_zero_lag -/
example : ∃ r : AcResult Q, r.At 0 3 (.fin 0) (.fin 1) := by
  obtain ⟨d, r, h, hl, _⟩ := naturalRun_witness
  exact ⟨r, C25_zero_lag h (fun _ _ => rfl) wX_sumSq (by simp) 3 (by rw [hl]; rfl)⟩

/-- arithmetic in which narrowing to `float` rounds down to even numbers -/
abbrev Q2 := Exact (10 ^ 100 : ℚ) (fun x => 2 * ⌊x / 2⌋) (fun x => 1 / (1 - x))

/-- values 1, 2, 6 are narrowed to 0, 2, 6 -/
theorem narrowed_witness : ∃ (d : DS Q2) (r : AcResult Q2), NaturalRun d {} "fractional" r 3 wT 0 wX 1 ∧ r.lags = [-3, -2, -1, 0, 1, 2, 3].map .fin := by
  obtain ⟨d, r, hd, hr, h1, h2, h3, h4⟩ := callOf_ok .fabs (samples 3 wT : List Q2) [samples 3 wX] {} "natural" "fractional"
    (fun d r => d.timeseries = samples 3 wT ∧ d.data2d = .ok [samples 3 wX] ∧ r.corr.alpha = .fin 1 ∧ r.lags = [-3, -2, -1, 0, 1, 2, 3].map .fin) (by decide +kernel)
  exact ⟨d, r, ⟨.table hd, h1, wT_inc, ⟨_, h2, rfl⟩, hr, known_fractional, h3, one_pos⟩, h4⟩

/-- C26_ratio_partial and C26_zero_lag_partial -/
example : ∃ r : AcResult Q2, r.At 0 3 (.fin 0) (.fin (14/19)) ∧ r.At 0 4 (.fin 1) (.fin (1/38)) := by
  obtain ⟨d, r, h, hl⟩ := narrowed_witness
  have hv' : narrowedSumSq (fun x : ℚ => 2 * ⌊x / 2⌋) 3 wX ≠ 0 := by decide +kernel
  have h1 := C26_zero_lag_partial h hv' (by simp) 3 (by rw [hl]; rfl)
  have h2 := C26_ratio_partial h wX_sumSq hv' 4 1 (by rw [hl]; rfl) (fun i => if i = 0 then 1 else 2) (by
    unfold Selects IsNearest
    decide +kernel)
  have e1 : sumSq 3 wX / narrowedSumSq (fun x : ℚ => 2 * ⌊x / 2⌋) 3 wX = 14/19 := by decide +kernel
  have e2 : sacf 3 wT wX (weight (fun x : ℚ => 1 / (1 - x)) "fractional" 1) (fun i => if i = 0 then 1 else 2) (sumSq 3 wX) 1
      * (sumSq 3 wX / narrowedSumSq (fun x : ℚ => 2 * ⌊x / 2⌋) 3 wX) = 1/38 := by decide +kernel
  rw [e1] at h1
  rw [e2] at h2
  exact ⟨r, h1, h2⟩

/-- C30_regular, C31_surplus_partial and C33_regular_partial: values 1, 2, 6, 3 at times 0, 1, 2, 3, lags 1 and -1 -/
example : ∃ r : AcResult Q, r.At 0 4 (.fin 1) (.fin (-1/14)) ∧ r.At 0 2 (.fin (-1)) (.fin (1/14)) ∧ ∃ v, r.At 0 6 (.fin 3) (.fin v) ∧ |v| ≤ 1 := by
  obtain ⟨d, r, h, hl⟩ := regular_witness wX' 1 one_pos (by decide +kernel)
  have h1 := C30_regular h one_pos (fun _ _ => rfl) wX'_sumSq (by simp) 1 4 (by norm_num) (by rw [hl]; decide +kernel)
  have h2 := C31_surplus_partial h one_pos (fun _ _ => rfl) wX'_sumSq (by simp) 1 2 (by norm_num) (by rw [hl]; decide +kernel)
  obtain ⟨v, h3, h4⟩ := C33_regular_partial h one_pos (fun _ _ => rfl) wX'_sumSq (by simp) 3 6 (by rw [hl]; decide +kernel)
  have e1 : autoCov 4 wX' 1 / sumSq 4 wX' = -1/14 := by decide +kernel
  have e2 : (autoCov 4 wX' 1 + ∑ i ∈ Finset.range 1, weight (fun x : ℚ => 1 / (1 - x)) "fractional" 1 ((1 - i : ℕ) * 1) * dev 4 wX' i * dev 4 wX' 0) / sumSq 4 wX' = 1/14 := by
    decide +kernel
  rw [e1] at h1
  rw [e2] at h2
  exact ⟨r, by simpa using h1, by simpa using h2, v, by simpa using h3, h4⟩

/-- C33_bound_partial: at lag 1 no sample is matched more than once -/
example : ∃ (r : AcResult Q) (v : ℚ), r.At 0 4 (.fin 1) (.fin v) ∧ v ^ 2 ≤ 1 := by
  obtain ⟨d, r, h, hl, _⟩ := naturalRun_witness
  obtain ⟨v, h1, h2⟩ := C33_bound_partial h (fun _ _ => rfl) wX_sumSq (by simp) 4 1 (by rw [hl]; rfl) 1 (by
    intro i' hi'
    refine Finset.card_le_one.2 fun a ha c hc => ?_
    simp only [Finset.mem_filter, Finset.mem_range] at ha hc
    obtain ⟨ha1, ha2, ha3⟩ := ha
    obtain ⟨hc1, hc2, hc3⟩ := hc
    have key : ∀ a < 3, ∀ c < 3, ∀ i' < 3, wT a + 1 ≤ wT (3 - 1) → wT c + 1 ≤ wT (3 - 1) →
        IsNearest 3 wT (wT a + 1) i' → IsNearest 3 wT (wT c + 1) i' → a = c := by
      unfold IsNearest
      intro a ha c hc i' hi'
      interval_cases a <;> interval_cases c <;> interval_cases i' <;> decide +kernel
    exact key a ha1 c hc1 i' hi' ha2 hc2 ha3 hc3)
  exact ⟨r, v, h1, by exact_mod_cast h2⟩

/-- C34_constant_partial: 4, 4, 4 -/
example : ∃ (r : AcResult Q) (row : List Q), r.corrs.rows[0]? = some row ∧ row = List.replicate r.lags.length .nan := by
  obtain ⟨d, r, hd, hr, h1⟩ := callOf_ok .fabs (samples 3 wT : List Q) [List.replicate 3 (.fin 4)] {} "natural" "gaussian"
    (fun d _ => d.data2d = .ok [List.replicate 3 (.fin 4)]) (by decide +kernel)
  exact ⟨r, C34_constant_partial .fabs d (.table hd) _ _ _ r hr 3 0 4 ⟨_, h1, rfl⟩ rfl⟩

/-- C34_constant_narrowed_partial: 5, 5, 5, narrowed to 4, 4, 4 -/
example : ∃ r : AcResult Q2, r.At 0 4 (.fin 1) (.fin 0) := by
  obtain ⟨d, r, hd, hr, h1, h2, h3, h4⟩ := callOf_ok .fabs (samples 3 wT : List Q2) [samples 3 fun _ => 5] {} "natural" "fractional"
    (fun d r => d.timeseries = samples 3 wT ∧ d.data2d = .ok [samples 3 fun _ => 5] ∧ r.corr.alpha = .fin 1 ∧ r.lags[4]? = some (.fin 1)) (by decide +kernel)
  exact ⟨r, C34_constant_narrowed_partial (c := 5) ⟨.table hd, h1, wT_inc, ⟨_, h2, rfl⟩, hr, known_fractional, h3, one_pos⟩ (fun _ _ => rfl) (by decide +kernel) 4 1 h4⟩

/-- C35_poisoned and C35_nonpositive_lags: 1, NaN, 6; lag 2 uses sample 0 and its match, sample 1; lag -1 uses all -/
example : ∃ r : AcResult Q, r.At 0 5 (.fin 2) .nan ∧ r.At 0 2 (.fin (-1)) .nan := by
  obtain ⟨d, r, hd, hr, h1, h2, h3, h4, h5⟩ := callOf_ok .fabs (samples 3 wT : List Q) [[.fin 1, .nan, .fin 6]] {} "natural" "fractional"
    (fun d r => d.timeseries = samples 3 wT ∧ d.data2d = .ok [[.fin 1, .nan, .fin 6]] ∧ r.corr.alpha = .fin 1 ∧ r.lags[5]? = some (.fin 2) ∧ r.lags[2]? = some (.fin (-1)))
    (by decide +kernel)
  exact ⟨r, C35_poisoned d (.table hd) _ _ r hr known_fractional 3 wT h1 wT_inc 1 one_pos h3 0 _ ⟨_, h2, rfl⟩ 1 rfl 5 2 h4 ⟨1, by norm_num, by decide +kernel, .inl rfl⟩,
    C35_nonpositive_lags d (.table hd) _ _ r hr known_fractional 3 wT h1 wT_inc 1 one_pos h3 0 _ ⟨_, h2, rfl⟩ (by simp) 2 (-1) (by norm_num) h5⟩

end Sacf
