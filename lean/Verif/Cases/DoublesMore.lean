import Verif.Cases.Doubles
import Verif.Props.FastRounded
import Verif.Props.MissingRounded
import Verif.Props.IntAbs
import Verif.Props.SignedZero

/-! Cases for `Props/AnyShift.lean`, `FastRounded.lean`, `MissingRounded.lean`, `IntAbs.lean` and `SignedZero.lean`. -/

namespace Sacf

local notation "R64" => Rnd.binary64 (fun x : ℚ => 1 / (1 - x)) false

/-- the times of `decTimes` in half the unit -/
def twiceTimes (i : ℕ) : ℚ := 2 * decTimes i

/-- C29_error: the times 0.1, 0.4, 1.1, 2 in half the unit, at lag 1/4 -/
example : ∃ (r r' : AcResult B) (v v' : ℚ), r.At 0 1 (.fin (1/4)) (.fin v) ∧ r'.At 0 1 (.fin (1/2)) (.fin v') ∧ |v' - v| ≤ pow2 (-35) := by
  obtain ⟨d, r, ht, hv, hr, hf⟩ := dec_case { minLag := some (.fin (1/4)), maxLag := some (.fin (1/4)), alpha := some (.fin 1) }
    (fun r => (r.lags, r.corr.alpha)) ([.fin 0, .fin (1/4)], .fin 1) (by decide +kernel)
  obtain ⟨d', r', hd', hr', h1, h2, h3, h4⟩ := callOf_ok .fabs (samples 4 twiceTimes : List B) [samples 4 decValues]
    { minLag := some (.fin (1/2)), maxLag := some (.fin (1/2)), alpha := some (.fin 2) } "natural" "fractional"
    (fun d r => d.timeseries = samples 4 twiceTimes ∧ d.data2d = .ok [samples 4 decValues] ∧ r.corr.alpha = .fin 2 ∧ r.lags[1]? = some (.fin (1/2))) (by decide +kernel)
  have ht' : AnyTimes64 d' 4 twiceTimes := ⟨.table hd', h1, fun i j hij hj => mul_le_mul_of_nonneg_left (decTimes_inc.le hij hj) (by norm_num), by norm_num, by norm_num⟩
  have hv' : Values64 d' 4 0 decValues 4 (4 * pow2 (-53)) := ⟨⟨_, h2, rfl⟩, hv.bound, hv.amin, hv.amax, hv.unit, hv.small, hv.float, hv.spread⟩
  obtain ⟨v, v', h5, h6, h7⟩ := C29_error ht ht' hv hv' 2 0 0 (by norm_num) (by decide +kernel) _ _ _ (.inl rfl) r r' hr hr' 1 2 (congrArg Prod.snd hf) h3
    (by decide +kernel) (by decide +kernel) (by norm_num) 1 1 (1/4) (1/2) (by rw [show r.lags = _ from congrArg Prod.fst hf]; rfl) h4 (by norm_num) (by decide +kernel)
    (by decide +kernel) (by decide +kernel) (by decide +kernel) decSel _ le_rfl (by decide +kernel) dec_clear
  exact ⟨r, r', v, v', h5, h6, h7.trans (by decide +kernel)⟩

/-- C36_rounded_raises_iff_partial: times 0, 1, 3, default lags; lag 2 lies between 1 and 3 -/
example : ∃ d : DS B, d.timeseries = b [0, 1, 3] ∧ autocorrelation .fabs d {} "fast" "gaussian" = .exn .indexError := by
  obtain ⟨d, c, hd, hc, h0, h1, h2, h3, h4, h5⟩ := newOf_ok (b [0, 1, 3]) [b [1, 2, 6]] (fun d c => d.timeseries = b [0, 1, 3] ∧
    d.timeseries = samples 3 wT ∧ c.minLag = .fin (-3) ∧ c.maxLag = .fin 3 ∧ c.lagRes = .fin 1 ∧ c.lagTimeseries.length = 9) (by decide +kernel)
  have hg : GridCount (.fin (-3) : B) (.fin 3) (.fin 1) 7 := by unfold GridCount; decide +kernel
  obtain ⟨l, hl, h6, _⟩ := C36_rounded_raises_iff_partial (R := R64) (.table hd) h1 (fun i j hij hj => wT_inc.le hij hj) (by norm_num) (y := wT) (by decide +kernel) {}
    known_gaussian hc (m := 7) (by simpa [h2, h3, h4] using hg) (by
      simp only [Option.getD_none, h2, h4, h5, lagTotal]
      split <;> norm_num)
  refine ⟨d, h0, h6.2 ⟨.fin 2, ?_, by decide +kernel, by decide +kernel⟩⟩
  simp only [Option.getD_none, h2, h4] at hl
  rcases hl with ⟨_, rfl⟩ | ⟨i, hi, h7, h8, _⟩
  · decide +kernel
  · exfalso
    by_cases h : 3 ≤ i
    · exact absurd (h8 3 h) (by decide +kernel)
    · interval_cases i <;> exact absurd h7 (by decide +kernel)

/-- C36_default_partial: the times 0, …, 3 -/
example : ∃ (d : DS B) (r : AcResult B), d.timeseries = b [0, 1, 2, 3] ∧ autocorrelation .fabs d {} "fast" "gaussian" = .ok r ∧ .fin 2 ∈ r.lags := by
  obtain ⟨d, hd, ht, _⟩ := object (b [0, 1, 2, 3]) (b [1, 2, 6, 3]) (by decide) (by decide)
  have e : b [0, 1, 2, 3] = (samples 4 fun i => (((fun i : ℕ => (i : ℤ)) i : ℤ) : ℚ) * pow2 0) := by decide +kernel
  obtain ⟨r, h1, ks, h2, _, h3⟩ := (C36_default_partial (exactUnit64 0 (by norm_num) (by norm_num)) d (.flat hd) 4 (fun i => (i : ℤ)) (ht.trans e) (by norm_num)
    (fun i j hij _ => by simpa using hij) 1 ⟨⟨0, 1, by norm_num, by norm_num, by norm_num⟩, fun i j hij _ => by simp only; omega⟩ (by norm_num) 6 (by norm_num) (by norm_num)
    (fun n hn => round_int64 n (hn.trans (by norm_num))) none "gaussian" known_gaussian).2 (by norm_num)
  refine ⟨d, r, ht, h1, ?_⟩
  rw [h2, List.mem_map]
  exact ⟨2, (h3 2).2 (.inl ⟨5, by decide, by decide +kernel⟩), rfl⟩

/-- C36_rounded_value_partial and C36_rounded_self_partial: lags 1 and -2 -/
example : ∃ (d : DS B) (r : AcResult B) (c : ℕ) (v w : B), autocorrelation .fabs d {} "fast" "gaussian" = .ok r ∧ r.At 0 4 (.fin 1) v ∧ r.At 0 1 (.fin (-2)) w ∧
    CountBefore R64 4 wT' (.fin (-2)) c := by
  obtain ⟨d, r, hd, hr, h1, h2, h3, h4⟩ := callOf_ok .fabs (b [0, 1, 2, 3]) [b [1/10, 2/10, 6/10, 3/10]] {} "fast" "gaussian"
    (fun d r => d.timeseries = samples 4 wT' ∧ d.data2d = .ok [(List.range 4).map fun i => (b [1/10, 2/10, 6/10, 3/10]).getD i .nan] ∧ r.lags[4]? = some (.fin 1) ∧
      r.lags[1]? = some (.fin (-2))) (by decide +kernel)
  have ho : InOrder 4 wT' := by
    intro i j hij hj
    interval_cases j <;> interval_cases i <;> decide +kernel
  obtain ⟨_, _, _, _, h5⟩ := C36_rounded_value_partial (R := R64) (j := 0) (x := fun i => (b [1/10, 2/10, 6/10, 3/10]).getD i .nan) (.table hd) h1 ho (y := wT')
    (by decide +kernel) ⟨_, h2, rfl⟩ (by decide +kernel) known_gaussian hr h3 (by simp)
  obtain ⟨c, h6, h7⟩ := C36_rounded_self_partial (R := R64) (j := 0) (x := fun i => (b [1/10, 2/10, 6/10, 3/10]).getD i .nan) (.table hd) h1 ho (y := wT')
    (by decide +kernel) ⟨_, h2, rfl⟩ (by decide +kernel) known_gaussian hr h4 (by decide +kernel)
  exact ⟨d, r, c, _, _, hr, h5, h7, h6⟩

/-- C36_error_partial: lag 1 with values 1, 2, 6, 3 -/
example : ∃ (r : AcResult B) (v : ℚ), r.At 0 4 (.fin ((1 : ℤ) * pow2 0)) (.fin v) := by
  obtain ⟨d, r, ht, hv, hr, hf⟩ := fast_case (fun r => (r.lags, r.corr.alpha)) (b [-3, -2, -1, 0, 1, 2, 3], .fin (3/2)) (by decide +kernel)
  obtain ⟨hmod, hf', hN, hb1, hb2, hb3⟩ := facts64 (ex := fun x => 1 / (1 - x)) (fu := false) ht.one_le ht.le hv.amin hv.amax hv.unit hv.small hv.bound hv.float hv.spread
  obtain ⟨_, _, _, _, v, h1, _⟩ := C36_error_partial (exactUnit64 0 (by norm_num) (by norm_num)) hmod d ht.built _ ht.times ht.inc 0 _ hv.row hv.bound hf' _ _ (.inl rfl) r hr (3/2)
    (congrArg Prod.snd hf) (by norm_num) 4 1 (by rw [show r.lags = _ from congrArg Prod.fst hf]; decide +kernel) (by norm_num) hv.spread hN hb1 hb2 hb3 (by decide +kernel)
  exact ⟨r, v, h1⟩

/-- C35_rounded_poisoned and C35_rounded_nonpositive: times 0.1, 0.3, 1.7, the first value missing, and lags 0 and 1.4 as computed -/
example : ∃ (r : AcResult B), r.At 0 0 (.fin 0) .nan ∧ r.At 0 1 (.fin (b64 (dT 2 - dT 0))) .nan := by
  obtain ⟨d, r, hd, hr, h1, h2, h3, h4⟩ := callOf_ok .fabs (samples 3 dT : List B) [[.nan, .fin 1, .fin 2]]
    ⟨some (.fin 0), some (.fin (b64 (dT 2 - dT 0))), some (.fin (b64 (dT 2 - dT 0))), none⟩ "natural" "gaussian"
    (fun d r => d.timeseries = samples 3 dT ∧ d.data2d = .ok [[.nan, .fin 1, .fin 2]] ∧ r.lags[0]? = some (.fin 0) ∧ r.lags[1]? = some (.fin (b64 (dT 2 - dT 0)))) (by decide +kernel)
  exact ⟨r, C35_rounded_nonpositive d (.table hd) _ _ r hr known_gaussian 3 dT h1 dT_order (b64 (dT 2 - dT 0)) (by decide +kernel) 0 _ ⟨_, h2, rfl⟩ (by simp) 0 0 le_rfl h3,
    C35_rounded_poisoned d (.table hd) _ _ r hr known_gaussian 3 dT h1 dT_order (b64 (dT 2 - dT 0)) (by decide +kernel) 0 _ ⟨_, h2, rfl⟩ 0 rfl 1 _ h4 0 (by norm_num)
      (by decide +kernel) (.inl rfl)⟩

theorem miss_order : InOrder 5 fun i => (((i : ℕ) : ℤ) : ℚ) * pow2 0 := by
  intro i j hij hj
  interval_cases j <;> interval_cases i <;> decide +kernel

/-- C35_error_partial, C35_any_partial and C35_any_binary64_partial: the row 1, 0, NaN, 0, 2 at lag 3, which uses no missing value -/
example : ∃ (r : AcResult B) (v : ℚ) (m m' : ℕ) (s s' : ℕ → ℕ), r.At 0 7 (.fin ((3 : ℤ) * pow2 0)) (.fin v) ∧ |v - (-9/22)| ≤ pow2 (-39) ∧
    NearlySelects 5 (fun i => (((i : ℕ) : ℤ) : ℚ) * pow2 0) ((3 : ℤ) * pow2 0) (pow2 (-46)) m s ∧
    NearlySelects 5 (fun i => (((i : ℕ) : ℤ) : ℚ) * pow2 0) ((3 : ℤ) * pow2 0) (pow2 (-46)) m' s' := by
  obtain ⟨d, r, ht, hv, hr, hf⟩ := miss_case (fun r => (r.lags[7]?, r.corr.alpha)) (some (.fin ((3 : ℤ) * pow2 0)), .fin 2) (by decide +kernel)
  have h7 : r.lags[7]? = _ := congrArg Prod.fst hf
  have hα : r.corr.alpha = _ := congrArg Prod.snd hf
  obtain ⟨hmod, hp, hc, hf', hN, hb1, hb2, hb3⟩ := obs_facts64 ht.one_le ht.le hv
  obtain ⟨v, h1, h2⟩ := (C35_error_partial (exactUnit64 0 (by norm_num) (by norm_num)) hmod d ht.built _ ht.times ht.inc 0 _ hv.row hv.bound hp hc hf' _ _ (.inl rfl) r hr 2 hα
    (by norm_num) 7 3 h7 (by norm_num) hv.spread hN hb1 hb2 hb3 (by decide +kernel) (fun i => i + 3) (by unfold Selects IsNearest; decide +kernel)).1
    (by unfold Unaffected; decide +kernel)
  obtain ⟨m, s, h3, _⟩ := C35_any_partial hmod d ht.built ht.times miss_order 0 _ hv.row hv.bound hp hc hf' _ _ (.inl rfl) r hr 2 hα (by norm_num) 7 _ h7 (by decide +kernel)
    hv.spread hN hb1 hb2 hb3 (by decide +kernel)
  obtain ⟨m', s', h4, _⟩ := C35_any_binary64_partial ⟨ht.built, ht.times, miss_order, ht.one_le, ht.le⟩ hv _ _ (.inl rfl) r hr 2 hα (by decide +kernel) 7 _ h7 (by decide +kernel)
    (by decide +kernel)
  have e1 : obsAcf 5 (fun i => ((i : ℤ) : ℚ) * pow2 0) missX (weight (fun x => 1 / (1 - x)) "fractional" 2) (fun i => i + 3) ((3 : ℤ) * pow2 0) = -9/22 := by decide +kernel
  change |v - obsAcf 5 (fun i => ((i : ℤ) : ℚ) * pow2 0) missX (weight (fun x => 1 / (1 - x)) "fractional" 2) (fun i => i + 3) ((3 : ℤ) * pow2 0)| ≤ _ *
    (1 + |obsAcf 5 (fun i => ((i : ℤ) : ℚ) * pow2 0) missX (weight (fun x => 1 / (1 - x)) "fractional" 2) (fun i => i + 3) ((3 : ℤ) * pow2 0)|) at h2
  rw [e1] at h2
  exact ⟨r, v, m, m', s, s', h1, h2.trans (by decide +kernel), h3.mono (by decide +kernel), h4.mono (by decide +kernel)⟩

/-- 0, 0.4, …, 1.6 -/
def fifths (i : ℕ) : ℚ := 2 / 5 * i

/-- values for these times -/
def fifthsX (i : ℕ) : ℚ := [1, 2, 0, 5, 3].getD i 0

theorem fifths_inc : Increasing 5 fifths := fun i j hij _ => mul_lt_mul_of_pos_left (by exact_mod_cast hij) (by norm_num)

/-- C20_below_one_unit_partial: lag 0.6 -/
example : ∃ r : AcResult Q, r.At 0 2 (.fin (3/5)) (.fin (4/185)) := by
  obtain ⟨d, r, hd, hr, h1, h2, h3, h4⟩ := callOf_ok .intAbs (samples 5 fifths : List Q) [samples 5 fifthsX] ⟨some (.fin (2/5)), some (.fin (3/5)), some (.fin (1/5)), some (.fin 2)⟩
    "natural" "fractional" (fun d r => d.timeseries = samples 5 fifths ∧ d.data2d = .ok [samples 5 fifthsX] ∧ r.corr.alpha = .fin 2 ∧ r.lags[2]? = some (.fin (3/5))) (by decide +kernel)
  have h := C20_below_one_unit_partial (j := 0) (x := fifthsX) ⟨.table hd, h1, fifths_inc, ⟨_, h2, rfl⟩, hr, known_fractional, h3, by norm_num⟩ (fun _ _ => rfl)
    (by decide +kernel) (fun i hi => by rw [fifths, fifths]; push_cast; linarith) 2 _
    (by norm_num) h4 (fun i => i + 2) (by
      intro i hi h
      interval_cases i
      · exact ⟨by norm_num, by decide +kernel, by decide +kernel⟩
      · exact ⟨by norm_num, by decide +kernel, by decide +kernel⟩
      · exact ⟨by norm_num, by decide +kernel, by decide +kernel⟩
      · exact absurd h (by decide +kernel)
      · exact absurd h (by decide +kernel))
  refine ⟨r, ?_⟩
  have e : weight (fun x : ℚ => 1 / (1 - x)) "fractional" 2 0 *
      (∑ i ∈ Finset.range 5 with fifths i + 3/5 ≤ fifths (5 - 1), dev 5 fifthsX i * dev 5 fifthsX (i + 2)) / sumSq 5 fifthsX = 4/185 := by decide +kernel
  rw [← e]
  exact h

/-- 0, 1.5, 4 -/
def wholeT (i : ℕ) : ℚ := [0, 3/2, 4].getD i 0

/-- C20_formula_partial: lag 2 -/
example : ∃ r : AcResult Q, r.At 0 1 (.fin 2) (.fin (sacfWhole 3 wholeT wX (weight (fun x => 1 / (1 - x)) "fractional" 1) (fun i => i + 1) (sumSq 3 wX) 2)) := by
  obtain ⟨d, r, hd, hr, h1, h2, h3, h4⟩ := callOf_ok .intAbs (samples 3 wholeT : List Q) [samples 3 wX] ⟨some (.fin 2), some (.fin 2), some (.fin 1), some (.fin 1)⟩
    "natural" "fractional" (fun d r => d.timeseries = samples 3 wholeT ∧ d.data2d = .ok [samples 3 wX] ∧ r.corr.alpha = .fin 1 ∧ r.lags[1]? = some (.fin 2)) (by decide +kernel)
  refine ⟨r, C20_formula_partial ⟨.table hd, h1, ?_, ⟨_, h2, rfl⟩, hr, known_fractional, h3, by norm_num⟩ (fun _ _ => rfl) (by decide +kernel) 1 _ h4 _ ?_⟩
  · intro i j hij hj
    interval_cases j <;> interval_cases i <;> decide +kernel
  · intro i hi h
    interval_cases i
    · exact ⟨2, ⟨by norm_num, by decide +kernel, by decide +kernel⟩, .inl ⟨by norm_num, by decide +kernel, rfl⟩⟩
    · exact ⟨2, ⟨by norm_num, by decide +kernel, by decide +kernel⟩, .inr ⟨.inr (by decide +kernel), rfl⟩⟩
    · exact absurd h (by decide +kernel)

/-- C20_overflow: the default first lag is `-2^31` -/
example : ∃ d : DS B, d.timeseries = b [0, 1073741824, 2147483648] ∧ autocorrelation .intAbs d {} "natural" "gaussian" = .ub := by
  obtain ⟨d, hd, ht, _⟩ := object (b [0, 1073741824, 2147483648]) (b [1, 2, 4]) (by decide) (by decide)
  have e : b [0, 1073741824, 2147483648] = samples 3 fun i => (1073741824 * i : ℚ) := by decide +kernel
  exact ⟨d, ht, C20_overflow d (.flat hd) 3 _ (ht.trans e) (fun i _ => by simp) {} (-2147483648) (.inr ⟨rfl, by decide +kernel⟩) (by decide +kernel) (by norm_num)
    (fun x hx => by cases hx) _⟩

/-- C20_integer_rounded_partial and C20_integer_binary64_partial: times 0, 1, 3; lags from -2 to 5 in steps of 2 and the default ones -/
example : ∃ d : DS B, d.timeseries = b [0, 1, 3] ∧
    autocorrelation .intAbs d ⟨some (.fin (-2)), some (.fin 5), some (.fin 2), none⟩ "natural" "gaussian"
      = autocorrelation .fabs d ⟨some (.fin (-2)), some (.fin 5), some (.fin 2), none⟩ "natural" "gaussian" ∧
    autocorrelation .intAbs d {} "natural" "gaussian" = autocorrelation .fabs d {} "natural" "gaussian" := by
  obtain ⟨d, hd, ht, _⟩ := object (b [0, 1, 3]) (b [1, 2, 6]) (by decide) (by decide)
  have e : b [0, 1, 3] = samples 3 fun i => (eT i : ℚ) := by decide +kernel
  have hu := exactUnit64 (ex := fun x : ℚ => 1 / (1 - x)) (fu := false) 0 (by norm_num) (by norm_num)
  rw [pow2_zero] at hu
  exact ⟨d, ht, C20_integer_rounded_partial hu (by norm_num) d (.flat hd) 3 eT (ht.trans e) eT_inc (by norm_num) _ (some (-2)) (some 5) (some 2) (by simp [dbl]) (by simp [dbl])
    (by simp [dbl]) (by simp) 3 (by simp) (by decide) (by decide) (by simp) (by simp) _ _,
    C20_integer_binary64_partial d (.flat hd) 3 eT (ht.trans e) eT_inc (by norm_num) (by decide) none _ _⟩

/-- times 0, 1 with a negative zero -/
def zT : List BZ := [nzero, SZ.mk' (.fin 1) false]

/-- C62_flat, C62_flatErr, C62_table and C62_tableErr -/
example : ∃ d d' d1 d2 : DS BZ, mkFlat zT [nzero, nzero] = .ok d ∧ mkFlat (b [0, 1]) (b [0, 0]) = .ok (d.mapTo SZ.val) ∧
    mkFlatErr zT [nzero, nzero] [nzero, nzero] = .ok d' ∧ mkFlatErr (b [0, 1]) (b [0, 0]) (b [0, 0]) = .ok (d'.mapTo SZ.val) ∧
    mkTable zT [[nzero, nzero]] = .ok d1 ∧ mkTable (b [0, 1]) [b [0, 0]] = .ok (d1.mapTo SZ.val) ∧
    mkTableErr zT [[nzero, nzero]] [[nzero, nzero]] = .ok d2 ∧ mkTableErr (b [0, 1]) [b [0, 0]] [b [0, 0]] = .ok (d2.mapTo SZ.val) := by
  have h1 := C62_flat zT [nzero, nzero]
  have h2 := C62_flatErr zT [nzero, nzero] [nzero, nzero]
  have h3 := C62_table zT [[nzero, nzero]]
  have h4 := C62_tableErr zT [[nzero, nzero]] [[nzero, nzero]]
  obtain ⟨d, hd, _⟩ := okThen_ok (P := fun _ => true) (z := mkFlat zT [nzero, nzero]) (by decide +kernel)
  obtain ⟨d', hd', _⟩ := okThen_ok (P := fun _ => true) (z := mkFlatErr zT [nzero, nzero] [nzero, nzero]) (by decide +kernel)
  obtain ⟨d1, hd1, _⟩ := okThen_ok (P := fun _ => true) (z := mkTable zT [[nzero, nzero]]) (by decide +kernel)
  obtain ⟨d2, hd2, _⟩ := okThen_ok (P := fun _ => true) (z := mkTableErr zT [[nzero, nzero]] [[nzero, nzero]]) (by decide +kernel)
  have e1 : zT.map SZ.val = b [0, 1] := by decide +kernel
  have e2 : [nzero, nzero].map SZ.val = b [0, 0] := by decide +kernel
  rw [hd, e1, e2] at h1
  rw [hd', e1, e2] at h2
  rw [hd1, List.map_singleton, e1, e2] at h3
  rw [hd2, List.map_singleton, e1, e2] at h4
  exact ⟨d, d', d1, d2, hd, h1, hd', h2, hd1, h3, hd2, h4⟩

/-- C62_file: the text `-0 1`, `1 2` -/
example : ∃ d : DS BZ, mkFile (some "-0 1\n1 2".toList) = .ok d ∧ d.timeseries = nzero :: bz [1] ∧ (mkFile (some "-0 1\n1 2".toList) : Res (DS B)) = .ok (d.mapTo SZ.val) := by
  have h := C62_file (R := R64) (some "-0 1\n1 2".toList)
  obtain ⟨d, hd, h1⟩ := okThen_ok (P := fun d : DS BZ => decide (d.timeseries = nzero :: bz [1])) (z := mkFile (some "-0 1\n1 2".toList)) (by decide +kernel)
  rw [hd] at h
  exact ⟨d, hd, of_decide_eq_true h1, h⟩

/-- times 0, 1, 3 with a negative zero -/
def zT3 : List BZ := [nzero, SZ.mk' (.fin 1) false, SZ.mk' (.fin 3) false]

/-- C62_autocorrelation and C62_inputs: `-0.0` in the data, in the times and as `alpha` -/
example : ∃ (d : DS BZ) (r : List BZ × CorrOut BZ), mkTable zT3 [zT3] = .ok d ∧ acOut .fabs d { alpha := some nzero } "natural" "fractional" = .ok r ∧
    acOut .fabs (d.mapTo SZ.val) { alpha := some (.fin 0) } "natural" "fractional" = .ok (forgetSigns r) ∧
    (((mkTable (bz [0, 1, 3]) [bz [0, 1, 3]]).bind fun d => acOut .fabs d { alpha := some (SZ.mk' (.fin 0) false) } "natural" "fractional").bind fun r => .ok (forgetSigns r))
      = .ok (forgetSigns r) := by
  have h0 := C62_inputs (bz [0, 1, 3]) zT3 [bz [0, 1, 3]] [zT3] (by decide +kernel) (by decide +kernel) { alpha := some (SZ.mk' (.fin 0) false) } { alpha := some nzero } rfl
    .fabs "natural" "fractional"
  obtain ⟨d, hd, _⟩ := tableObject zT3 [zT3] (by simp [zT3]) (by simp) (by simp)
  obtain ⟨r, hr, _⟩ := okThen_ok (P := fun _ => true) (z := (mkTable zT3 [zT3]).bind fun d => acOut .fabs d { alpha := some nzero } "natural" "fractional") (by decide +kernel)
  rw [hr] at h0
  rw [hd, Res.ok_bind] at hr
  have h := C62_autocorrelation .fabs d (.table hd) { alpha := some nzero } "natural" "fractional"
  rw [hr] at h
  exact ⟨d, r, hd, hr, h, h0⟩

end Sacf
