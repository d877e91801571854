import Verif.Cases.Base
import Verif.Props.Stats

/-! Cases for `Props/Stats.lean`. -/

namespace Sacf

/-- times 5, 7, 12 -/
def caseT (i : ℕ) : ℚ := [5, 7, 12].getD i 0

theorem caseT_inc : Increasing 3 caseT := by
  intro i j hij hj
  interval_cases j <;> interval_cases i <;> decide +kernel

theorem caseT_gap : IsMinGap 3 caseT 2 := by
  refine ⟨⟨0, 1, by norm_num, by norm_num, by decide +kernel⟩, fun i j hij hj => ?_⟩
  interval_cases j <;> interval_cases i <;> decide +kernel

theorem caseT_object : ∃ d : DS Q, mkFlat (samples 3 caseT) (samples 3 wX) = .ok d ∧ d.timeseries = samples 3 caseT ∧ d.HasRow 0 (samples 3 wX) :=
  object _ _ (by simp [samples]) (by simp [samples])

/-- C04_normalised_times -/
example : ∃ (d : DS Q) (u : ℕ → ℚ), d.timeseries = samples 3 caseT ∧ d.normalisedTimeseries = samples 3 u ∧ u 0 = 0 ∧ u 2 - u 1 = 5 ∧ Increasing 3 u := by
  obtain ⟨d, hd, ht, _⟩ := caseT_object
  obtain ⟨u, h1, h2, h3, h4⟩ := C04_normalised_times d (.flat hd) 3 caseT ht
  exact ⟨d, u, ht, h1, h2, (h3 1 2).trans (by decide +kernel), h4 caseT_inc⟩

/-- C04_shift: by 10 -/
example : ∃ d d' : DS Q, d.timeseries = q [5, 7, 12] ∧ d'.timeseries = q [15, 17, 22] ∧ d'.normalisedTimeseries = d.normalisedTimeseries ∧
    d'.medianTime = d.medianTime := by
  obtain ⟨d, hd, ht, _⟩ := caseT_object
  obtain ⟨d', hd', ht'⟩ : ∃ d' : DS Q, mkFlat (samples 3 fun i => caseT i + 10) (samples 3 wX) = .ok d' ∧ d'.timeseries = samples 3 fun i => caseT i + 10 := ⟨_, rfl, rfl⟩
  have h := C04_shift d d' (.flat hd) (.flat hd') 3 caseT 10 ht ht'
  exact ⟨d, d', ht.trans (by decide +kernel), ht'.trans (by decide +kernel), h⟩

/-- C04_rounded, in binary64: times 1/8, 2/8, 3/8 -/
example : ∃ d : DS B, d.normalisedTimeseries.length = 3 ∧ d.normalisedTimeseries[0]? = some (.fin 0) ∧ d.normalisedTimeseries.Pairwise fun a b => Arith.le a b = true := by
  obtain ⟨d, hd, ht⟩ : ∃ d : DS B, mkFlat (samples 3 fun i : ℕ => (i + 1 : ℚ) / 8) (samples 3 wX) = .ok d ∧ d.timeseries = samples 3 fun i : ℕ => (i + 1 : ℚ) / 8 := ⟨_, rfl, rfl⟩
  obtain ⟨h1, h2, h3⟩ := C04_rounded d (.flat hd) 3 _ ht
  refine ⟨d, by rw [h1, ht]; rfl, h2, h3 fun i j hij _ => ?_⟩
  have : (i : ℚ) ≤ j := by exact_mod_cast hij
  linarith

/-- C05_means: 1, NaN, 4 -/
example : ∃ (d : DS Q) (μ : ℚ) (y : ℕ → Option ℚ), d.meanData[0]? = some (.fin μ) ∧ μ * 2 = 5 ∧ ∑ i ∈ Finset.range 3, (y i).getD 0 = 0 := by
  let x : ℕ → Option ℚ := fun i => [some 1, none, some 4].getD i none
  obtain ⟨d, hd, _, hrow⟩ := object (samples 3 wT : List Q) (obs 3 x) (by simp [samples]) (by simp [samples, obs])
  have hp : present 3 x = 2 := by decide +kernel
  obtain ⟨μ, y, rows, h1, h2, _, _, _, h6⟩ := C05_means d (.flat hd) 3 x 0 hrow (by rw [hp]; norm_num)
  have e : ∑ i ∈ Finset.range 3, (x i).getD 0 = 5 := by decide +kernel
  rw [hp, e] at h2
  exact ⟨d, μ, y, h1, by exact_mod_cast h2, h6⟩

/-- C05_all_missing: the second of two rows -/
example : ∃ d : DS Q, d.meanData[1]? = some .nan := by
  obtain ⟨d, hd, _, hrow⟩ := tableObject (samples 3 wT : List Q) [samples 3 wX, List.replicate 3 .nan] (by simp [samples]) (by simp) (by simp [samples])
  exact ⟨d, C05_all_missing d (.table hd) 3 1 (hrow 1 _ rfl)⟩

/-- C06_median -/
example : ∃ (d : DS Q) (m : ℚ), d.timeseries = samples 3 caseT ∧ d.medianTime = .fin m ∧ 0 < m ∧ m ≤ 7 := by
  obtain ⟨d, hd, ht, _⟩ := caseT_object
  obtain ⟨m, u, h1, _, _, _, _, h6, h7⟩ := C06_median d (.flat hd) 3 caseT ht caseT_inc
  exact ⟨d, m, ht, h1, h7 (by norm_num), h6.trans (by decide +kernel)⟩

/-- C07_max_time and C07_last -/
example : ∃ d : DS Q, d.timeseries = samples 3 caseT ∧ (d.maxTime ∈ d.timeseries ∧ ∀ x ∈ d.timeseries, Arith.le x d.maxTime = true) ∧ d.maxTime = .fin 12 := by
  obtain ⟨d, hd, ht, _⟩ := caseT_object
  have h := C07_max_time d (.flat hd) 3 caseT ht fun i j hij hj => by
    rcases eq_or_lt_of_le hij with rfl | h
    · exact le_rfl
    · exact (caseT_inc i j h hj).le
  have h2 := C07_last d (.flat hd)
  rw [ht] at h2
  exact ⟨d, ht, h, (Option.some.inj h2).symm.trans (by decide +kernel)⟩

/-- C15_defaults -/
example : ∃ (d : DS Q) (c : Corr Q), Corr.new d = .ok c ∧ c.maxLag = .fin 7 ∧ c.minLag = .fin (-7) ∧ c.alpha = d.medianTime ∧
    ∃ δ, c.lagRes = .fin δ ∧ IsMinGap 3 caseT δ := by
  obtain ⟨d, c, hd, hc, ht⟩ := newOf_ok (samples 3 caseT : List Q) [samples 3 wX] (fun d _ => d.timeseries = samples 3 caseT) (by decide +kernel)
  obtain ⟨h1, h2, h3⟩ := C15_defaults d (.table hd) 3 caseT ht (by norm_num) caseT_inc (by decide +kernel) c hc
  exact ⟨d, c, hc, h1.trans (by decide +kernel), h2.trans (by decide +kernel), h3⟩

/-- C15_overrides: a largest lag and `alpha` given -/
example : ∃ (d : DS Q) (r : AcResult Q) (c0 : Corr Q), Corr.new d = .ok c0 ∧ r.corr.maxLag = .fin 4 ∧ r.corr.minLag = c0.minLag ∧ r.corr.lagRes = c0.lagRes ∧
    r.corr.alpha = .fin 9 := by
  obtain ⟨d, r, hd, hr, _⟩ := callOf_ok .fabs (samples 3 caseT : List Q) [samples 3 wX] { maxLag := some (.fin 4), alpha := some (.fin 9) } "natural" "fractional"
    (fun _ _ => True) (by decide +kernel)
  obtain ⟨d', c0, hd', h0, _⟩ := newOf_ok (samples 3 caseT : List Q) [samples 3 wX] (fun _ _ => True) (by decide +kernel)
  obtain rfl : d = d' := Res.ok.inj (hd.symm.trans hd')
  obtain ⟨h1, h2, h3, h4⟩ := C15_overrides .fabs d (.table hd) _ _ _ r hr c0 h0
  exact ⟨d, r, c0, h0, h1, h2, h3, h4⟩

/-- C16_increasing_partial -/
example : ∃ (d : DS Q) (c : Corr Q), Corr.new d = .ok c ∧ c.lagTimeseries.length = 10 := by
  obtain ⟨d, hd, ht, _⟩ := caseT_object
  obtain ⟨h, _⟩ := C16_increasing_partial d (.flat hd) 3 caseT ht (by norm_num) caseT_inc (by decide +kernel) 2 caseT_gap
  have e : ⌊2 * (caseT (3 - 1) - caseT 0) / 2⌋ = 7 := by decide +kernel
  rw [e] at h
  obtain ⟨c, h1, h2⟩ := h (by norm_num)
  exact ⟨d, c, h1, by exact_mod_cast h2⟩

/-- C16_increasing_partial, too many lags for an `int`: times 0, 10^-10, 1 -/
example : ∃ d : DS Q, d.timeseries = q [0, 1 / 10 ^ 10, 1] ∧ Corr.new d = .ub := by
  let t : ℕ → ℚ := fun i => [0, 1 / 10 ^ 10, 1].getD i 0
  obtain ⟨d, hd, ht, _⟩ := object (samples 3 t : List Q) (samples 3 wX) (by simp [samples]) (by simp [samples])
  have hinc : Increasing 3 t := by
    intro i j hij hj
    interval_cases j <;> interval_cases i <;> decide +kernel
  have hgap : IsMinGap 3 t (1 / 10 ^ 10) := by
    refine ⟨⟨0, 1, by norm_num, by norm_num, by decide +kernel⟩, fun i j hij hj => ?_⟩
    interval_cases j <;> interval_cases i <;> decide +kernel
  exact ⟨d, ht.trans (by decide +kernel), (C16_increasing_partial d (.flat hd) 3 t ht (by norm_num) hinc (by decide +kernel) _ hgap).2 (by decide +kernel)⟩

/-- C16_single_partial -/
example : ∃ (d : DS Q) (c : Corr Q), d.timeseries = [.fin 4] ∧ Corr.new d = .ok c ∧ c.lagTimeseries.length = 3 := by
  obtain ⟨d, hd, ht⟩ : ∃ d : DS Q, mkFlat [.fin 4] [.fin 1] = .ok d ∧ d.timeseries = [.fin 4] := ⟨_, rfl, rfl⟩
  obtain ⟨c, h⟩ := C16_single_partial d (.flat hd) 4 ht (by decide +kernel)
  exact ⟨d, c, ht, h⟩

/-- C16_repeated_time: 0, 2, 2, 3 -/
example : ∃ d : DS Q, d.timeseries = q [0, 2, 2, 3] ∧ Corr.new d = .ub := by
  let t : ℕ → ℚ := fun i => [0, 2, 2, 3].getD i 0
  obtain ⟨d, hd, ht, _⟩ := object (samples 4 t : List Q) (samples 4 wX') (by simp [samples]) (by simp [samples])
  refine ⟨d, ht.trans (by decide +kernel), C16_repeated_time d (.flat hd) 4 t ht (fun i j hij hj => ?_) (by decide +kernel) 1 (by norm_num) (by decide +kernel)⟩
  interval_cases j <;> interval_cases i <;> decide +kernel

end Sacf
