import Verif.Props.MissingTimes
import Verif.Cases.Base

/-!
# Cases for Props/MissingTimes.lean
-/

namespace Sacf

/-- the times 0, 1, 2, 3, 4, 5, 6, of which number 2 is missing -/
def missT (i : ℕ) : ℚ := i
def missAt (i : ℕ) : Bool := decide (i = 2)

theorem missT_order : InOrder 7 missT := fun i j hij _ => by
  show (i : ℚ) ≤ j
  exact_mod_cast hij

/-- object, rows and result of a call on a table -/
theorem callRows {F : Type} [Arith F] (t : List F) (rows : List (List F)) (g : LagArgs F) (sel wt : String) (P : AcResult F → Prop) [∀ r, Decidable (P r)] (ht : t ≠ [])
    (hr : rows ≠ []) (hl : ∀ r ∈ rows, r.length = t.length) (h : okThen (fun z => decide (P z.2)) (callOf .fabs t rows g sel wt) = true) :
    ∃ d r, Constructed d ∧ d.timeseries = t ∧ (∀ j row, rows[j]? = some row → d.HasRow j row) ∧ autocorrelation .fabs d g sel wt = .ok r ∧ P r := by
  obtain ⟨d, r, hd, hr', hP⟩ := callOf_ok .fabs t rows g sel wt (fun _ r => P r) h
  obtain ⟨d', hd', h1, h2⟩ := tableObject t rows ht hr hl
  obtain rfl : d' = d := by rw [hd] at hd'; exact (Res.ok.inj hd').symm
  exact ⟨d', r, .table hd, h1, h2, hr', hP⟩

/-- C119_natural in binary64: NaN at lags 0 and -3, in two datasets, though alpha and the values are numbers. -/
example : ∃ (d : DS B) (r : AcResult B), autocorrelation .fabs d ⟨none, none, none, some (.fin 1)⟩ "natural" "gaussian" = .ok r ∧
    r.At 0 6 (.fin 0) .nan ∧ r.At 1 3 (.fin (-3)) .nan := by
  obtain ⟨d, r, hd, h1, h2, hr, hl⟩ := callRows (withMissing 7 missT missAt : List B) [b [1, 2, 3, 5, 4, 7, 1], b [2, 1, 0, 5, 4, 7, 3]] ⟨none, none, none, some (.fin 1)⟩
    "natural" "gaussian" (fun r => r.lags[6]? = some (.fin 0) ∧ r.lags[3]? = some (.fin (-3))) (by decide +kernel) (by decide +kernel) (by decide +kernel) (by decide +kernel)
  exact ⟨d, r, hr, C119_natural .fabs d hd 7 missT missAt h1 missT_order rfl rfl 2 (by norm_num) rfl _ _ r hr 6 0 le_rfl hl.1 0 _ (h2 0 _ rfl),
    C119_natural .fabs d hd 7 missT missAt h1 missT_order rfl rfl 2 (by norm_num) rfl _ _ r hr 3 (-3) (by norm_num) hl.2 1 _ (h2 1 _ rfl)⟩

/-- C119_fast in binary64: NaN at lag 0; at lag 5 the value is a number (the loop stops at the time 1, before the missing one). -/
example : ∃ (d : DS B) (r : AcResult B), autocorrelation .fabs d ⟨none, none, none, some (.fin 1)⟩ "fast" "fractional" = .ok r ∧
    r.At 1 6 (.fin 0) .nan ∧ r.lags[11]? = some (.fin 5) ∧ (r.corrs.rows[1]?.bind fun row => row[11]?) ≠ some .nan := by
  obtain ⟨d, r, hd, h1, h2, hr, hl⟩ := callRows (withMissing 7 missT missAt : List B) [b [1, 2, 3, 5, 4, 7, 1], b [2, 1, 0, 5, 4, 7, 3]] ⟨none, none, none, some (.fin 1)⟩
    "fast" "fractional" (fun r => r.lags[6]? = some (.fin 0) ∧ r.lags[11]? = some (.fin 5) ∧ (r.corrs.rows[1]?.bind fun row => row[11]?) ≠ some .nan) (by decide +kernel)
    (by decide +kernel) (by decide +kernel) (by decide +kernel)
  exact ⟨d, r, hr, C119_fast .fabs d hd 7 missT missAt h1 rfl rfl 2 (by norm_num) rfl (fun q hq _ => by interval_cases q <;> decide +kernel) _ _ r hr 6 0 le_rfl hl.1 1 _
    (h2 1 _ rfl), hl.2⟩

/-- C119_exact: NaN at lag 5 with the natural selection (0 + 5 and 1 + 5 are not beyond 6), and at lag 4 with the fast one. -/
example : ∃ (d : DS Q) (r : AcResult Q), autocorrelation .fabs d ⟨none, none, none, some (.fin 1)⟩ "natural" "fractional" = .ok r ∧ r.At 0 11 (.fin 5) .nan := by
  obtain ⟨d, r, hd, h1, h2, hr, hl⟩ := callRows (withMissing 7 missT missAt : List Q) [q [1, 2, 3, 5, 4, 7, 1]] ⟨none, none, none, some (.fin 1)⟩
    "natural" "fractional" (fun r => r.lags[11]? = some (.fin 5)) (by decide +kernel) (by decide +kernel) (by decide +kernel) (by decide +kernel)
  exact ⟨d, r, hr, C119_exact .fabs d hd 7 missT missAt h1 rfl rfl 2 (by norm_num) rfl _ _ _ r hr 11 5 (fun q hq _ => by interval_cases q <;> decide +kernel) hl 0 _ (h2 0 _ rfl)⟩

example : ∃ (d : DS Q) (r : AcResult Q), autocorrelation .fabs d ⟨none, none, none, some (.fin 1)⟩ "fast" "fractional" = .ok r ∧ r.At 0 10 (.fin 4) .nan := by
  obtain ⟨d, r, hd, h1, h2, hr, hl⟩ := callRows (withMissing 7 missT missAt : List Q) [q [1, 2, 3, 5, 4, 7, 1]] ⟨none, none, none, some (.fin 1)⟩
    "fast" "fractional" (fun r => r.lags[10]? = some (.fin 4)) (by decide +kernel) (by decide +kernel) (by decide +kernel) (by decide +kernel)
  exact ⟨d, r, hr, C119_exact .fabs d hd 7 missT missAt h1 rfl rfl 2 (by norm_num) rfl _ _ _ r hr 10 4 (fun q hq _ => by interval_cases q <;> decide +kernel) hl 0 _ (h2 0 _ rfl)⟩

/-- C119_ends: the last time missing, or the first infinite. -/
example : ∃ d : DS B, mkFlat [.fin 0, .fin 1, .nan] (b [1, 2, 4]) = .ok d ∧ autocorrelation .fabs d = .ub := by
  obtain ⟨d, hd, h1, _⟩ := object (F := B) [.fin 0, .fin 1, .nan] (b [1, 2, 4]) (by simp) rfl
  exact ⟨d, hd, (C119_ends .fabs d (.flat hd) (.fin 0) .nan (by rw [h1]; rfl) (by rw [h1]; rfl) (.inr fun h => h)).2 _ _ _⟩

example : ∃ d : DS B, mkFlat [.ninf, .fin 1, .fin 2] (b [1, 2, 4]) = .ok d ∧ Corr.new d = .ub := by
  obtain ⟨d, hd, h1, _⟩ := object (F := B) [.ninf, .fin 1, .fin 2] (b [1, 2, 4]) (by simp) rfl
  exact ⟨d, hd, (C119_ends .fabs d (.flat hd) .ninf (.fin 2) (by rw [h1]; rfl) (by rw [h1]; rfl) (.inl fun h => h)).1⟩

/-- C119_resolution: the times 0, NaN, 0.5, 2.5, 4 have resolution 1.5, though 0 and 0.5 are nearer; with every other time missing it is `DBL_MAX`. -/
def missU (i : ℕ) : ℚ := ([0, 0, 1/2, 5/2, 4] : List ℚ).getD i 0

example : ∃ (d : DS Q) (c : Corr Q), d.timeseries = [.fin 0, .nan, .fin (1/2), .fin (5/2), .fin 4] ∧ Corr.new d = .ok c ∧ c.lagRes = .fin (3/2) := by
  obtain ⟨d, c, hd, hc, h⟩ := newOf_ok (withMissing 5 missU (fun i => decide (i = 1)) : List Q) [q [1, 2, 6, 1, 1]] (fun d _ =>
    d.timeseries = withMissing 5 missU (fun i => decide (i = 1)) ∧ d.timeseries = [.fin 0, .nan, .fin (1/2), .fin (5/2), .fin 4]) (by decide +kernel)
  refine ⟨d, c, h.2, hc, (C119_resolution d (.table hd) 5 missU _ h.1 rfl ?_ c hc).1 (3/2) ⟨3, by norm_num, rfl, rfl, by decide +kernel⟩ ?_⟩
  · intro i hi
    have : i < 4 := by omega
    interval_cases i <;> decide +kernel
  · intro i hi
    have : i < 4 := by omega
    interval_cases i <;> decide +kernel

example : ∃ (d : DS Q) (c : Corr Q), d.timeseries = [.fin 0, .nan, .fin (1/2), .nan, .fin 4] ∧ Corr.new d = .ok c ∧ c.lagRes = Arith.dblMax := by
  obtain ⟨d, c, hd, hc, h⟩ := newOf_ok (withMissing 5 missU (fun i => decide (i % 2 = 1)) : List Q) [q [1, 2, 6, 1, 1]] (fun d _ =>
    d.timeseries = withMissing 5 missU (fun i => decide (i % 2 = 1)) ∧ d.timeseries = [.fin 0, .nan, .fin (1/2), .nan, .fin 4]) (by decide +kernel)
  refine ⟨d, c, h.2, hc, (C119_resolution d (.table hd) 5 missU _ h.1 rfl ?_ c hc).2 ?_⟩
  · intro i hi
    have : i < 4 := by omega
    interval_cases i <;> decide +kernel
  · intro i hi
    have : i < 4 := by omega
    interval_cases i <;> decide +kernel

/-- C119_infinite: the times 0, inf, 2, 3 give a `Correlator` with resolution -inf, and no default call returns. -/
example : ∃ (d : DS B) (c : Corr B), d.timeseries = [.fin 0, .pinf, .fin 2, .fin 3] ∧ Corr.new d = .ok c ∧ c.lagRes = .ninf ∧
    ∀ r, autocorrelation .fabs d ≠ .ok r := by
  obtain ⟨d, c, hd, hc, h⟩ := newOf_ok ([.fin 0, .pinf, .fin 2, .fin 3] : List B) [b [1, 2, 6, 1]] (fun d _ => d.timeseries = [.fin 0, .pinf, .fin 2, .fin 3])
    (by decide +kernel)
  have hs : (XF.round (3 - 0) : B) = .fin 3 := by decide +kernel
  have hi := C119_infinite .fabs d (.table hd) 0 3 (by rw [h]; rfl) (by rw [h]; rfl) (by rw [hs]; trivial) (by norm_num) (by rw [h]; decide +kernel)
    (by rw [h]; decide +kernel)
  exact ⟨d, c, h, hc, hi.1 c hc, hi.2 none _ _⟩

/-- C119_middle in binary64: of the times 0, 1, NaN, 3, 4 the middle one is missing: NaN at every lag of a default call, lag 4 included. -/
example : ∃ (d : DS B) (r : AcResult B), autocorrelation .fabs d = .ok r ∧ r.lags.length = 9 ∧ r.At 0 8 (.fin 4) .nan := by
  obtain ⟨d, r, hd, h1, h2, hr, hl⟩ := callRows (withMissing 5 missT missAt : List B) [b [1, 2, 3, 5, 4]] {} "natural" "fractional"
    (fun r => r.lags.length = 9 ∧ r.lags[8]? = some (.fin 4)) (by decide +kernel) (by decide +kernel) (by decide +kernel) (by decide +kernel)
  exact ⟨d, r, hr, hl.1, (C119_middle .fabs d hd 5 missT missAt h1 rfl rfl (.inl rfl) none none none _ _ r hr 8 4 (by decide +kernel) hl.2 0 _ (h2 0 _ rfl)).2⟩

end Sacf
