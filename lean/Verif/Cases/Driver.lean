import Verif.Cases.Base
import Verif.Props.Driver

/-! Cases for `Props/Driver.lean`. -/

namespace Sacf

/-- object and `Correlator` for times 0, 1, 3 and values 1, 2, 6 -/
theorem new3 : ∃ (d : DS Q) (c : Corr Q), Constructed d ∧ Corr.new d = .ok c ∧ d.N = 1 ∧ c.minLag = .fin (-3) ∧ c.maxLag = .fin 3 ∧ c.lagRes = .fin 1 ∧
    c.lagTimeseries.length = 9 ∧ c.ds = d := by
  obtain ⟨d, c, hd, hc, h1, h2, h3, h4, h5⟩ := newOf_ok (samples 3 wT : List Q) [samples 3 wX] (fun d c => d.N = 1 ∧ c.minLag = .fin (-3) ∧ c.maxLag = .fin 3 ∧
    c.lagRes = .fin 1 ∧ c.lagTimeseries.length = 9) (by decide +kernel)
  exact ⟨d, c, .table hd, hc, h1, h2, h3, h4, h5, (C41_history .fabs d (.table hd) c c hc [] (by simp) rfl).2.2⟩

/-- C21_safe_iff_partial: 4 grid points from -2 in steps of 3/2, and 0 to insert -/
example : ∃ d : DS Q, autocorrelation .fabs d ⟨some (.fin (-2)), some (.fin (5/2)), some (.fin (3/2)), none⟩ "natural" "gaussian" ≠ .ub := by
  obtain ⟨d, c, hd, hc, _, _, _, _, hl, _⟩ := new3
  have hg : GridCount (.fin (-2) : Q) (.fin (5/2)) (.fin (3/2)) 4 := ⟨by decide +kernel, by decide +kernel⟩
  refine ⟨d, fun h => (C21_safe_iff_partial d hd ⟨some (.fin (-2)), some (.fin (5/2)), some (.fin (3/2)), none⟩ "gaussian" known_gaussian c hc).1 h ⟨4, hg, ?_⟩⟩
  unfold lagTotal
  rw [hl]
  split <;> norm_num

/-- C21_safe_iff_partial: 13 grid points, 9 places -/
example : ∃ d : DS Q, autocorrelation .fabs d { lagRes := some (.fin (1/2)) } "natural" "gaussian" = .ub := by
  obtain ⟨d, c, hd, hc, _, h1, h2, _, hl, _⟩ := new3
  refine ⟨d, (C21_safe_iff_partial d hd { lagRes := some (.fin (1/2)) } "gaussian" known_gaussian c hc).2 ?_⟩
  rintro ⟨m, hm, hle⟩
  have hm' : GridCount c.minLag c.maxLag (.fin (1/2)) m := hm
  have hle' : lagTotal c.minLag (.fin (1/2) : Q) m ≤ c.lagTimeseries.length := hle
  rw [h1, h2] at hm'
  rw [hl] at hle'
  have hm9 : m ≤ 9 := le_trans (by unfold lagTotal; omega) hle'
  have : ∀ i ≤ 9, Arith.le (gridPt (.fin (-3) : Q) (.fin (1/2)) i) (.fin 3) = true := by decide +kernel
  have h3 := hm'.2
  rw [this m hm9] at h3
  exact absurd h3 (by simp)

/-- C22_shape: one row -/
example : ∃ (r : AcResult Q) (row : List Q), r.corrs = .flat row ∧ row.length = r.lags.length ∧ r.corr.lagTimeseries.length = 7 := by
  obtain ⟨d, r, hd, hr, hN, hl⟩ := callOf_ok .fabs (samples 3 wT : List Q) [samples 3 wX] {} "natural" "fractional" (fun d r => d.N = 1 ∧ r.lags.length = 7)
    (by decide +kernel)
  obtain ⟨h1, _, h3⟩ := C22_shape .fabs d (.table hd) _ _ _ r hr
  obtain ⟨row, h4, h5⟩ := h1 hN
  exact ⟨r, row, h4, h5, h3.trans hl⟩

/-- C22_shape: two rows -/
example : ∃ (r : AcResult Q) (rows : List (List Q)), r.corrs = .table rows ∧ rows.length = 2 ∧ ∀ row ∈ rows, row.length = r.lags.length := by
  obtain ⟨d, r, hd, hr, hN⟩ := callOf_ok .fabs (samples 3 wT : List Q) [q [1, 2, 6], q [4, 0, 5]] {} "natural" "fractional_squared" (fun d _ => d.N = 2) (by decide +kernel)
  obtain ⟨_, h2, _⟩ := C22_shape .fabs d (.table hd) _ _ _ r hr
  obtain ⟨rows, h4, h5, h6⟩ := h2 (by omega)
  exact ⟨r, rows, h4, h5.trans hN, h6⟩

/-- C23_independent: the second of two rows -/
example : ∃ d dj : DS Q, mkTable (q [0, 1, 3]) [q [1, 2, 6], q [4, 0, 5]] = .ok d ∧ mkTable (q [0, 1, 3]) [q [4, 0, 5]] = .ok dj ∧
    (autocorrelation .fabs d).bind (fun r => .ok (r.lags, r.corrs.rows[1]?)) = (autocorrelation .fabs dj).bind (fun r => .ok (r.lags, r.corrs.rows[0]?)) := by
  obtain ⟨d, hd, _⟩ := tableObject (q [0, 1, 3]) [q [1, 2, 6], q [4, 0, 5]] (by simp [q]) (by simp) (by simp [q])
  obtain ⟨dj, h1, h2⟩ := C23_independent .fabs _ _ (by simp [q]) d hd 1 _ rfl {} "natural" "fractional"
  exact ⟨d, dj, hd, h1, h2⟩

/-- C23_select: rows swapped and one left out -/
example : ∃ d d' : DS Q, mkTable (q [0, 1, 3]) [q [1, 2, 6], q [4, 0, 5], q [7, 7, 8]] = .ok d ∧ mkTable (q [0, 1, 3]) [q [7, 7, 8], q [1, 2, 6]] = .ok d' ∧
    (autocorrelation .intAbs d).bind (fun r => .ok (r.lags, r.corrs.rows[0]?)) = (autocorrelation .intAbs d').bind (fun r => .ok (r.lags, r.corrs.rows[1]?)) := by
  obtain ⟨d, hd, _⟩ := tableObject (q [0, 1, 3]) [q [1, 2, 6], q [4, 0, 5], q [7, 7, 8]] (by simp [q]) (by simp) (by simp [q])
  obtain ⟨d', hd', _⟩ := tableObject (q [0, 1, 3]) [q [7, 7, 8], q [1, 2, 6]] (by simp [q]) (by simp) (by simp [q])
  exact ⟨d, d', hd, hd', C23_select .intAbs _ _ (by simp [q]) d hd _ (by simp) d' hd' 0 1 _ rfl rfl {} "natural" "fractional"⟩

/-- C24_drivers_agree: on a `Correlator` as made from an object -/
example : ∃ c : Corr Q, c.lagTimeseries.length = 9 ∧ pyFindCorrelation .fabs c "natural" "fractional" = Corr.calculateStandardCorrelation .fabs c := by
  obtain ⟨d, c, hd, hc, _, h1, h2, _, hl, _⟩ := new3
  exact ⟨c, hl, C24_drivers_agree .fabs c (by rw [h1, h2]; decide +kernel)⟩

/-- C37_unknown_selection and C37_unknown_weight -/
example : ∃ d : DS Q, autocorrelation .fabs d { maxLag := some (.fin 1) } "Natural" "gauss" = .exn (.keyError "Natural") ∧
    autocorrelation .fabs d { maxLag := some (.fin 1) } "natural" "gauss" = .exn (.keyError "gauss") := by
  obtain ⟨d, c, hd, hc, _, h1, h2, _, hl, _⟩ := new3
  have hle : Arith.le (Option.getD (none : Option Q) c.minLag) (Option.getD (some (.fin 1)) c.maxLag) = true := by rw [h1, h2]; decide +kernel
  exact ⟨d, C37_unknown_selection .fabs d hd { maxLag := some (.fin 1) } _ _ (by decide) (by decide) c hc hle,
    C37_unknown_weight d hd { maxLag := some (.fin 1) } "gauss" (by unfold KnownWeight; decide) c hc hle⟩

/-- C37_known_names: an empty range -/
example : ∃ (d : DS Q) (e : Exc), autocorrelation .fabs d { maxLag := some (.fin (-4)) } "fast" "gaussian" = .exn e ∧ (e = .indexError ∨ e = .unboundLocal) := by
  obtain ⟨d, c, hd, hc, _, h1, h2, _, hl, _⟩ := new3
  have hle : Arith.le (Option.getD (none : Option Q) c.minLag) (Option.getD (some (.fin (-4))) c.maxLag) = false := by rw [h1, h2]; decide +kernel
  have h := (C38_empty_range_partial .fabs d hd { maxLag := some (.fin (-4)) } "fast" "gaussian" c hc hle).2 (by decide)
  exact ⟨d, _, h, C37_known_names .fabs d hd _ _ _ (.inl rfl) known_gaussian _ h⟩

/-- C38_empty_range_partial -/
example : ∃ (d : DS Q) (r : AcResult Q), autocorrelation .fabs d { maxLag := some (.fin (-4)) } = .ok r ∧ r.lags = [] ∧ r.corrs.rows = [[]] ∧
    autocorrelation .fabs d { maxLag := some (.fin (-4)) } "natural" "gaussian" = .exn .unboundLocal := by
  obtain ⟨d, c, hd, hc, hN, h1, h2, _, hl, _⟩ := new3
  have hle : Arith.le (Option.getD (none : Option Q) c.minLag) (Option.getD (some (.fin (-4))) c.maxLag) = false := by rw [h1, h2]; decide +kernel
  obtain ⟨r, h3, h4, h5⟩ := (C38_empty_range_partial .fabs d hd { maxLag := some (.fin (-4)) } "natural" "fractional" c hc hle).1 ⟨rfl, rfl⟩
  rw [hN] at h5
  exact ⟨d, r, h3, h4, h5, (C38_empty_range_partial .fabs d hd { maxLag := some (.fin (-4)) } "natural" "gaussian" c hc hle).2 (by decide)⟩

/-- C39_natural_total and C43_reads_cleared_vector_partial: lag 1 -/
example : ∃ (d : DS Q) (c : Corr Q) (it it' : CorrIt Q), Corr.naturalSelection .fabs c (CorrIt.new (.fin 1) 1) = .ok it ∧ (∀ j ∈ it.selection, j < d.M) ∧
    Corr.deltaT .fabs c it = .ok it' ∧ it'.deltaT.length = it.selection.length ∧ it.shifted.elems = [] ∧ (it.selection ≠ [] → deltaTStrict .fabs c it = .ub) := by
  obtain ⟨d, c, hd, hc, hN, h1, h2, _, hl, hds⟩ := new3
  obtain ⟨it, it', h3, h4, _, h5, h6⟩ := C39_natural_total d hd c hds (.fin 1) 1
  obtain ⟨h7, h8, _⟩ := C43_reads_cleared_vector_partial d hd c hds _ _ it h3
  exact ⟨d, c, it, it', h3, h4, h5, h6, h7, h8⟩

/-- the calls of the next cases: a smaller range, computed twice, then `alpha` set -/
def caseCalls : List (CorrCall Q) := [.setMaxLag (.fin 2), .calculate, .setMinLag (.fin 0), .findCorrelation "natural" "gaussian", .setAlpha (.fin 4)]

theorem caseCalls_ok : ∃ (d : DS Q) (c0 c c' : Corr Q), Constructed d ∧ Corr.new d = .ok c0 ∧ runCalls .fabs c0 caseCalls = .ok c ∧
    c.calculateStandardCorrelation .fabs = .ok c' ∧ d.N = 1 ∧ c.minLag = .fin 0 ∧ c.maxLag = .fin 2 ∧ c.lagTimeseries = q [0, 1, 2] := by
  obtain ⟨⟨d, c0, c, c'⟩, hz, h⟩ := okThen_ok (z := (mkTable (q [0, 1, 3]) [q [1, 2, 6]]).bind fun d => (Corr.new d).bind fun c0 => (runCalls .fabs c0 caseCalls).bind fun c =>
    (c.calculateStandardCorrelation .fabs).bind fun c' => .ok (d, c0, c, c'))
    (P := fun z : DS Q × Corr Q × Corr Q × Corr Q => decide (z.1.N = 1 ∧ z.2.2.1.minLag = .fin 0 ∧ z.2.2.1.maxLag = .fin 2 ∧ z.2.2.1.lagTimeseries = q [0, 1, 2]))
    (by decide +kernel)
  obtain ⟨d', h1, hz⟩ := Res.bind_eq_ok.1 hz
  obtain ⟨c0', h2, hz⟩ := Res.bind_eq_ok.1 hz
  obtain ⟨c1, h3, hz⟩ := Res.bind_eq_ok.1 hz
  obtain ⟨c2, h4, hz⟩ := Res.bind_eq_ok.1 hz
  simp only [Res.ok.injEq, Prod.mk.injEq] at hz
  obtain ⟨rfl, rfl, rfl, rfl⟩ := hz
  exact ⟨d', c0', c1, c2, .table h1, h2, h3, h4, of_decide_eq_true h⟩

theorem caseCalls_clear : ∀ x ∈ caseCalls, x ≠ .clear := by simp [caseCalls]

/-- C40_idempotent, C41_history, C41_clear_breaks and C41_clear_then_compute -/
example : ∃ c c' : Corr Q, c.calculateStandardCorrelation .fabs = .ok c' ∧ runCalls .fabs c' (List.replicate 3 .calculate) = .ok c' ∧
    (∃ rows, c.correlations = .ok rows ∧ rows.length = 1 ∧ ∀ row ∈ rows, row.length = c.lagTimeseries.length) ∧
    c.clearCorrelation.correlations = .ub ∧ c.clearCorrelation.calculateStandardCorrelation .fabs = .ub := by
  obtain ⟨d, c0, c, c', hd, h0, h1, h2, hN, hlo, hhi, hts⟩ := caseCalls_ok
  obtain ⟨_, h3, _⟩ := C41_history .fabs d hd c0 c h0 caseCalls caseCalls_clear h1
  rw [hN] at h3
  exact ⟨c, c', h2, C40_idempotent .fabs d hd c0 c c' h0 caseCalls caseCalls_clear h1 h2 3, h3,
    (C41_clear_breaks .fabs d hd c0 c h0 caseCalls caseCalls_clear h1 (by rw [hts]; simp [q])).2,
    C41_clear_then_compute d hd c0 c h0 caseCalls caseCalls_clear h1 (by rw [hlo, hhi]; decide +kernel)⟩

/-- C42_repeatable: three calls, the second of which fails -/
example : ∃ d : DS Q, session .fabs d [⟨{}, "natural", "fractional"⟩, ⟨{}, "nearest", "fractional"⟩, ⟨{}, "natural", "fractional"⟩]
    = [autocorrelation .fabs d, autocorrelation .fabs d {} "nearest", autocorrelation .fabs d] := by
  obtain ⟨d, c, hd, _⟩ := new3
  exact ⟨d, C42_repeatable .fabs d hd _⟩

end Sacf
