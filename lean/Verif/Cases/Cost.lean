import Verif.Props.Cost
import Verif.Cases.NamesFast

/-!
# Cases of C110 and C111
-/

namespace Sacf

open Arith

/-- C111_new: two datasets of three samples, one of which is missing; nine slots for the lags -/
example : ∃ (d : DS Q) (c : Corr Q), Corr.newT d = .ok (c, 59) ∧ c.lagTimeseries.length = 9 := by
  obtain ⟨d, c, hd, hc, h1, h2, h3, h4⟩ := newOf_ok (q [0, 1, 3]) [q [1, 2, 4], [.fin 1, .nan, .fin 3]] (fun d c =>
    d.data2d = .ok [q [1, 2, 4], [.fin 1, .nan, .fin 3]] ∧ d.N = 2 ∧ d.timeseries.length = 3 ∧ c.lagTimeseries.length = 9) (by decide +kernel)
  have h5 := C111_new d (.table hd) _ h1 c hc
  rw [h2, h3, h4, show presentCount [q [1, 2, 4], [.fin 1, .nan, .fin 3]] = 5 by decide +kernel] at h5
  exact ⟨d, c, h5, h4⟩

/-- C111_quadratic: three datasets of four samples -/
example : ∃ (d : DS Q) (c : Corr Q) (n : Nat), Corr.newT d = .ok (c, n) ∧ 72 ≤ n := by
  obtain ⟨d, c, hd, hc, h1, h2, h3⟩ := newOf_ok (q [0, 1, 3, 4]) [q [1, 2, 4, 0], q [3, 1, 4, 1], q [5, 9, 2, 6]] (fun d c =>
    d.data2d = .ok [q [1, 2, 4, 0], q [3, 1, 4, 1], q [5, 9, 2, 6]] ∧ d.N = 3 ∧ d.timeseries.length = 4) (by decide +kernel)
  have hn := C111_new d (.table hd) _ h1 c hc
  have := C111_quadratic d (.table hd) _ h1 (by decide +kernel) c _ hn
  rw [h2, h3] at this hn
  exact ⟨d, c, _, hn, this⟩

/-- C110_calculate and C110_same_outcome: three lags on a correlator that was used before -/
example : ∃ (c c' : Corr Q) (n : Nat), Corr.calculateStandardCorrelationT .fabs c = .ok (c', n) ∧
    Corr.calculateStandardCorrelation .fabs c = .ok c' ∧ n ≤ 3 * 30 + 1 := by
  obtain ⟨d, c0, hd, h0, h1, h2, h3⟩ := newOf_ok (q [0, 1, 3]) [q [1, 2, 4]] (fun d c => okThen (fun p =>
    okThen (fun c' => decide (c'.lagTimeseries.length = 3)) (Corr.calculateStandardCorrelation .fabs p.1))
    (runSession .fabs c [.calculate, .setMinLag (.float (.fin 0)), .setMaxLag (.float (.fin 2)), .find (.str "natural") (.str "gauss")]) = true ∧
    d.timeseries.length = 3 ∧ d.N = 1) (by decide +kernel)
  obtain ⟨⟨c, log⟩, h4, h5⟩ := okThen_ok h1
  obtain ⟨c', h6, h7⟩ := okThen_ok h5
  have h7 := of_decide_eq_true h7
  obtain ⟨n, h8, h9⟩ := C110_calculate .fabs d (.table hd) c0 c c' h0 _ log h4 h6
  rw [h2, h3, h7] at h9
  exact ⟨c, c', n, h8, (C110_same_outcome .fabs d c {}).2.1 ▸ Tick.val_ok h8, h9.trans (by decide)⟩

/-- C110_autocorrelation: seven lags -/
example : ∃ (d : DS Q) (r : AcResult Q) (n : Nat), autocorrelationT .fabs d {} = .ok (r, n) ∧ r.lags.length = 7 ∧ n ≤ 32 + (7 * 37 + 3) := by
  obtain ⟨d, c0, hd, h0, h1, h2, h3, h4⟩ := newOf_ok (q [0, 1, 3]) [q [1, 2, 4]] (fun d c =>
    okThen (fun r => decide (r.lags.length = 7)) (autocorrelation .fabs d) = true ∧ d.timeseries.length = 3 ∧ d.N = 1 ∧
    c.lagTimeseries.length = 9) (by decide +kernel)
  obtain ⟨r, h5, h6⟩ := okThen_ok h1
  have h6 := of_decide_eq_true h6
  obtain ⟨c1, n, h7, h8, h9⟩ := C110_autocorrelation .fabs d (.table hd) {} r h5
  rw [h0] at h7
  cases h7
  rw [h2, h3, h4, h6] at h9
  exact ⟨d, r, n, h8, h6, h9.trans (by decide)⟩

end Sacf
