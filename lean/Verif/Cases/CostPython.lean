import Verif.Props.CostPython
import Verif.Cases.NamesFast

/-!
# Cases of C118
-/

namespace Sacf

open Arith

/-- C118_fast and C118_same_outcome: five lags of four samples, on a correlator that was used before -/
example : ∃ (c c' : Corr Q) (n : Nat), pyFindCorrelationT .fabs c "fast" "gaussian" = .ok (c', n) ∧
    pyFindCorrelation .fabs c "fast" "gaussian" = .ok c' ∧ n ≤ 5 * 36 + 1 := by
  obtain ⟨d, c0, hd, h0, h1, h2, h3⟩ := newOf_ok (q [0, 1, 3, 4]) [q [1, 2, 4, 0]] (fun d c => okThen (fun p =>
    okThen (fun c' => decide (c'.lagTimeseries.length = 5)) (pyFindCorrelation .fabs p.1 "fast" "gaussian"))
    (runSession .fabs c [.calculate, .setMinLag (.float (.fin (-2))), .setMaxLag (.float (.fin 2))]) = true ∧
    d.timeseries.length = 4 ∧ d.N = 1) (by decide +kernel)
  obtain ⟨⟨c, log⟩, h4, h5⟩ := okThen_ok h1
  obtain ⟨c', h6, h7⟩ := okThen_ok h5
  have h7 := of_decide_eq_true h7
  obtain ⟨n, h8, h9⟩ := C118_fast .fabs d (.table hd) c0 c c' h0 _ log h4 "gaussian" h6
  rw [h2, h3, h7] at h9
  exact ⟨c, c', n, h8, C118_same_outcome .fabs c "fast" "gaussian" ▸ Tick.val_ok h8, h9.trans (by decide)⟩

/-- C118_natural: the same with the natural selection -/
example : ∃ (c c' : Corr Q) (n : Nat), pyFindCorrelationT .fabs c "natural" "fractional_squared" = .ok (c', n) ∧ n ≤ 5 * 41 + 1 := by
  obtain ⟨d, c0, hd, h0, h1, h2, h3⟩ := newOf_ok (q [0, 1, 3, 4]) [q [1, 2, 4, 0]] (fun d c => okThen (fun p =>
    okThen (fun c' => decide (c'.lagTimeseries.length = 5)) (pyFindCorrelation .fabs p.1 "natural" "fractional_squared"))
    (runSession .fabs c [.calculate, .setMinLag (.float (.fin (-2))), .setMaxLag (.float (.fin 2))]) = true ∧
    d.timeseries.length = 4 ∧ d.N = 1) (by decide +kernel)
  obtain ⟨⟨c, log⟩, h4, h5⟩ := okThen_ok h1
  obtain ⟨c', h6, h7⟩ := okThen_ok h5
  have h7 := of_decide_eq_true h7
  obtain ⟨n, h8, h9⟩ := C118_natural .fabs d (.table hd) c0 c c' h0 _ log h4 "fractional_squared" h6
  rw [h2, h3, h7] at h9
  exact ⟨c, c', n, h8, h9.trans (by decide)⟩

/-- C118_drivers: a default correlator of three samples -/
example : ∃ (c c' : Corr Q) (n : Nat), pyFindCorrelationT .fabs c "natural" "fractional" = .ok (c', n) ∧
    Corr.calculateStandardCorrelationT .fabs c = .ok (c', n) := by
  obtain ⟨d, c, hd, hc, h1, h2⟩ := newOf_ok (q [0, 1, 3]) [q [1, 2, 4]] (fun _ c => le c.minLag c.maxLag = true ∧
    okThen (fun _ => true) (Corr.calculateStandardCorrelationT .fabs c) = true) (by decide +kernel)
  obtain ⟨⟨c', n⟩, h3, _⟩ := okThen_ok h2
  exact ⟨c, c', n, (C118_drivers .fabs c h1).trans h3, h3⟩

/-- C118_selection: seven samples at lag 0: the natural selection takes 21 steps or more, the fast one at most 24 -/
example : ∃ (c : Corr Q) (it it' : CorrIt Q) (n n' : Nat), Corr.naturalSelectionT .fabs c (CorrIt.new (.fin 0) 1) = .ok (it, n) ∧ 21 ≤ n ∧
    Corr.fastSelectionT .fabs c (CorrIt.new (.fin 0) 1) = .ok (it', n') ∧ n' ≤ 24 := by
  obtain ⟨d, c, hd, hc, h1, h2, h3⟩ := newOf_ok (q [0, 1, 3, 4, 6, 7, 9]) [q [1, 2, 4, 0, 1, 5, 2]] (fun d c =>
    okThen (fun p => decide (p.1.selection.length = 7)) (Corr.naturalSelectionT .fabs c (CorrIt.new (.fin 0) 1)) = true ∧
    okThen (fun _ => true) (Corr.fastSelectionT .fabs c (CorrIt.new (.fin 0) 1)) = true ∧ d.timeseries.length = 7) (by decide +kernel)
  obtain ⟨⟨it, n⟩, h4, h5⟩ := okThen_ok h1
  obtain ⟨⟨it', n'⟩, h6, _⟩ := okThen_ok h2
  obtain ⟨h7, h8⟩ := C118_selection .fabs d (.table hd) c c hc [] [] rfl (.fin 0) 1
  have h9 := h7 it n h4
  have h10 := h8 it' n' h6
  have h5 : it.selection.length = 7 := of_decide_eq_true h5
  rw [h3] at h9 h10
  rw [h5, show Nat.log 2 (7 + 1) = 3 by decide +kernel] at h9
  rw [show Nat.log 2 7 = 2 by decide +kernel] at h10
  exact ⟨c, it, it', n, n', h4, by omega, h6, by omega⟩

end Sacf
