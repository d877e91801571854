import Verif.Cases.Objects
import Verif.Props.Reuse

/-! Cases for `Props/Reuse.lean`. -/

namespace Sacf

/-- the lags -3 .. 3 -/
theorem count7 (α : Q) : (⟨.fin (-3), .fin 3, .fin 1, α⟩ : Use Q).Count 7 := by
  refine ⟨7, (by unfold GridCount; decide +kernel : GridCount (.fin (-3) : Q) (.fin 3) (.fin 1) 7), ?_⟩
  unfold lagTotal
  rw [if_neg]
  show ¬ SkipsZero (.fin (-3) : Q) (.fin 1) 7
  unfold SkipsZero
  decide +kernel

/-- the lags 0 and 1 -/
theorem count2 (α : Q) : (⟨.fin 0, .fin 1, .fin 1, α⟩ : Use Q).Count 2 := by
  refine ⟨2, (by unfold GridCount; decide +kernel : GridCount (.fin 0 : Q) (.fin 1) (.fin 1) 2), ?_⟩
  unfold lagTotal
  rw [if_neg]
  show ¬ SkipsZero (.fin 0 : Q) (.fin 1) 2
  unfold SkipsZero
  decide +kernel

/-- the lags -1, 0 (inserted), 1/2 -/
theorem count3 (α : Q) : (⟨.fin (-1), .fin 1, .fin (3/2), α⟩ : Use Q).Count 3 := by
  refine ⟨2, (by unfold GridCount; decide +kernel : GridCount (.fin (-1) : Q) (.fin 1) (.fin (3/2)) 2), ?_⟩
  unfold lagTotal
  rw [if_pos]
  show SkipsZero (.fin (-1) : Q) (.fin (3/2)) 2
  unfold SkipsZero
  decide +kernel

/-- C86_slots: a computation over two lags leaves two of the nine slots -/
example : ∃ (c s : Corr Q) (log : List (Option Exc)), runSession .fabs c [.setMinLag (.float (.fin 0)), .setMaxLag (.float (.fin 1)), .calculate] = .ok (s, log) ∧
    s.lagTimeseries.length ≤ c.lagTimeseries.length ∧ c.lagTimeseries.length = 9 ∧ s.lagTimeseries.length = 2 := by
  obtain ⟨d, c, hd, hc, h0, h1⟩ := corr136 (fun _ c => c.lagTimeseries.length = 9 ∧ okThen (fun p => decide (p.1.lagTimeseries.length = 2))
    (runSession .fabs c [.setMinLag (.float (.fin 0)), .setMaxLag (.float (.fin 1)), .calculate]) = true) (by decide +kernel)
  obtain ⟨⟨s, log⟩, h2, h3⟩ := okThen_ok h1
  exact ⟨c, s, log, h2, C86_slots .fabs d hd c s (.start hc) _ (by simp) log h2, h0, by simpa using h3⟩

/-- C86_as_fresh: the Gaussian weight after a computation with the other one -/
example : ∃ (d : DS Q) (c1 c2 : Corr Q) (r : AcResult Q), pyFindCorrelation .fabs c1 "fast" "gaussian" = .ok c2 ∧
    autocorrelation .fabs d ⟨some (.fin 0), some (.fin 1), some (.fin 1), some (.fin 1)⟩ "fast" "gaussian" = .ok r ∧
    c2.lagTimeseries = r.lags ∧ c2.correlations = .ok r.corrs.rows := by
  obtain ⟨d, c, hd, hc, h1⟩ := corr136 (fun _ c => okThen (fun c1 => decide (c1.getMinLag = .fin 0 ∧ c1.getMaxLag = .fin 1 ∧ c1.getLagResolution = .fin 1 ∧
    c1.getAlpha = .fin 1) && okThen (fun _ => true) (pyFindCorrelation .fabs c1 "fast" "gaussian"))
    (((⟨.fin 0, .fin 1, .fin 1, .fin 1⟩ : Use Q).assign c).calculateStandardCorrelation .fabs) = true) (by decide +kernel)
  obtain ⟨c1, h2, h3⟩ := okThen_ok h1
  rw [Bool.and_eq_true, decide_eq_true_eq] at h3
  obtain ⟨⟨e1, e2, e3, e4⟩, h3⟩ := h3
  obtain ⟨c2, h4, _⟩ := okThen_ok h3
  obtain ⟨r, h5, h6, h7⟩ := (C86_as_fresh .fabs d hd c1 c2 (((Reached.start hc).assign _).calculate h2)).2 _ _ h4
  rw [e1, e2, e3, e4] at h5
  exact ⟨d, c1, c2, r, h4, h5, h6, h7⟩

/-- C86_one_use_partial, C86_sequence_partial, C86_alpha_scan: nine slots; seven, three, three and two lags in this order work, two before three do not -/
example : ∃ (d : DS Q) (c : Corr Q), Corr.new d = .ok c ∧
    (∃ out, reuse .fabs c [⟨.fin (-3), .fin 3, .fin 1, .fin 1⟩, ⟨.fin (-1), .fin 1, .fin (3/2), .fin 1⟩, ⟨.fin (-1), .fin 1, .fin (3/2), .fin 2⟩,
      ⟨.fin 0, .fin 1, .fin 1, .fin 1⟩] = .ok out ∧ out.length = 4) ∧
    reuse .fabs c [⟨.fin 0, .fin 1, .fin 1, .fin 1⟩, ⟨.fin (-1), .fin 1, .fin (3/2), .fin 1⟩] = .ub ∧
    (∃ out, reuse .fabs c ((q [1/2, 1, 2, 4]).map fun α => ⟨.fin (-3), .fin 3, .fin 1, α⟩) = .ok out ∧ out.length = 4) ∧
    (∃ c' : Corr Q, ((⟨.fin (-3), .fin 3, .fin 1, .fin 5⟩ : Use Q).assign c).calculateStandardCorrelation .fabs = .ok c' ∧ c'.lagTimeseries.length = 7) := by
  obtain ⟨d, c, hd, hc, h9⟩ := corr136 (fun _ c => c.lagTimeseries.length = 9) (by decide +kernel)
  have hr := Reached.start (a := .fabs) hc
  have hs := C86_sequence_partial d hd c hr
  obtain ⟨o1, h1, g1⟩ := (hs _ [7, 3, 3, 2] (.cons (count7 _) (.cons (count3 _) (.cons (count3 _) (.cons (count2 _) .nil))))).1 (by rw [h9]; decide)
  obtain ⟨o2, h2, g2⟩ := C86_alpha_scan d hd c hr (.fin (-3)) (.fin 3) (.fin 1) 7 count7 (by omega) (q [1/2, 1, 2, 4])
  obtain ⟨c', r, h3, _, _, _, _, h4⟩ := (C86_one_use_partial d hd c hr _).1 7 (count7 (.fin 5)) (by omega)
  exact ⟨d, c, hc, ⟨o1, h1, g1.length_eq.symm⟩, (hs _ [2, 3] (.cons (count2 _) (.cons (count3 _) .nil))).2 (by rw [h9]; decide), ⟨o2, h2, g2.length_eq.symm⟩,
    c', h3, h4⟩

end Sacf
