import Verif.Props.Leak
import Verif.Cases.NamesFast

/-!
# Cases of C108
-/

namespace Sacf

/-- computing twice with an exception in between, then `clearCorrelation()` twice -/
def leaky : List (SCall Q) :=
  [.calculate, .find (.str "natural") (.str "fast"), .calculate, .clear, .setAlpha (.float (.fin 2)), .clear]

/-- C108_history and C108_same_outcome: two blocks are never released -/
example : ∃ (d : DS Q) (c0 c : Corr Q), Corr.new d = .ok c0 ∧
    runSessionMem .fabs (c0, 0) leaky = .ok ((c, 2), [none, some (.keyError "fast"), none, none, none, none]) ∧ c.getAlpha = .fin 2 ∧
    (runSessionMem .fabs (c0, 7) leaky).bind (fun p => .ok (p.1.1, p.2)) = .ok (c, [none, some (.keyError "fast"), none, none, none, none]) := by
  obtain ⟨d, c0, hd, h0, h1⟩ := newOf_ok (q [0, 1, 3]) [q [1, 2, 4]] (fun _ c => okThen (fun p =>
    decide (p.1.getAlpha = .fin 2 ∧ p.2 = [none, some (.keyError "fast"), none, none, none, none])) (runSession .fabs c leaky) = true) (by decide +kernel)
  obtain ⟨⟨c, log⟩, h2, h3⟩ := okThen_ok h1
  obtain ⟨h3, rfl⟩ := of_decide_eq_true h3
  exact ⟨d, c0, c, h0, C108_history .fabs d (.table hd) c0 c h0 leaky _ h2, h3, (C108_same_outcome .fabs d (.table hd) c0 h0 leaky 7).trans h2⟩

/-- C108_autocorrelation: a call that returns, and one that raises -/
example : ∃ (d : DS Q) (r : PyResult Q), autocorrelationMem .fabs d .none .none .none .none (.str "natural") (.str "fractional") .none 5 = .ok r 5 ∧
    autocorrelationMem .fabs d .none .none .none .none (.str "natural") (.str "fast") .none 5 = .exn (.keyError "fast") 5 := by
  obtain ⟨d, c0, hd, h0, h1⟩ := newOf_ok (q [0, 1, 3]) [q [1, 2, 4]] (fun d _ =>
    okThen (fun _ => true) (anyAutocorrelation .fabs d .none .none .none .none (.str "natural") (.str "fractional")) = true ∧
    (anyAutocorrelation .fabs d .none .none .none .none (.str "natural") (.str "fast")).bind (fun _ => .ok 0) = .exn (.keyError "fast")) (by decide +kernel)
  obtain ⟨r, h2, _⟩ := okThen_ok h1.1
  have h4 : anyAutocorrelation .fabs d .none .none .none .none (.str "natural") (.str "fast") = .exn (.keyError "fast") := by
    revert h1
    cases anyAutocorrelation .fabs d .none .none .none .none (.str "natural") (.str "fast") <;> simp
  refine ⟨d, r, ?_, ?_⟩
  · rw [C108_autocorrelation .fabs d (.table hd), h2]
  · rw [C108_autocorrelation .fabs d (.table hd), h4]

end Sacf
