import Verif.Props.NamesFast
import Verif.Cases.Base

/-!
# Cases of the theorem in `Props/NamesFast`
-/

namespace Sacf

/-- a new correlator on which `min_lag` is set to zero -/
theorem zeroMin (t : List Q) (rows : List (List Q)) (P : Corr Q → Prop) [∀ c, Decidable (P c)]
    (h : okThen (fun z => okThen (fun p => decide (P p.1)) (runSession .fabs z.2 [.setMinLag (.float (.fin 0))])) (newOf t rows) = true) :
    ∃ d c, Constructed d ∧ Reached .fabs d c ∧ P c := by
  obtain ⟨d, c0, hd, hc, h1⟩ := newOf_ok t rows (fun _ c => okThen (fun p => decide (P p.1)) (runSession .fabs c [.setMinLag (.float (.fin 0))]) = true) (by
    obtain ⟨z, hz, h1⟩ := okThen_ok h
    rw [hz]
    exact decide_eq_true h1)
  obtain ⟨p, hp, h2⟩ := okThen_ok h1
  exact ⟨d, p.1, .table hd, ⟨c0, _, p.2, hc, by simp, hp⟩, of_decide_eq_true h2⟩

/-- C68_weight_fast: a list as the weight function; times 0, 1, 3 (`TypeError`) and times 0, 4, -1, 5, out of order (`IndexError`, whatever the weight) -/
example : (∃ c : Corr Q, c.ds.normT = q [0, 1, 3] ∧ findOn .fabs (.str "fast") .unhashable c = .exn .typeError c) ∧
    ∃ c : Corr Q, c.ds.normT = q [0, 4, -1, 5] ∧ findOn .fabs (.str "fast") .unhashable c = .exn .indexError c ∧
      findOn .fabs (.str "fast") (.str "gaussian") c = .exn .indexError c := by
  constructor
  · obtain ⟨d, c, hd, hr, h1, h2, h3⟩ := zeroMin (q [0, 1, 3]) [q [1, 2, 6]] (fun c => Arith.le c.minLag c.maxLag = true ∧ c.ds.normT = q [0, 1, 3] ∧
      (findOn .fabs (.str "fast") (.str "gauss") c).res.bind (fun _ => .ok ()) ≠ .exn .indexError) (by decide +kernel)
    rcases C68_weight_fast .fabs d hd c hr h1 with h | h
    · exact ⟨c, h2, h _ _ rfl⟩
    · rw [h] at h3
      exact absurd rfl h3
  · obtain ⟨d, c, hd, hr, h1, h2, h3⟩ := zeroMin (q [0, 4, -1, 5]) [q [1, 2, 6, 3]] (fun c => Arith.le c.minLag c.maxLag = true ∧ c.ds.normT = q [0, 4, -1, 5] ∧
      (findOn .fabs (.str "fast") .unhashable c).res.bind (fun _ => .ok ()) ≠ .exn .typeError) (by decide +kernel)
    rcases C68_weight_fast .fabs d hd c hr h1 with h | h
    · rw [h .unhashable .typeError rfl] at h3
      exact absurd rfl h3
    · exact ⟨c, h2, h _, h _⟩

end Sacf
